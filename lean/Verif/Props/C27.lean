import Verif.Proofs.Calculus
import Mathlib.Analysis.Calculus.Deriv.Prod
import Mathlib.Analysis.Calculus.Deriv.Slope
import Mathlib.Analysis.Calculus.Deriv.Pow

/-!
# C27: `deriv_normalization` is the derivative of `normalization`
-/

namespace Nrf
open scoped Exact

/-- For all differentiable sides, at every point where the sum is not zero (everywhere for `Abs`). -/
theorem C27_derivative (l r : ℝ → ℝ) (l' r' t : ℝ) (hl : HasDerivAt l l' t) (hr : HasDerivAt r r' t)
    (m : NormalizationMethod) (h : m ≠ .Abs → l t + r t ≠ 0) :
    HasDerivAt (fun s => normalization (l s) (r s) m)
      (derivNormalization (l t) (r t) l' r' m) t := by
  obtain ⟨D, hD, hv⟩ := strict_residual (E := ℝ × ℝ) (x := (l t, r t)) hasStrictFDerivAt_fst
    hasStrictFDerivAt_snd m h
  have hp : HasDerivAt (fun s => (l s, r s)) (l', r') t := hl.prodMk hr
  have := HasFDerivAt.comp_hasDerivAt (f := fun s => (l s, r s)) t hD.hasFDerivAt hp
  simp only [normalization_exact]
  rw [hv] at this
  exact this

/-- `Adapt` is differentiable also where both sides vanish, with the same formula. -/
theorem C27_adapt_at_zero (l r : ℝ → ℝ) (l' r' t : ℝ) (hl : HasDerivAt l l' t)
    (hr : HasDerivAt r r' t) (hl0 : l t = 0) (hr0 : r t = 0) :
    HasDerivAt (fun s => normalization (l s) (r s) .Adapt)
      (derivNormalization (l t) (r t) l' r' .Adapt) t := by
  have e : derivNormalization (l t) (r t) l' r' .Adapt = (l' - r') * (1 + |l t + r t| / 2)⁻¹ := by
    rw [hl0, hr0]
    change ((l' - r') * (1 + |((0 : ℝ) + 0) / 2|) - ((l' + r') / 2) * _ * (0 - 0)) /
      ((1 + |((0 : ℝ) + 0) / 2|) * (1 + |((0 : ℝ) + 0) / 2|)) = _
    simp
  simp only [normalization_exact]
  rw [e, hasDerivAt_iff_tendsto_slope]
  have h1 := hasDerivAt_iff_tendsto_slope.1 (hl.sub hr)
  have hc : ContinuousAt (fun s => (1 + |l s + r s| / 2)⁻¹) t := by
    have h2 : ContinuousAt (fun s => 1 + |l s + r s| / 2) t :=
      ((hl.continuousAt.add hr.continuousAt).abs.div_const 2).const_add 1
    refine h2.inv₀ ?_
    have := abs_nonneg (l t + r t)
    positivity
  have h2 := h1.mul (hc.tendsto.mono_left nhdsWithin_le_nhds)
  refine h2.congr fun s => ?_
  simp [slope, Spec.residual, hl0, hr0, div_eq_mul_inv, mul_assoc]

/-- Without the condition the claim fails: for sides `1 + t` and `-1` the adaptive residual is not
differentiable at `t = 0`. -/
theorem C27_needs_nonzero_sum :
    ¬ DifferentiableAt ℝ (fun t : ℝ => normalization (1 + t) (-1) .Adapt) 0 := by
  intro hd
  have hd2 : DifferentiableAt ℝ (fun t : ℝ => 2 * ((2 + t) / normalization (1 + t) (-1) .Adapt - 1)) 0 := by
    have hne : normalization (1 + (0 : ℝ)) (-1) .Adapt ≠ 0 := by
      rw [normalization_exact]; simp [Spec.residual]
    fun_prop (disch := exact hne)
  refine not_differentiableAt_abs_zero (hd2.congr_of_eventuallyEq ?_)
  have : ∀ᶠ t : ℝ in nhds 0, t ∈ Set.Ioo (-1 : ℝ) 1 := Ioo_mem_nhds (by norm_num) (by norm_num)
  filter_upwards [this] with t ht
  have h2 : (2 + t) ≠ 0 := by have := ht.1; linarith
  have h0 := abs_nonneg t
  rw [normalization_exact]
  simp only [Spec.residual]
  rw [show 1 + t + -1 = t by ring, show 1 + t - -1 = 2 + t by ring]
  have h3 : 1 + |t| / 2 ≠ 0 := by positivity
  field_simp
  ring

/-- The hypotheses hold for `t² = 3 t` at `t = 1`. -/
example : HasDerivAt (fun t : ℝ => t ^ 2) 2 1 ∧ HasDerivAt (fun t : ℝ => 3 * t) 3 1 ∧
    (fun t : ℝ => t ^ 2) 1 + (fun t : ℝ => 3 * t) 1 ≠ 0 := by
  refine ⟨?_, ?_, by norm_num⟩
  · simpa using hasDerivAt_pow 2 (1 : ℝ)
  · simpa using (hasDerivAt_id (1 : ℝ)).const_mul 3

end Nrf
