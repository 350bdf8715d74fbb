import Verif.Spec.Kantorovich
import Verif.Proofs.Accuracy
import Verif.Proofs.Local
import Verif.Proofs.NewtonRun
import Mathlib.Analysis.Calculus.Deriv.Prod
import Mathlib.Analysis.Calculus.LocalExtr.Rolle
import Mathlib.Tactic.Module
import Mathlib.Topology.MetricSpace.ProperSpace.Real
import Mathlib.Topology.Order.Compact

/-!
# The theorem of Kantorovich for Newton's method
-/

set_option linter.unusedSectionVars false

namespace Nrf
open Spec
open scoped Exact Topology
open Matrix

variable {n : Nat}

namespace Kantorovich
variable {F : Vec ℝ n → Vec ℝ n} {jac : Vec ℝ n → Mat ℝ n} {x : Vec ℝ n} {η ω : ℝ}

theorem eta_nonneg (h : Kantorovich F jac x η ω) : 0 ≤ η := (norm_nonneg _).trans h.first

/-- The derivative of `F` along a segment, multiplied by a matrix. -/
theorem along {F : Vec ℝ n → Vec ℝ n} {J B : Mat ℝ n} {x d : Vec ℝ n} {t : ℝ} (h : IsJacobian F J (x + t • d)) (i : Fin n) :
    HasDerivAt (fun t : ℝ => (B *ᵥ F (x + t • d)) i) ((B *ᵥ (J *ᵥ d)) i) t := by
  have h1 : HasDerivAt (fun t : ℝ => x + t • d) d t := by
    simpa using ((hasDerivAt_id t).smul_const d).const_add x
  have h0 : HasFDerivAt F (Matrix.mulVecLin J).toContinuousLinearMap (x + t • d) := h
  have h2 : HasDerivAt (fun t : ℝ => F (x + t • d)) _ t := h0.comp_hasDerivAt t h1
  have h3 : HasDerivAt (fun t : ℝ => B *ᵥ F (x + t • d)) _ t :=
    (Matrix.mulVecLin B).toContinuousLinearMap.hasFDerivAt.comp_hasDerivAt t h2
  exact hasDerivAt_pi.1 h3 i

/-- What a step does. -/
theorem step (h : Kantorovich F jac x η ω) {x' : Vec ℝ n} (hx' : x' = x - (jac x)⁻¹ *ᵥ F x) :
    Kantorovich F jac x' (ω * η ^ 2 / (2 * (1 - ω * η))) (ω / (1 - ω * η)) ∧
      2 * (ω * η ^ 2 / (2 * (1 - ω * η))) ≤ η ∧ ‖x' - x‖ ≤ η := by
  have hη := eta_nonneg h
  have hω := h.nonneg
  have hs := h.small
  have hpos : 0 < 1 - ω * η := by linarith
  set η' := ω * η ^ 2 / (2 * (1 - ω * η)) with hη'
  have hη'0 : 0 ≤ η' := by positivity
  have hhalf : 2 * η' ≤ η := by
    rw [hη', ← mul_div_assoc, div_le_iff₀ (by positivity)]
    nlinarith [mul_nonneg hη (show 0 ≤ 1 - 2 * (ω * η) by linarith)]
  set d := -((jac x)⁻¹ *ᵥ F x) with hd
  have hxd : x' = x + d := by rw [hx', hd]; abel
  have hdn : ‖d‖ ≤ η := by rw [hd, norm_neg]; exact h.first
  have hx'x : ‖x' - x‖ ≤ η := by rw [hxd, add_sub_cancel_left]; exact hdn
  have hball : ∀ y, ‖y - x'‖ ≤ 2 * η' → ‖y - x‖ ≤ 2 * η := by
    intro y hy
    have := norm_sub_le_norm_sub_add_norm_sub y x' x
    linarith
  have hx'2 : ‖x' - x‖ ≤ 2 * η := by linarith
  have hself : ‖x - x‖ ≤ 2 * η := by simpa using hη
  -- the new Jacobian seen from the old one
  have hE : ∀ v, (1 - ω * η) * ‖v‖ ≤ ‖(jac x)⁻¹ *ᵥ (jac x' *ᵥ v)‖ := by
    intro v
    have h1 := h.lipschitz x' x hx'2 hself v
    have e : (jac x)⁻¹ *ᵥ ((jac x' - jac x) *ᵥ v) = (jac x)⁻¹ *ᵥ (jac x' *ᵥ v) - v := by
      rw [Matrix.sub_mulVec, Matrix.mulVec_sub, Matrix.mulVec_mulVec _ _ (jac x), ex_inv_mul h.invertible, Matrix.one_mulVec]
    rw [e] at h1
    have h2 : ω * ‖x' - x‖ * ‖v‖ ≤ ω * η * ‖v‖ :=
      mul_le_mul_of_nonneg_right (mul_le_mul_of_nonneg_left hx'x hω) (norm_nonneg _)
    have h3 : ‖v‖ ≤ ‖(jac x)⁻¹ *ᵥ (jac x' *ᵥ v)‖ + ‖(jac x)⁻¹ *ᵥ (jac x' *ᵥ v) - v‖ := by
      rw [norm_sub_rev]
      have := norm_sub_le_norm_sub_add_norm_sub v ((jac x)⁻¹ *ᵥ (jac x' *ᵥ v)) 0
      simp only [sub_zero] at this
      linarith
    linarith
  have hdet : (jac x').det ≠ 0 := by
    intro h0
    obtain ⟨v, hv, hv0⟩ := Matrix.exists_mulVec_eq_zero_iff.2 h0
    have := hE v
    rw [hv0, Matrix.mulVec_zero, norm_zero] at this
    exact hv (norm_le_zero_iff.1 (by nlinarith [norm_nonneg v]))
  -- vectors seen from the new Jacobian
  have hnew : ∀ w, ‖(jac x')⁻¹ *ᵥ w‖ ≤ ‖(jac x)⁻¹ *ᵥ w‖ / (1 - ω * η) := by
    intro w
    have := hE ((jac x')⁻¹ *ᵥ w)
    rw [Matrix.mulVec_mulVec _ (jac x'), ex_mul_inv hdet, Matrix.one_mulVec] at this
    rw [le_div_iff₀ hpos]
    linarith
  have hF : ‖(jac x)⁻¹ *ᵥ F x'‖ ≤ ω * η ^ 2 / 2 := by
    refine (pi_norm_le_iff_of_nonneg (by positivity)).2 fun i => ?_
    have hin : ∀ t : ℝ, |t| ≤ 1 → ‖x + t • d - x‖ ≤ |t| * η ∧ ‖x + t • d - x‖ ≤ 2 * η := by
      intro t ht
      rw [add_sub_cancel_left, norm_smul, Real.norm_eq_abs]
      have := abs_nonneg t
      have h1 : |t| * ‖d‖ ≤ |t| * η := mul_le_mul_of_nonneg_left hdn this
      exact ⟨h1, by nlinarith⟩
    have hq := quotient_error (φ := fun t => ((jac x)⁻¹ *ᵥ F (x + t • d)) i)
      (G := fun t => ((jac x)⁻¹ *ᵥ (jac (x + t • d) *ᵥ d)) i) (p := 1) (L := ω * η ^ 2) one_ne_zero
      (fun t ht => along (h.jacobian _ (hin t (by simpa using ht)).2) i)
      (fun t ht => by
        obtain ⟨h1, h2⟩ := hin t (by simpa using ht)
        have h3 := (norm_le_pi_norm _ i).trans (h.lipschitz _ x h2 hself d)
        rw [Matrix.sub_mulVec, Matrix.mulVec_sub] at h3
        simp only [zero_smul, add_zero]
        refine le_trans h3 ?_
        have h4 : ω * ‖x + t • d - x‖ ≤ ω * (|t| * η) := mul_le_mul_of_nonneg_left h1 hω
        calc ω * ‖x + t • d - x‖ * ‖d‖ ≤ ω * (|t| * η) * η := mul_le_mul h4 hdn (norm_nonneg _) (by positivity)
          _ = ω * η ^ 2 * |t| := by ring)
    simp only [one_smul, zero_smul, add_zero, div_one, abs_one, mul_one] at hq
    rw [Matrix.mulVec_mulVec _ _ (jac x), ex_inv_mul h.invertible, Matrix.one_mulVec, ← hxd, hd, Pi.neg_apply] at hq
    rw [Real.norm_eq_abs]
    convert hq using 2
    ring
  refine ⟨⟨fun y hy => h.jacobian y (hball y hy), hdet, ?_, ?_, by positivity, ?_⟩, hhalf, hx'x⟩
  · refine (hnew _).trans ?_
    rw [hη', ← div_div]
    exact div_le_div_of_nonneg_right hF hpos.le
  · intro y z hy hz v
    refine (hnew _).trans ?_
    rw [div_mul_eq_mul_div, div_mul_eq_mul_div]
    exact div_le_div_of_nonneg_right (h.lipschitz y z (hball y hy) (hball z hz) v) hpos.le
  · rw [hη', div_mul_div_comm, div_le_iff₀ (by positivity)]
    nlinarith [mul_nonneg hω hη]

/-- The Jacobian is bounded in the neighbourhood. -/
theorem bounded (h : Kantorovich F jac x η ω) : ∃ b > 0, ∀ y, ‖y - x‖ ≤ 2 * η → ∀ v, ‖jac y *ᵥ v‖ ≤ b * ‖v‖ := by
  have hentry : ∀ i k, |jac x i k| ≤ ∑ i, ∑ k, |jac x i k| + 1 := by
    intro i k
    have h1 := Finset.single_le_sum (f := fun k => |jac x i k|) (fun k _ => abs_nonneg _) (Finset.mem_univ k)
    have h2 := Finset.single_le_sum (f := fun i => ∑ k, |jac x i k|)
      (fun k _ => Finset.sum_nonneg fun _ _ => abs_nonneg _) (Finset.mem_univ i)
    linarith
  set a := ∑ i, ∑ k, |jac x i k| + 1 with ha
  have ha0 : 0 < a := by positivity
  refine ⟨n * (a * 2) + 1, by positivity, fun y hy v => ?_⟩
  have hη := eta_nonneg h
  have h1 := h.lipschitz y x hy (by simpa using hη) v
  have h2 : ω * ‖y - x‖ * ‖v‖ ≤ 1 * ‖v‖ := by
    refine mul_le_mul_of_nonneg_right ?_ (norm_nonneg _)
    have := mul_le_mul_of_nonneg_left hy h.nonneg
    have := h.small
    linarith
  have e : jac y *ᵥ v = jac x *ᵥ (v + (jac x)⁻¹ *ᵥ ((jac y - jac x) *ᵥ v)) := by
    rw [Matrix.mulVec_add, Matrix.mulVec_mulVec, ex_mul_inv h.invertible, Matrix.one_mulVec, Matrix.sub_mulVec]
    abel
  rw [e]
  have h3 : ‖v + (jac x)⁻¹ *ᵥ ((jac y - jac x) *ᵥ v)‖ ≤ 2 * ‖v‖ := (norm_add_le _ _).trans (by linarith)
  refine (mulVec_le hentry h3 ha0.le).trans ?_
  have := norm_nonneg v
  nlinarith

/-- The residuals are bounded by the length of the step. -/
theorem residual_le {x0 : Vec ℝ n} {η0 b : ℝ} (hb : ∀ y, ‖y - x0‖ ≤ 2 * η0 → ∀ v, ‖jac y *ᵥ v‖ ≤ b * ‖v‖) (hb0 : 0 < b)
    (h : Kantorovich F jac x η ω) (hx : ‖x - x0‖ ≤ 2 * η0) : ‖F x‖ ≤ b * η := by
  have e : F x = jac x *ᵥ ((jac x)⁻¹ *ᵥ F x) := by
    rw [Matrix.mulVec_mulVec, ex_mul_inv h.invertible, Matrix.one_mulVec]
  rw [e]
  exact (hb x hx _).trans (mul_le_mul_of_nonneg_left h.first hb0.le)

/-- What is known after `k` steps from `x0`. -/
def After (F : Vec ℝ n → Vec ℝ n) (jac : Vec ℝ n → Mat ℝ n) (x0 : Vec ℝ n) (η : ℝ) (k : Nat) (y : Vec ℝ n) : Prop :=
  ∃ η' ω', Kantorovich F jac y η' ω' ∧ η' ≤ (1 / 2) ^ k * η ∧ ‖y - x0‖ + 2 * η' ≤ 2 * η

theorem after_zero (h : Kantorovich F jac x η ω) : After F jac x η 0 x :=
  ⟨η, ω, h, by simp, by simp⟩

theorem after_step {x0 y : Vec ℝ n} {k : Nat} (h : After F jac x0 η k y) :
    After F jac x0 η (k + 1) (y - (jac y)⁻¹ *ᵥ F y) := by
  obtain ⟨η', ω', h1, h2, h3⟩ := h
  obtain ⟨g1, g2, g3⟩ := step h1 rfl
  refine ⟨_, _, g1, ?_, ?_⟩
  · have e : (1 / 2 : ℝ) ^ (k + 1) * η = (1 / 2) ^ k * η / 2 := by rw [pow_succ]; ring
    rw [e]; linarith
  · have := norm_sub_le_norm_sub_add_norm_sub (y - (jac y)⁻¹ *ᵥ F y) y x0
    linarith

/-- There is a root within `2 η`. -/
theorem root (h : Kantorovich F jac x η ω) : ∃ r, ‖r - x‖ ≤ 2 * η ∧ F r = 0 := by
  have hη := eta_nonneg h
  obtain ⟨b, hb0, hb⟩ := bounded h
  have hcont : ContinuousOn (fun y => ‖F y‖) (Metric.closedBall x (2 * η)) := by
    intro y hy
    have h1 : HasFDerivAt F _ y := h.jacobian y (by rw [← dist_eq_norm]; exact hy)
    exact h1.continuousAt.norm.continuousWithinAt
  obtain ⟨r, hr, hmin⟩ := (isCompact_closedBall x (2 * η)).exists_isMinOn
    ⟨x, Metric.mem_closedBall_self (by linarith)⟩ hcont
  refine ⟨r, by rw [← dist_eq_norm]; exact hr, norm_le_zero_iff.1 ?_⟩
  have hall : ∀ k, ∃ y, After F jac x η k y := by
    intro k
    induction k with
    | zero => exact ⟨x, after_zero h⟩
    | succ k ih => exact ⟨_, after_step ih.choose_spec⟩
  have hle : ∀ k : ℕ, ‖F r‖ ≤ (1 / 2) ^ k * (b * η) := by
    intro k
    obtain ⟨y, η', ω', h1, h2, h3⟩ := hall k
    have hη' := eta_nonneg h1
    have hy : ‖y - x‖ ≤ 2 * η := by linarith
    have h4 : ‖F r‖ ≤ ‖F y‖ := hmin (by rw [Metric.mem_closedBall, dist_eq_norm]; exact hy)
    have h5 := residual_le hb hb0 h1 hy
    have h6 := mul_le_mul_of_nonneg_left h2 hb0.le
    linarith
  refine le_of_forall_pos_le_add fun ε hε => ?_
  rw [zero_add]
  obtain ⟨k, hk⟩ := exists_pow_lt_of_lt_one (show 0 < ε / (b * η + 1) by positivity) (show (1 / 2 : ℝ) < 1 by norm_num)
  refine (hle k).trans ?_
  rw [lt_div_iff₀ (by positivity)] at hk
  have : 0 ≤ (1 / 2 : ℝ) ^ k := by positivity
  nlinarith

/-- There is no other root within `2 η`. -/
theorem unique (h : Kantorovich F jac x η ω) (hs : ω * η < 1 / 2) {r r' : Vec ℝ n} (hr : ‖r - x‖ ≤ 2 * η) (hr0 : F r = 0)
    (hr' : ‖r' - x‖ ≤ 2 * η) (hr'0 : F r' = 0) : r = r' := by
  have hη := eta_nonneg h
  set d := r' - r with hd
  have hin : ∀ t : ℝ, 0 ≤ t → t ≤ 1 → ‖r + t • d - x‖ ≤ 2 * η := by
    intro t h0 h1
    have e : r + t • d - x = (1 - t) • (r - x) + t • (r' - x) := by rw [hd]; module
    rw [e]
    refine (norm_add_le _ _).trans ?_
    rw [norm_smul, norm_smul, Real.norm_of_nonneg h0, Real.norm_of_nonneg (by linarith : 0 ≤ 1 - t)]
    have := mul_le_mul_of_nonneg_left hr (by linarith : 0 ≤ 1 - t)
    have := mul_le_mul_of_nonneg_left hr' h0
    linarith
  have hdi : ∀ i, |d i| ≤ 2 * (ω * η) * ‖d‖ := by
    intro i
    obtain ⟨t, ⟨ht0, ht1⟩, hz⟩ := exists_hasDerivAt_eq_zero (f := fun t : ℝ => ((jac x)⁻¹ *ᵥ F (r + t • d)) i)
      (f' := fun t => ((jac x)⁻¹ *ᵥ (jac (r + t • d) *ᵥ d)) i) (zero_lt_one' ℝ)
      (fun t ht => (along (h.jacobian _ (hin t ht.1 ht.2)) i).continuousAt.continuousWithinAt)
      (by simp [hd, hr0, hr'0])
      (fun t ht => along (h.jacobian _ (hin t ht.1.le ht.2.le)) i)
    have h1 := (norm_le_pi_norm _ i).trans (h.lipschitz _ x (hin t ht0.le ht1.le) (by simpa using hη) d)
    rw [Matrix.sub_mulVec, Matrix.mulVec_sub, Matrix.mulVec_mulVec _ _ (jac x), ex_inv_mul h.invertible, Matrix.one_mulVec,
      Pi.sub_apply, hz, zero_sub, norm_neg] at h1
    refine h1.trans (mul_le_mul_of_nonneg_right ?_ (norm_nonneg _))
    have := mul_le_mul_of_nonneg_left (hin t ht0.le ht1.le) h.nonneg
    linarith
  have hdn : ‖d‖ ≤ 2 * (ω * η) * ‖d‖ := (pi_norm_le_iff_of_nonneg
    (mul_nonneg (mul_nonneg two_pos.le (mul_nonneg h.nonneg hη)) (norm_nonneg _))).2 hdi
  have h0 : ‖d‖ ≤ 0 := by nlinarith [norm_nonneg d]
  rw [norm_le_zero_iff, hd, sub_eq_zero] at h0
  exact h0.symm

end Kantorovich
end Nrf
