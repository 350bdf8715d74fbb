import Verif.Proofs.Exact
import Mathlib.Analysis.Calculus.Deriv.Abs
import Mathlib.Analysis.Calculus.Deriv.Inv
import Mathlib.Analysis.Calculus.FDeriv.Prod

/-!
# Derivatives of the normalized residuals
-/

namespace Nrf
open scoped Exact

variable {E : Type} [NormedAddCommGroup E] [NormedSpace ℝ E]

/-- The quotient of two strictly differentiable functions. -/
theorem strict_div {u w : E → ℝ} {u' w' : E →L[ℝ] ℝ} {x : E} (hu : HasStrictFDerivAt u u' x)
    (hw : HasStrictFDerivAt w w' x) (h : w x ≠ 0) :
    HasStrictFDerivAt (fun z => u z / w z) ((w x ^ 2)⁻¹ • (w x • u' - u x • w')) x := by
  have h1 := hu.mul ((hasStrictDerivAt_inv h).comp_hasStrictFDerivAt x hw)
  have e : (fun z => u z / w z) = u * (Inv.inv ∘ w) := by
    funext z; simp [div_eq_mul_inv]
  rw [e]
  refine h1.congr_fderiv ?_
  ext v
  simp
  field_simp
  ring

/-- The normalized residual of two strictly differentiable sides. -/
theorem strict_residual {l r : E → ℝ} {l' r' : E →L[ℝ] ℝ} {x : E} (hl : HasStrictFDerivAt l l' x)
    (hr : HasStrictFDerivAt r r' x) (m : NormalizationMethod) (h : m ≠ .Abs → l x + r x ≠ 0) :
    ∃ D : E →L[ℝ] ℝ, HasStrictFDerivAt (fun z => Spec.residual m (l z) (r z)) D x ∧
      ∀ v, D v = derivNormalization (l x) (r x) (l' v) (r' v) m := by
  cases m with
  | Abs => exact ⟨l' - r', hl.sub hr, fun v => rfl⟩
  | Rel =>
    have hne := h (by simp)
    have hs : HasStrictFDerivAt (fun z => |l z + r z|) (if 0 ≤ l x + r x then l' + r' else -(l' + r')) x := by
      rcases lt_or_gt_of_ne hne with h0 | h0
      · rw [if_neg (not_le.2 h0)]; exact (hl.add hr).abs_of_neg h0
      · rw [if_pos h0.le]; exact (hl.add hr).abs_of_pos h0
    have hw : HasStrictFDerivAt (fun z => |l z + r z| / 2)
        ((1 / 2 : ℝ) • (if 0 ≤ l x + r x then l' + r' else -(l' + r'))) x := by
      have := hs.const_smul (1 / 2 : ℝ)
      refine this.congr_of_eventuallyEq (Filter.Eventually.of_forall fun z => ?_)
      simp; ring
    have h2 : |l x + r x| / 2 ≠ 0 := div_ne_zero (abs_ne_zero.2 hne) two_ne_zero
    refine ⟨_, strict_div (hl.sub hr) hw h2, fun v => ?_⟩
    change _ = 2 * ((l' v - r' v) * |l x + r x| -
      (l' v + r' v) * (l x - r x) * (if 0 ≤ l x + r x then 1 else -1)) / ((l x + r x) * (l x + r x))
    have hsq : (l x + r x) * (l x + r x) = |l x + r x| * |l x + r x| := (abs_mul_abs_self _).symm
    have hab := abs_ne_zero.2 hne
    rw [hsq]
    generalize |l x + r x| = A at hab ⊢
    split <;> simp <;> field_simp <;> ring
  | Adapt =>
    have hne := h (by simp)
    have hs : HasStrictFDerivAt (fun z => |l z + r z|) (if 0 ≤ l x + r x then l' + r' else -(l' + r')) x := by
      rcases lt_or_gt_of_ne hne with h0 | h0
      · rw [if_neg (not_le.2 h0)]; exact (hl.add hr).abs_of_neg h0
      · rw [if_pos h0.le]; exact (hl.add hr).abs_of_pos h0
    have hw : HasStrictFDerivAt (fun z => 1 + |l z + r z| / 2)
        ((1 / 2 : ℝ) • (if 0 ≤ l x + r x then l' + r' else -(l' + r'))) x := by
      have := (hs.const_smul (1 / 2 : ℝ)).const_add 1
      refine this.congr_of_eventuallyEq (Filter.Eventually.of_forall fun z => ?_)
      simp; ring
    have h0 := abs_nonneg (l x + r x)
    have h2 : 1 + |l x + r x| / 2 ≠ 0 := by positivity
    refine ⟨_, strict_div (hl.sub hr) hw h2, fun v => ?_⟩
    change _ = ((l' v - r' v) * (1 + |(l x + r x) / 2|) -
      (l' v + r' v) / 2 * (if 0 ≤ (l x + r x) / 2 then 1 else -1) * (l x - r x)) /
        ((1 + |(l x + r x) / 2|) * (1 + |(l x + r x) / 2|))
    have hab : |(l x + r x) / 2| = |l x + r x| / 2 := by rw [abs_div, abs_two]
    have hsg : (0 ≤ (l x + r x) / 2) ↔ 0 ≤ l x + r x := by
      constructor <;> intro h <;> linarith
    rw [hab]
    by_cases hc : 0 ≤ l x + r x
    · rw [if_pos (hsg.2 hc), if_pos hc]; simp; field_simp
    · rw [if_neg (mt hsg.1 hc), if_neg hc]; simp; field_simp; ring

end Nrf
