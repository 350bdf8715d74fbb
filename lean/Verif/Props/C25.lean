import Verif.Proofs.Exact
import Verif.Proofs.FloatArith
import Verif.Model.Binary64

/-!
# C25: normalization is symmetric and detects disagreement
-/

namespace Nrf

open scoped Exact in
/-- Exact arithmetic, all values and methods: exchanging the sides changes the sign. -/
theorem C25_antisymmetric {K : Type} [Field K] [LinearOrder K] [IsStrictOrderedRing K] (x y : K)
    (m : NormalizationMethod) : normalization y x m = -normalization x y m := by
  rw [normalization_exact, normalization_exact]
  cases m <;> simp only [Spec.residual, add_comm y x] <;> ring

open scoped Exact in
/-- Exact arithmetic: the residual vanishes exactly when both sides agree (`Rel` needs a non-zero
sum). -/
theorem C25_zero_iff {K : Type} [Field K] [LinearOrder K] [IsStrictOrderedRing K] (x y : K)
    (m : NormalizationMethod) (h : m = .Rel → x + y ≠ 0) : normalization x y m = 0 ↔ x = y := by
  rw [normalization_exact]
  cases m with
  | Abs => exact sub_eq_zero
  | Rel =>
    have : |x + y| / 2 ≠ 0 := div_ne_zero (abs_ne_zero.2 (h rfl)) two_ne_zero
    simp [Spec.residual, div_eq_zero_iff, this, sub_eq_zero, h rfl]
  | Adapt =>
    have : 1 + |x + y| / 2 ≠ 0 := by
      have := abs_nonneg (x + y)
      positivity
    simp [Spec.residual, div_eq_zero_iff, this, sub_eq_zero]

section Float
open Fl
variable {K : Type} [Field K] [LinearOrder K] [Rounding K] [IsStrictOrderedRing K]

/-- Floating point, for all values including NaN and infinities and in every dimension: the stopping
residuals do not depend on which side of each equation is called left. -/
theorem C25_float_symmetric {n : Nat} (r : ResConf n) (v : ResidualsValues (Fl K) n) :
    r.evaluateStopping ⟨v.right, v.left⟩ = r.evaluateStopping v := by
  funext i
  change Fl.abs (normalization (v.right i) (v.left i) (r.stop i)) =
    Fl.abs (normalization (v.left i) (v.right i) (r.stop i))
  generalize v.left i = x
  generalize v.right i = y
  have hc : Fl.add y x = Fl.add x y := add_comm' y x
  cases r.stop i with
  | Abs => exact abs_sub_comm' y x
  | Rel =>
    change Fl.abs (Fl.div (Fl.sub y x) (Fl.div (Fl.abs (Fl.add y x)) Fl.two)) =
      Fl.abs (Fl.div (Fl.sub x y) (Fl.div (Fl.abs (Fl.add x y)) Fl.two))
    rw [hc]; exact abs_div_congr (abs_sub_comm' y x) _
  | Adapt =>
    change Fl.abs (Fl.div (Fl.sub y x) (Fl.add Fl.one (Fl.div (Fl.abs (Fl.add y x)) Fl.two))) =
      Fl.abs (Fl.div (Fl.sub x y) (Fl.add Fl.one (Fl.div (Fl.abs (Fl.add x y)) Fl.two)))
    rw [hc]; exact abs_div_congr (abs_sub_comm' y x) _

end Float

/-- In binary64 the second half fails for large values: the sum overflows, and `Rel` and `Adapt`
report exactly zero for two sides that differ by `2¹⁰²²`. -/
theorem C25_refuted_overflow :
    ∃ (x y : F64), x = Fl.ofExact false (2 ^ 1023) ∧ y = Fl.ofExact false (3 * 2 ^ 1022) ∧
      x ≠ y ∧ normalization x y .Rel = .zero true ∧ normalization x y .Adapt = .zero true ∧
      normalization x y .Abs = Fl.ofExact false (-2 ^ 1022) := by
  refine ⟨_, _, rfl, rfl, ?_, ?_, ?_, ?_⟩ <;> decide +kernel

open scoped Exact in
/-- Two different sides with a non-zero sum. -/
example : (3 : ℚ) + 5 ≠ 0 ∧ normalization (3 : ℚ) 5 .Rel = -1/2 ∧ normalization (5 : ℚ) 3 .Rel = 1/2 := by
  refine ⟨?_, ?_, ?_⟩ <;> decide +kernel

end Nrf
