import Verif.Model.Residuals
import Mathlib.LinearAlgebra.Matrix.NonsingularInverse
import Mathlib.Algebra.Order.Field.Basic
import Mathlib.Algebra.Order.AbsoluteValue.Basic

/-!
# Exact arithmetic

The scalars of the solver interpreted in an ordered field: no rounding, no
infinities, no NaN.  Used for the numeric properties (and, over `ℚ`, for concrete
runs checked by computation).
-/

namespace Nrf

/-- Exact arithmetic in a linearly ordered field.  `f64::signum` returns `1` on
`+0`; exact arithmetic has no `-0`. -/
@[reducible] def exactScalar (K : Type) [Field K] [LinearOrder K] : Scalar K where
  add a b := a + b
  sub a b := a - b
  mul a b := a * b
  div a b := a / b
  neg a := -a
  abs a := |a|
  signum a := if 0 ≤ a then 1 else -1
  min a b := min a b
  max a b := max a b
  lt a b := decide (a < b)
  le a b := decide (a ≤ b)
  zero := 0
  one := 1
  two := 2
  dec m e := (m : K) / 10 ^ e

namespace Exact
scoped instance {K : Type} [Field K] [LinearOrder K] : Scalar K := exactScalar K
end Exact

/-- The mathematical meaning of the two linear-algebra parameters. -/
structure LinAlg.IsExact {K : Type} [Field K] {n : Nat} (L : LinAlg K n) : Prop where
  dot : ∀ v w : Vec K n, L.dot v w = ∑ i, v i * w i
  inv_some : ∀ A : Mat K n, A.det ≠ 0 → L.inv A = some A⁻¹
  inv_none : ∀ A : Mat K n, A.det = 0 → L.inv A = none

/-- Exact linear algebra, computable over `ℚ`. -/
def exactLinAlg (K : Type) [Field K] [DecidableEq K] (n : Nat) : LinAlg K n where
  dot v w := ∑ i, v i * w i
  inv A := if A.det = 0 then none else some ((A.det)⁻¹ • A.adjugate)

theorem exactLinAlg_isExact (K : Type) [Field K] [DecidableEq K] (n : Nat) :
    (exactLinAlg K n).IsExact where
  dot _ _ := rfl
  inv_some A h := by
    simp only [exactLinAlg, if_neg h, Matrix.inv_def, Ring.inverse_eq_inv']
  inv_none A h := by simp [exactLinAlg, h]

/-! ## The stopping residuals in mathematical notation -/

/-- Disagreement of the two sides of an equation (README and `residuals/mod.rs`):
absolute, relative to the mean, or in between. -/
def Spec.residual {K : Type} [Field K] [LinearOrder K] : NormalizationMethod → K → K → K
  | .Abs, l, r => l - r
  | .Rel, l, r => (l - r) / (|l + r| / 2)
  | .Adapt, l, r => (l - r) / (1 + |l + r| / 2)

end Nrf
