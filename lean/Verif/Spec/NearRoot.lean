import Verif.Proofs.RelError
import Verif.Model.Binary64
import Mathlib.Analysis.Calculus.Deriv.Basic
import Mathlib.Data.Real.Basic

/-!
# One equation near a root, and the accuracy of its evaluation in binary64
-/

namespace Nrf.Spec

/-- `ρ` is a root of `φ`.  Within the distance `R` the slope is between `μ` and `M` in absolute value and varies by at most
`v μ`.  `σ` bounds the root and the distance.  The orders of magnitude are far from the limits of binary64. -/
structure NearRoot (φ φ' : ℝ → ℝ) (ρ R σ μ M v : ℝ) : Prop where
  root : φ ρ = 0
  deriv : ∀ x, |x - ρ| ≤ R → HasDerivAt φ (φ' x) x
  steep : ∀ x, |x - ρ| ≤ R → μ ≤ |φ' x|
  bounded : ∀ x, |x - ρ| ≤ R → |φ' x| ≤ M
  varies : ∀ x y, |x - ρ| ≤ R → |y - ρ| ≤ R → |φ' x - φ' y| ≤ v * μ
  slopeLow : 2 ^ (-200 : ℤ) ≤ μ
  slopeHigh : M ≤ 2 ^ 200
  scaleLow : 2 ^ (-1022 : ℤ) ≤ σ
  scaleHigh : σ ≤ 2 ^ 200
  rootSize : |ρ| ≤ σ
  radius : R ≤ σ

/-- At the doubles within `R` of `ρ`, `func` computes `φ` with an error of at most `ε`. -/
def Evaluates (func : F64 → F64) (φ : ℝ → ℝ) (ρ R ε : ℝ) : Prop :=
  ∀ x : F64, x.IsFinite → |(x.val : ℝ) - ρ| ≤ R → (func x).IsFinite ∧ |((func x).val : ℝ) - φ x.val| ≤ ε

/-- At the doubles within `R` of `ρ`, `deriv` computes `φ'` with a relative error of at most `η`. -/
def EvaluatesSlope (deriv : F64 → F64) (φ' : ℝ → ℝ) (ρ R η : ℝ) : Prop :=
  ∀ x : F64, x.IsFinite → |(x.val : ℝ) - ρ| ≤ R →
    (deriv x).IsFinite ∧ |((deriv x).val : ℝ) - φ' x.val| ≤ η * |φ' x.val|

/-- The doubles within `R` of `ρ`. -/
def Within (ρ R : ℝ) (x : Fin 1 → F64) : Prop := (x 0).IsFinite ∧ |((x 0).val : ℝ) - ρ| ≤ R

end Nrf.Spec
