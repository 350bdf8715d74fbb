import Verif.Model.Scalar
import Mathlib.LinearAlgebra.Matrix.NonsingularInverse
import Mathlib.Data.Real.Basic
import Mathlib.Analysis.Calculus.ContDiff.Basic
import Mathlib.LinearAlgebra.Matrix.ToLin
import Mathlib.Topology.Algebra.Module.FiniteDimension

/-!
# Broyden's methods of the literature, and the roots near which they converge

The methods use the change of the function, not of its absolute values.
-/

namespace Nrf.Spec
open Matrix

variable {n : Nat}

/-- A point and a matrix. -/
abbrev Iterate (n : Nat) := (Fin n → ℝ) × Matrix (Fin n) (Fin n) ℝ

/-- Broyden's first method with a matrix `J` for the Jacobian: from `x` to `x' = x - J⁻¹ F(x)`; the matrix is changed by
`(y - J s) sᵀ / (sᵀ s)`, where `s = x' - x` and `y = F(x') - F(x)`. -/
noncomputable def firstBroyden (F : (Fin n → ℝ) → Fin n → ℝ) (p : Iterate n) : Iterate n :=
  let x' := p.1 - p.2⁻¹ *ᵥ F p.1
  let s := x' - p.1
  let y := F x' - F p.1
  (x', p.2 + (s ⬝ᵥ s)⁻¹ • vecMulVec (y - p.2 *ᵥ s) s)

/-- Broyden's second method with a matrix `H` for the inverse: from `x` to `x' = x - H F(x)`; the matrix is changed by
`(s - H y) yᵀ / (yᵀ y)`. -/
noncomputable def secondBroyden (F : (Fin n → ℝ) → Fin n → ℝ) (p : Iterate n) : Iterate n :=
  let x' := p.1 - p.2 *ᵥ F p.1
  let s := x' - p.1
  let y := F x' - F p.1
  (x', p.2 + (y ⬝ᵥ y)⁻¹ • vecMulVec (s - p.2 *ᵥ y) y)

/-- The matrix of the difference quotients at `x`, column by column, with the displacements `d`. -/
noncomputable def differenceQuotients (F : (Fin n → ℝ) → Fin n → ℝ) (x d : Fin n → ℝ) : Matrix (Fin n) (Fin n) ℝ :=
  Matrix.of fun i k => (F (x + Pi.single k (d k)) i - F x i) / d k

/-- The point `x` with its last coordinate displaced. -/
def lastMoved (x d : Fin (n + 1) → ℝ) : Fin (n + 1) → ℝ := x + Pi.single (Fin.last n) (d (Fin.last n))

open scoped Topology

/-- A simple root of a function that is twice continuously differentiable there, with its Jacobian near the root. -/
structure LocalRoot (F : (Fin n → ℝ) → Fin n → ℝ) (jac : (Fin n → ℝ) → Matrix (Fin n) (Fin n) ℝ) (r : Fin n → ℝ) :
    Prop where
  root : F r = 0
  smooth : ContDiffAt ℝ 2 F r
  jacobian : ∀ᶠ x in 𝓝 r, HasFDerivAt F (Matrix.mulVecLin (jac x)).toContinuousLinearMap x
  invertible : (jac r).det ≠ 0

end Nrf.Spec
