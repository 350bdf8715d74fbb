import Verif.Props.C28
import Mathlib.LinearAlgebra.Matrix.NonsingularInverse
import Mathlib.Analysis.Normed.Group.Constructions

/-!
# The conditions of the theorem of Kantorovich
-/

namespace Nrf
open Spec
open Matrix

variable {n : Nat}

/-- The conditions at a point `x0` that make Newton's method converge from it.  `‖·‖` is the largest component: the first
step has length at most `η`; within `2 η` the Jacobian exists and, multiplied by its inverse at `x0`, changes by at most
`ω` times the distance; and `ω η ≤ 1/2`. -/
structure Spec.Kantorovich (F : Vec ℝ n → Vec ℝ n) (jac : Vec ℝ n → Mat ℝ n) (x0 : Vec ℝ n) (η ω : ℝ) : Prop where
  jacobian : ∀ x, ‖x - x0‖ ≤ 2 * η → IsJacobian F (jac x) x
  invertible : (jac x0).det ≠ 0
  first : ‖(jac x0)⁻¹ *ᵥ F x0‖ ≤ η
  lipschitz : ∀ x y, ‖x - x0‖ ≤ 2 * η → ‖y - x0‖ ≤ 2 * η → ∀ v,
    ‖(jac x0)⁻¹ *ᵥ ((jac x - jac y) *ᵥ v)‖ ≤ ω * ‖x - y‖ * ‖v‖
  nonneg : 0 ≤ ω
  small : ω * η ≤ 1 / 2

/-- Conditions that make the simplified method, with a fixed matrix `M` in the place of the Jacobian, converge from `x0`:
within `ρ` the Jacobian exists and `M` replaces it up to the factor `q < 1`, and the first step has length at most
`(1 - q) ρ`. -/
structure Spec.Simplified (F : Vec ℝ n → Vec ℝ n) (jac : Vec ℝ n → Mat ℝ n) (M : Mat ℝ n) (x0 : Vec ℝ n) (ρ q : ℝ) : Prop where
  jacobian : ∀ x, ‖x - x0‖ ≤ ρ → IsJacobian F (jac x) x
  invertible : M.det ≠ 0
  first : ‖M⁻¹ *ᵥ F x0‖ ≤ (1 - q) * ρ
  close : ∀ x, ‖x - x0‖ ≤ ρ → ∀ v, ‖M⁻¹ *ᵥ ((jac x - M) *ᵥ v)‖ ≤ q * ‖v‖
  nonneg : 0 ≤ q
  small : q < 1

end Nrf
