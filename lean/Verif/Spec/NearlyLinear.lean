import Verif.Model.Scalar
import Mathlib.Analysis.Normed.Group.Constructions
import Mathlib.Data.Matrix.Mul
import Mathlib.Analysis.Normed.Field.Basic
import Mathlib.Analysis.Normed.Group.Real

/-!
# Systems close to a linear one
-/

namespace Nrf.Spec
open Matrix

variable {n : Nat}

/-- `F` is a linear map with matrix `B` up to a part with Lipschitz constant `ε`, in the norm of the largest entry; `β`
bounds the inverse of `B`. -/
structure NearlyLinear (F : Vec ℝ n → Vec ℝ n) (B : Mat ℝ n) (β ε : ℝ) : Prop where
  pos : 0 < β
  nonneg : 0 ≤ ε
  inverse : ∀ v, ‖v‖ ≤ β * ‖B *ᵥ v‖
  close : ∀ x y, ‖F y - F x - B *ᵥ (y - x)‖ ≤ ε * ‖y - x‖

/-- `J` differs from `B` by at most `δ`. -/
def NearMatrix (B : Mat ℝ n) (δ : ℝ) (J : Mat ℝ n) : Prop := ∀ v, ‖J *ᵥ v - B *ᵥ v‖ ≤ δ * ‖v‖

end Nrf.Spec
