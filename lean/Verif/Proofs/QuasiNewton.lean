import Verif.Proofs.RankOne
import Verif.Proofs.JacOutcome
import Verif.Spec.QuasiNewton

/-!
# The quasi-Newton updates as rank-one updates
-/

namespace Nrf
open scoped Exact
open Matrix

section
variable {K : Type} [Field K] [LinearOrder K] {n : Nat} {L : LinAlg K n}

/-- The direction of the update of the Jacobian. -/
def direction (u : UpdateMethod) (J H : Mat K n) (s y c : Vec K n) : Vec K n :=
  match u with
  | .BroydenFirst => s
  | .BroydenSecond => y ᵥ* J
  | .GreenstadtFirst => c ᵥ* J
  | .GreenstadtSecond => H *ᵥ y

/-- The direction of the update of the inverse. -/
def directionInv (u : UpdateMethod) (H : Mat K n) (s y c : Vec K n) : Vec K n :=
  match u with
  | .BroydenFirst => s ᵥ* H
  | .BroydenSecond => y
  | .GreenstadtFirst => c
  | .GreenstadtSecond => (H *ᵥ y) ᵥ* H

theorem direction_dot (u : UpdateMethod) (J H : Mat K n) (s y c : Vec K n) :
    direction u J H s y c ⬝ᵥ s = Spec.denomJac u J H s y c := by
  cases u <;> simp [direction, Spec.denomJac, dotProduct_mulVec]

theorem directionInv_dot (u : UpdateMethod) (H : Mat K n) (s y c : Vec K n) :
    directionInv u H s y c ⬝ᵥ y = Spec.denomInv u H s y c := by
  cases u <;> simp [directionInv, Spec.denomInv, dotProduct_mulVec]

theorem direction_inv {J H : Mat K n} (hJH : J * H = 1) (u : UpdateMethod) (s y c : Vec K n) :
    direction u J H s y c ᵥ* H = directionInv u H s y c := by
  cases u <;> simp [direction, directionInv, vecMul_vecMul, hJH]

theorem ex_approximateJacobian (hL : L.IsExact) {j : JacobianMatrix K n} {J H : Mat K n}
    (hJ : j.matrix = some J) (hH : j.inverse = some H) (u : UpdateMethod) (s y c : Vec K n) :
    approximateJacobian L j u s y c =
      .ok (j.updateApproximated L (rankJac J s y (direction u J H s y c))) := by
  cases u <;> simp only [approximateJacobian, hJ, hH, direction]
  · rw [ex_broydenFirstJac hL]
  · rw [ex_broydenSecondJac hL]
  · rw [ex_quasiJac hL]
  · rw [ex_greenstadtSecondJac hL, ex_mulVec hL]

theorem ex_approximateInvJacobian (hL : L.IsExact) {j : JacobianMatrix K n} {H : Mat K n}
    (hH : j.inverse = some H) (u : UpdateMethod) (s y c : Vec K n) :
    approximateInvJacobian L j u s y c =
      .ok (j.updateInverse (rankInv H s y (directionInv u H s y c))) := by
  cases u <;> simp only [approximateInvJacobian, hH, directionInv]
  · rw [ex_broydenFirstInv hL]
  · rw [ex_broydenSecondInv hL]
  · rw [ex_quasiInv hL]
  · rw [ex_quasiInv hL, ex_mulVec hL, ex_matMul hL, ex_mtranspose, ← mulVec_mulVec, mulVec_transpose]

/-- The Jacobian update succeeds exactly when the inverse update does not divide by zero, and stores
the same inverse. -/
theorem updates_agree (hL : L.IsExact) {j : JacobianMatrix K n} {J H : Mat K n}
    (hJ : j.matrix = some J) (hH : j.inverse = some H) (hJH : J * H = 1) (u : UpdateMethod)
    (s y c : Vec K n) (hd : Spec.denomJac u J H s y c ≠ 0) (he : Spec.denomInv u H s y c ≠ 0) :
    ∃ J' H', J' * H' = 1 ∧
      approximateJacobian L j u s y c = .ok (⟨some J', some H', false, true⟩, true) ∧
      approximateInvJacobian L j u s y c = .ok ⟨none, some H', j.computeNext, true⟩ := by
  have hd' : direction u J H s y c ⬝ᵥ s ≠ 0 := by rw [direction_dot]; exact hd
  have he' : (direction u J H s y c ᵥ* H) ⬝ᵥ y ≠ 0 := by
    rw [direction_inv hJH, directionInv_dot]; exact he
  have hmul := rank_mul hJH s y _ hd' he'
  have hdet : (rankJac J s y (direction u J H s y c)).det ≠ 0 := (rank_invertible hJH s y _ hd').2 he'
  refine ⟨_, _, hmul, ?_, ?_⟩
  · rw [ex_approximateJacobian hL hJ hH]
    simp only [JacobianMatrix.updateApproximated, JacobianMatrix.update, hL.inv_some _ hdet]
    rw [Matrix.inv_eq_right_inv hmul]
  · rw [ex_approximateInvJacobian hL hH, direction_inv hJH]
    rfl

end
end Nrf
