import Verif.Proofs.QuasiNewton
import Verif.Spec.Demo

/-!
# C33: quasi-Newton updates satisfy the secant equation
-/

namespace Nrf
open scoped Exact
open Matrix

section
variable {K : Type} [Field K] [LinearOrder K] {n : Nat}

/-- Jacobian form, all four methods, any dimension, any stored matrix `J` and inverse `H`: after a
successful update with non-zero denominator the stored matrix maps the step `s` to the residual
change `y`, and the stored inverse maps `y` back to `s`. -/
theorem C33_jacobian (L : LinAlg K n) (hL : L.IsExact) (u : UpdateMethod) (j j' : JacobianMatrix K n)
    (J H : Mat K n) (hJ : j.matrix = some J) (hH : j.inverse = some H) (s y c : Vec K n)
    (hd : Spec.denomJac u J H s y c ≠ 0)
    (h : approximateJacobian L j u s y c = .ok (j', true)) :
    ∃ J' H', j'.matrix = some J' ∧ j'.inverse = some H' ∧ J' *ᵥ s = y ∧ H' *ᵥ y = s := by
  rw [ex_approximateJacobian hL hJ hH] at h
  simp only [JacobianMatrix.updateApproximated, JacobianMatrix.update] at h
  split at h
  · rename_i inv hinv
    cases h
    obtain ⟨hdet, rfl⟩ := ex_inv hL hinv
    have hs := rankJac_secant J s y (direction u J H s y c) (by rw [direction_dot]; exact hd)
    refine ⟨_, _, rfl, rfl, hs, ?_⟩
    generalize rankJac J s y (direction u J H s y c) = M at hs hdet
    rw [← hs, mulVec_mulVec, ex_inv_mul hdet, one_mulVec]
  · cases h

/-- Inverse form, all four methods: the stored inverse maps `y` to `s`. -/
theorem C33_inverse (L : LinAlg K n) (hL : L.IsExact) (u : UpdateMethod) (j j' : JacobianMatrix K n)
    (H : Mat K n) (hH : j.inverse = some H) (s y c : Vec K n)
    (hd : Spec.denomInv u H s y c ≠ 0) (h : approximateInvJacobian L j u s y c = .ok j') :
    ∃ H', j'.inverse = some H' ∧ H' *ᵥ y = s := by
  rw [ex_approximateInvJacobian hL hH] at h
  cases h
  exact ⟨_, rfl, rankInv_secant H s y _ (by rw [directionInv_dot]; exact hd)⟩

/-- In the solver: a step computed by updating uses a matrix that satisfies the secant equation for
the pair kept from the previous iteration. -/
theorem C33_step {EI EU S : Type} (c : Config K n) (hL : c.la.IsExact) (m : UserModel K n EI EU S)
    (u : UpdateMethod) (st st' : Solver K n) (s s' : S) (x : Vec K n)
    (hpend : st.jac.computeNext = false) (ds dy cur : Vec K n) (h1 : st.itStep = some ds)
    (h2 : st.resStep = some dy) (h3 : st.resCur = some cur) (J H : Mat K n)
    (hH : st.jac.inverse = some H) (h : computeStep c m st s = .ok (st', s', .ok x))
    (hmeth : (c.params.method = .QuasiNewton (.JacobianUpdate u) ∧ st.jac.matrix = some J ∧
        Spec.denomJac u J H ds dy cur ≠ 0) ∨
      (c.params.method = .QuasiNewton (.InverseJacobianUpdate u) ∧ Spec.denomInv u H ds dy cur ≠ 0)) :
    ∃ H', st'.jac.inverse = some H' ∧ H' *ᵥ dy = ds := by
  cases computeStep_outcome h with
  | computed j l _ _ hm =>
    rcases hm with hm | hm
    · rcases hmeth with ⟨h', -⟩ | ⟨h', -⟩ <;> rw [hm] at h' <;> cases h'
    · rw [hpend] at hm; cases hm
  | kept l _ hm => rcases hmeth with ⟨h', -⟩ | ⟨h', -⟩ <;> rw [hm] at h' <;> cases h'
  | updated u' ds' dy' cur' j l _ hm hc g1 g2 g3 hj hx =>
    rw [h1] at g1; rw [h2] at g2; rw [h3] at g3
    cases g1; cases g2; cases g3
    rcases hmeth with ⟨h', hJ, hd⟩ | ⟨h', -⟩
    · rw [hm] at h'
      cases h'
      obtain ⟨J', H', -, e2, -, e4⟩ := C33_jacobian c.la hL u st.jac j J H hJ hH ds dy cur hd hj
      exact ⟨H', e2, e4⟩
    · rw [hm] at h'; cases h'
  | invUpdated u' ds' dy' cur' j l _ hm hc g1 g2 g3 hj hx =>
    rw [h1] at g1; rw [h2] at g2; rw [h3] at g3
    cases g1; cases g2; cases g3
    rcases hmeth with ⟨h', -⟩ | ⟨h', hd⟩
    · rw [hm] at h'; cases h'
    · rw [hm] at h'
      cases h'
      exact C33_inverse c.la hL u st.jac j H hH ds dy cur hd hj

end

namespace Demo

/-- Jacobian 4 with inverse 1/4, step 1, change 3: all denominators are non-zero and both forms
succeed, storing slope 3. -/
example (u : UpdateMethod) :
    Spec.denomJac u !![(4 : ℚ)] !![1/4] ![1] ![3] ![2] ≠ 0 ∧
    Spec.denomInv u !![(1/4 : ℚ)] ![1] ![3] ![2] ≠ 0 ∧
    (match approximateJacobian la1 ⟨some fun _ _ => 4, some fun _ _ => 1/4, false, false⟩ u
        (fun _ => 1) (fun _ => 3) (fun _ => 2) with
      | .ok (⟨some J, some H, _, _⟩, true) => decide (J 0 0 = 3) && decide (H 0 0 = 1/3)
      | _ => false) = true := by
  refine ⟨?_, ?_, ?_⟩
  · cases u <;> decide +kernel
  · cases u <;> decide +kernel
  · cases u <;> decide +kernel

end Demo
end Nrf
