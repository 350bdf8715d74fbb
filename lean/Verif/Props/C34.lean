import Verif.Proofs.Forms
import Verif.Proofs.CheckRun
import Verif.Spec.Demo

/-!
# C34: Jacobian form and inverse form agree
-/

namespace Nrf
open scoped Exact
open Matrix

section
variable {K : Type} [Field K] [LinearOrder K] {n : Nat}

/-- Sherman-Morrison, all four methods, any dimension: when `J` is invertible and the denominators are
not zero, the Jacobian-form update succeeds, and the inverse-form update of `J⁻¹` stores the inverse
of the matrix it stores. -/
theorem C34_update (L : LinAlg K n) (hL : L.IsExact) (u : UpdateMethod) (j : JacobianMatrix K n)
    (J : Mat K n) (hdet : J.det ≠ 0) (hJ : j.matrix = some J) (hH : j.inverse = some J⁻¹)
    (s y c : Vec K n) (hd : Spec.denomJac u J J⁻¹ s y c ≠ 0) (he : Spec.denomInv u J⁻¹ s y c ≠ 0) :
    ∃ j1 j2 J', approximateJacobian L j u s y c = .ok (j1, true) ∧
      approximateInvJacobian L j u s y c = .ok j2 ∧ J'.det ≠ 0 ∧ j1.matrix = some J' ∧
      j1.inverse = some J'⁻¹ ∧ j2.inverse = some J'⁻¹ := by
  obtain ⟨J', H', h, e1, e2⟩ := updates_agree hL hJ hH (ex_mul_inv hdet) u s y c hd he
  have hH' : J'⁻¹ = H' := Matrix.inv_eq_right_inv h
  refine ⟨_, _, J', e1, e2, ?_, rfl, by rw [hH'], by rw [hH']⟩
  have := congrArg Matrix.det h
  rw [Matrix.det_mul, Matrix.det_one] at this
  exact left_ne_zero_of_mul (by rw [this]; exact one_ne_zero)

/-- Whole solves, any model, any starting state: if no update divides by zero along the way, the two
forms of a method behave alike in every respect: same panic, or same final model state, same result,
same number of iterations and same stored inverse.  The model being arbitrary, this includes a
recorded one, so both forms make the same calls at the same points. -/
theorem C34_solve {EI EU S : Type} (c : Config K n) (hL : c.la.IsExact) (m : UserModel K n EI EU S)
    (u : UpdateMethod) (s : S)
    (hnd : ∀ s0 r a s' e, m.evaluate (m.setIteratives s c.guess) = (s0, r) →
      Run (c.withMethod (.QuasiNewton (.JacobianUpdate u))) m .new s0 (amax (evaluateErrors c m s0))
        a s' e →
      a.jac.computeNext = false → ∀ J H ds dy cur, a.jac.matrix = some J → a.jac.inverse = some H →
        a.itStep = some ds → a.resStep = some dy → a.resCur = some cur →
        Spec.denomJac u J H ds dy cur ≠ 0 ∧ Spec.denomInv u H ds dy cur ≠ 0) :
    (∃ p, solve (c.withMethod (.QuasiNewton (.JacobianUpdate u))) m .new s = .error p ∧
      solve (c.withMethod (.QuasiNewton (.InverseJacobianUpdate u))) m .new s = .error p) ∨
    ∃ a b s' r, solve (c.withMethod (.QuasiNewton (.JacobianUpdate u))) m .new s = .ok (a, s', r) ∧
      solve (c.withMethod (.QuasiNewton (.InverseJacobianUpdate u))) m .new s = .ok (b, s', r) ∧
      a.iter = b.iter ∧ a.jac.inverse = b.jac.inverse := by
  rcases he : m.evaluate (m.setIteratives s c.guess) with ⟨s0, r0⟩
  have usable : ∀ v, Usable r0 v →
      (∃ p, solve (c.withMethod (.QuasiNewton (.JacobianUpdate u))) m .new s = .error p ∧
        solve (c.withMethod (.QuasiNewton (.InverseJacobianUpdate u))) m .new s = .error p) ∨
      ∃ a b s' r, solve (c.withMethod (.QuasiNewton (.JacobianUpdate u))) m .new s = .ok (a, s', r) ∧
        solve (c.withMethod (.QuasiNewton (.InverseJacobianUpdate u))) m .new s = .ok (b, s', r) ∧
        a.iter = b.iter ∧ a.jac.inverse = b.jac.inverse := by
    intro v hu
    rw [solve_finish (c := c.withMethod (.QuasiNewton (.JacobianUpdate u))) rfl he hu,
      solve_finish (c := c.withMethod (.QuasiNewton (.InverseJacobianUpdate u))) rfl he hu]
    rcases loop_forms (m := m) (u := u) hL (c.params.maxIter - 0) (a := .new) s0
      (amax (evaluateErrors c m s0)) none rfl (fun h => by cases h)
      (fun a s' e hr hc J H ds dy cur => hnd s0 r0 a s' e he hr hc J H ds dy cur) with
      ⟨p, h1, h2⟩ | ⟨a, s', r, N, h1, h2⟩
    · exact .inl ⟨p, (congrArg (finishLoop _) h1 :), (congrArg (finishLoop _) h2 :)⟩
    · exact .inr ⟨_, _, _, _, (congrArg (finishLoop (c.withMethod (.QuasiNewton (.JacobianUpdate u)))) h1 :),
        (congrArg (finishLoop (c.withMethod (.QuasiNewton (.InverseJacobianUpdate u)))) h2 :), rfl, rfl⟩
  match r0, he, usable with
  | .ok (), he, usable => exact usable _ .ok
  | .error (.inaccurate e), he, usable => exact usable _ (.inaccurate e)
  | .error (.unusable e), he, _ =>
    exact .inr ⟨_, _, _, _, solve_unusable (c := c.withMethod (.QuasiNewton (.JacobianUpdate u))) he,
      solve_unusable (c := c.withMethod (.QuasiNewton (.InverseJacobianUpdate u))) he, rfl, rfl⟩

end

namespace Demo

/-- The denominators of a one-dimensional solver state, as numbers. -/
def denominators (a : Solver ℚ 1) : Bool :=
  a.jac.computeNext ||
    match a.jac.matrix, a.jac.inverse, a.itStep, a.resStep, a.resCur with
    | some J, some H, some ds, some dy, some cur =>
      decide (J 0 0 ≠ 0) && decide (H 0 0 ≠ 0) && decide (ds 0 ≠ 0) && decide (dy 0 ≠ 0) && decide (cur 0 ≠ 0)
    | _, _, _, _, _ => true

/-- `x² = 2` from 1 with three iterations: no update divides by zero, for any of the four methods, and
at least one update is made. -/
example (u : UpdateMethod) : ∀ s0 r a s' e,
    sqrt2.evaluate (sqrt2.setIteratives start (cfg .NewtonRaphson false 3 (1/1000) 1).guess) = (s0, r) →
      Run ((cfg .NewtonRaphson false 3 (1/1000) 1).withMethod (.QuasiNewton (.JacobianUpdate u))) sqrt2
        .new s0 (amax (evaluateErrors (cfg .NewtonRaphson false 3 (1/1000) 1) sqrt2 s0)) a s' e →
      a.jac.computeNext = false → ∀ J H ds dy cur, a.jac.matrix = some J → a.jac.inverse = some H →
        a.itStep = some ds → a.resStep = some dy → a.resCur = some cur →
        Spec.denomJac u J H ds dy cur ≠ 0 ∧ Spec.denomInv u H ds dy cur ≠ 0 := by
  intro s0 r a s' e he hr hc J H ds dy cur hJ hH h1 h2 h3
  cases he
  have := checkRun_sound hr (k := 3) (P := fun a _ => denominators a) (by
    cases u <;> decide +kernel)
  simp only [denominators, hc, hJ, hH, h1, h2, h3, Bool.false_or, Bool.and_eq_true, decide_eq_true_eq] at this
  obtain ⟨⟨⟨⟨g1, g2⟩, g3⟩, g4⟩, g5⟩ := this
  constructor
  · cases u <;> simp [Spec.denomJac, Matrix.mulVec, dotProduct, g1, g2, g3, g4, g5]
  · cases u <;> simp [Spec.denomInv, Matrix.mulVec, dotProduct, g2, g3, g4, g5]

end Demo
end Nrf
