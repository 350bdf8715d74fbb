import Verif.Proofs.NoPanic
import Verif.Spec.Demo

/-!
# C11: an inaccurate Jacobian is recoverable (refuted)

`compute_jac` swallows `Inaccurate` from `get_jacobian`, leaving no inverse; the step
computation then unwraps it.
-/

namespace Nrf

/-- For every model and method: if the Jacobian asked for by the first iteration of a
new solver is reported inaccurate, the solve panics. -/
theorem C11_inaccurate_jacobian_panics {F : Type} [Scalar F] {n : Nat} {EI EU S : Type}
    (c : Config F n) (m : UserModel F n EI EU S) (s s0 s1 : S)
    (r0 : Except (ModelError EI EU) Unit) (e : EI)
    (he : m.evaluate (m.setIteratives s c.guess) = (s0, r0))
    (hr0 : ∀ e, r0 ≠ .error (.unusable e))
    (hmax : 0 < c.params.maxIter)
    (htol : Scalar.lt c.params.tolerance (amax (c.res.evaluateStopping (m.getResiduals s0))) = true)
    (hp : m.jacobianProvided s0 = true) (hg : m.getJacobian s0 = (s1, .error (.inaccurate e))) :
    solve c m .new s = .error .inverseUnwrap := by
  have hj : computeJac c m (JacobianMatrix.new) s0 = .ok (.new, s1, .ok ()) := by
    unfold computeJac
    simp only [hp, if_true, analyticJacobian, hg]
    rfl
  have hstep : ∀ k, computeStep c m { (Solver.new : Solver F n) with iter := k } s0 =
      .error .inverseUnwrap := by
    intro k
    unfold computeStep
    cases c.params.method with
    | NewtonRaphson =>
      simp only [newtonRaphsonStep, Solver.new, hj, bind, Except.bind, Solver.logIf,
        Bool.false_eq_true, if_false]
      rfl
    | QuasiNewton q =>
      have hc : (JacobianMatrix.new : JacobianMatrix F n).computeNext = true := rfl
      simp only [quasiNewtonStep, quasiNewtonJacobian, Solver.new, hj, bind, Except.bind,
        Solver.logIf, Bool.false_eq_true, if_false, if_true, pure, Except.pure, hc]
      rfl
  have hloop : solveFrom c m .new s0 = .error .inverseUnwrap := by
    rw [solveFrom_noDebug rfl, loop_eq]
    have hc : continues c (Solver.new : Solver F n) (amax (evaluateErrors c m s0)) = true := by
      simp [continues, evaluateErrors, htol, Solver.new, hmax]
    rw [if_pos hc]
    simp only [iterate, bind, Except.bind]
    have : ({ (Solver.new : Solver F n) with iter := (Solver.new : Solver F n).iter + 1 }) =
      { (Solver.new : Solver F n) with iter := 1 } := rfl
    rw [this, hstep 1]
  unfold solve
  rw [he]
  match r0, hr0 with
  | .ok (), _ => exact hloop
  | .error (.inaccurate _), _ => exact hloop
  | .error (.unusable e), h => exact absurd rfl (h e)

/-- `x² = 2` whose Jacobian is always reported inaccurate. -/
def Demo.inaccurateJacobian : UserModel ℚ 1 String Empty (AdapterState ℚ 1) where
  lenProblem _ := 1
  setIteratives s x := { s with inputs := x }
  getIteratives s := s.inputs
  evaluate s := ({ s with left := fun _ => s.inputs 0 * s.inputs 0 - 2 }, .ok ())
  getResiduals s := { left := s.left, right := s.right }
  jacobianProvided _ := true
  getJacobian s := (s, .error (.inaccurate "rough"))
  getMemory _ := []
  setMemory s _ := s
  displayUnusable e := nomatch e

open scoped Exact in
/-- The property fails (this instantiates the theorem above, so its hypotheses can be
met). -/
theorem C11_refuted :
    solve (Demo.cfg .NewtonRaphson false 5 (1 / 1000) 2) Demo.inaccurateJacobian .new Demo.start =
      .error .inverseUnwrap :=
  C11_inaccurate_jacobian_panics _ _ _ _ _ _ "rough" rfl (fun e => nomatch e) (by decide)
    (by decide +kernel) rfl rfl

end Nrf
