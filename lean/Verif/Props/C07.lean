import Verif.Proofs.Calls
import Verif.Spec.Demo

/-!
# C07: unusable initial evaluation
-/

namespace Nrf

/-- If the first evaluation reports unusable values, `solve` returns the initial
evaluation error with the text of that error, after exactly two calls, and leaves
the solver object as it was. -/
theorem C07_unusable_initial_evaluation {F : Type} [Scalar F] {n : Nat} {EI EU S : Type}
    (c : Config F n) (m : UserModel F n EI EU S) (st : Solver F n) (s : S) (e : EU)
    (h : (m.evaluate (m.setIteratives s c.guess)).2 = .error (.unusable e)) :
    solve c (recorded m) st (s, []) =
      .ok (st,
        ((m.evaluate (m.setIteratives s c.guess)).1,
          [.setIteratives c.guess, .evaluate (.error (.unusable e))]),
        .error (.modelInitialEvaluation (m.displayUnusable e))) := by
  unfold solve
  have he : (recorded m).evaluate ((recorded m).setIteratives (s, []) c.guess) =
      (((m.evaluate (m.setIteratives s c.guess)).1,
        [.setIteratives c.guess, .evaluate (.error (.unusable e))]), .error (.unusable e)) := by
    simp only [recorded, h]
    rfl
  rw [he]
  rfl

/-- Conversely this error is returned only in that case, with that text. -/
theorem C07_only_then {F : Type} [Scalar F] {n : Nat} {EI EU S : Type}
    (c : Config F n) (m : UserModel F n EI EU S) (st st' : Solver F n) (s s' : S) (msg : String)
    (h : solve c m st s = .ok (st', s', .error (.modelInitialEvaluation msg))) :
    ∃ e, (m.evaluate (m.setIteratives s c.guess)).2 = .error (.unusable e) ∧
      msg = m.displayUnusable e := by
  generalize hr : (Except.error (.modelInitialEvaluation msg) :
    Except (SolverError EI EU) Unit) = r at h
  cases solve_outcome h with
  | initFailed he =>
    cases hr
    exact ⟨_, by rw [he], rfl⟩
  | finished he hu hl =>
    unfold finalResult at hr
    split at hr
    · cases hr
    · split at hr <;> cases hr
  | failed he hu hl =>
    cases hr
    cases hl with
    | failed hrun hc hi =>
      cases iterate_outcome hi with
      | evalFailed st1 s1 x st2 s2 e h1 h2 => cases h2

/-- A model that cannot be evaluated at negative points. -/
def Demo.noNegative : UserModel ℚ 1 Empty String (AdapterState ℚ 1) where
  lenProblem _ := 1
  setIteratives s x := { s with inputs := x }
  getIteratives s := s.inputs
  evaluate s := if s.inputs 0 < 0 then (s, .error (.unusable "negative"))
    else ({ s with left := fun _ => s.inputs 0 * s.inputs 0 - 2 }, .ok ())
  getResiduals s := { left := s.left, right := s.right }
  jacobianProvided _ := true
  getJacobian s := (s, .ok { left := fun _ _ => 2 * s.inputs 0, right := fun _ _ => 0 })
  getMemory _ := []
  setMemory s _ := s
  displayUnusable e := e

open scoped Exact in
example : (Demo.noNegative.evaluate (Demo.noNegative.setIteratives Demo.start
    (Demo.cfg .NewtonRaphson false 5 (1 / 1000) (-1)).guess)).2 = .error (.unusable "negative") := by
  simp [Demo.noNegative, Demo.cfg]

end Nrf
