import Verif.Proofs.Calls
import Verif.Props.C09
import Verif.Spec.Demo

/-!
# C10: `FinalEvaluationError` reports exactly an inaccurate final evaluation

Full statement: a converged solve returns `Ok` when the evaluation that produced the
final model state succeeded and `FinalEvaluationError` when it was inaccurate.  The
code violates it in two ways (`C10_refuted_initial`, `C10_refuted_damping`).  What
holds is the statement restricted to solves with at least one iteration and damping
off; what is missing is exactly these two cases.
-/

namespace Nrf

/-- The restricted statement: the last call is the evaluation that produced the final
state, and the result tells how it went. -/
theorem C10_final_evaluation_partial {F : Type} [Scalar F] {n : Nat} {EI EU S : Type}
    (c : Config F n) (m : UserModel F n EI EU S) (st st' : Solver F n) (s s' : S)
    (calls : List (Call F n EI EU)) (r : Except (SolverError EI EU) Unit)
    (hdamp : c.params.damping = false) (hiter : st.iter < st'.iter)
    (h : solve c (recorded m) st (s, []) = .ok (st', (s', calls), r))
    (hr : r = .ok () ∨ r = .error .finalEvaluation) :
    ∃ before s0 r0, calls = before ++ [.evaluate r0] ∧ m.evaluate s0 = (s', r0) ∧
      (r = .ok () ↔ r0 = .ok ()) ∧
      (r = .error .finalEvaluation ↔ ∃ e, r0 = .error (.inaccurate e)) := by
  let P : Solver F n → S × List (Call F n EI EU) → F → Prop := fun st1 s1 _ =>
    st.iter < st1.iter → ∃ before s0 r0, s1.2 = before ++ [.evaluate r0] ∧
      m.evaluate s0 = (s1.1, r0) ∧ Usable r0 st1.valid
  cases solve_outcome h with
  | initFailed he => simp at hr
  | failed he hu hl =>
    exfalso
    cases hl with
    | failed hrun hc hi =>
      cases iterate_outcome hi with
      | evalFailed st1 s1 x st2 s2 e h1 h2 => cases h2; simp at hr
      | jacFailed st1 s1 e h1 => simp at hr
  | finished he hu hl =>
    cases hl with
    | exit hrun hc =>
      have hP : P st' (s', calls) c.params.tolerance := by
        refine hrun.invariant (P := P) ?_ (fun hlt => absurd hlt (lt_irrefl _))
        rintro st1 ⟨s1, t1⟩ e st2 ⟨s2, t2⟩ e2 _ _ hi _
        obtain ⟨seg, rfl, hic⟩ := iterate_calls hi
        generalize hv : (Except.ok e2 : Except (SolverError EI EU) F) = r2 at hic
        cases hic with
        | step jc uc s3 x s' v e h1 h2 =>
          cases h2 with
          | plain r he hv e =>
            exact ⟨t1 ++ jc ++ [.setIteratives x], _, r, by simp, he, hv⟩
          | damped s4 r he hv hd he2 e => rw [hdamp] at hd; cases hd
        | evalFailed => cases hv
        | jacFailed => cases hv
      obtain ⟨before, s0, r0, h1, h2, h3⟩ := hP hiter
      refine ⟨before, s0, r0, h1, h2, ?_⟩
      unfold finalResult at hr ⊢
      split at hr
      · simp at hr
      · rename_i e' hlt
        rw [if_neg hlt]
        cases hval : st'.valid <;> rw [hval] at h3 <;> cases h3 <;> simp

/-- First violation, for every model: an inaccurate evaluation of an initial guess
within the tolerance is reported as `Ok` by a new solver. -/
theorem C10_refuted_initial {F : Type} [Scalar F] {n : Nat} {EI EU S : Type}
    (c : Config F n) (m : UserModel F n EI EU S) (s s' : S) (e : EI)
    (he : m.evaluate (m.setIteratives s c.guess) = (s', .error (.inaccurate e)))
    (htol : Scalar.lt c.params.tolerance (amax (c.res.evaluateStopping (m.getResiduals s'))) = false) :
    solve c m .new s = .ok (.new, s', .ok ()) := by
  rw [solve_usable he (.inaccurate e), solveFrom_noDebug rfl, loop_eq]
  simp only [continues, evaluateErrors, htol, Bool.false_and, Bool.false_eq_true, if_false,
    finalResult]
  rfl

open scoped Exact in
/-- Its hypotheses are met. -/
example : ∃ s' e, Demo.inaccurateBelow2.evaluate (Demo.inaccurateBelow2.setIteratives Demo.start
      (Demo.cfg .NewtonRaphson false 5 (1 / 2) (3 / 2)).guess) = (s', .error (.inaccurate e)) ∧
    Scalar.lt (1 / 2 : ℚ) (amax ((Demo.cfg .NewtonRaphson false 5 (1 / 2) (3 / 2)).res.evaluateStopping
      (Demo.inaccurateBelow2.getResiduals s'))) = false := by
  refine ⟨_, "below 2", Prod.ext rfl ?_, ?_⟩
  · simp only [Demo.inaccurateBelow2, Demo.cfg]; rw [if_pos (by norm_num)]
  · decide +kernel

/-- `x = 0` with a badly scaled Jacobian, reported inaccurate below -1. -/
def Demo.inaccurateBelowM1 : UserModel ℚ 1 String Empty (AdapterState ℚ 1) where
  lenProblem _ := 1
  setIteratives s x := { s with inputs := x }
  getIteratives s := s.inputs
  evaluate s := ({ s with left := s.inputs },
    if s.inputs 0 < -1 then .error (.inaccurate "below -1") else .ok ())
  getResiduals s := { left := s.left, right := s.right }
  jacobianProvided _ := true
  getJacobian s := (s, .ok { left := fun _ _ => 2 / 5, right := fun _ _ => 0 })
  getMemory _ := []
  setMemory s _ := s
  displayUnusable e := nomatch e

open scoped Exact in
/-- Second violation: after damping the flag still tells about the refused point.
From 1 the proposed point is -1.5 (inaccurate, larger error); the damped point -0.25
is evaluated without error and within the tolerance, and is the final state, but the
solve returns `FinalEvaluationError`. -/
theorem C10_refuted_damping :
    (match solve (Demo.cfg .NewtonRaphson true 5 (3 / 10) 1) (recorded Demo.inaccurateBelowM1) .new
        (Demo.start, []) with
      | .ok (_, s', .error .finalEvaluation) =>
        decide (s'.1.inputs 0 = -1 / 4) && (match s'.2.getLast? with
          | some (.evaluate (.ok ())) => true
          | _ => false)
      | _ => false) = true := by
  decide +kernel

open scoped Exact in
/-- The hypotheses of the restricted statement are met, for both results. -/
example : (∃ st' s' calls, solve (Demo.cfg .NewtonRaphson false 9 (1 / 1000) 3)
      (recorded Demo.inaccurateBelow2) .new (Demo.start, []) =
        .ok (st', (s', calls), .error .finalEvaluation)) ∧
    (∃ st' s' calls, solve (Demo.cfg .NewtonRaphson false 9 (7 / 2) 4)
      (recorded Demo.inaccurateBelow2) .new (Demo.start, []) = .ok (st', (s', calls), .ok ())) := by
  constructor
  · obtain ⟨a, b, h⟩ := Demo.kind_final (x := solve (Demo.cfg .NewtonRaphson false 9 (1 / 1000) 3)
      (recorded Demo.inaccurateBelow2) .new (Demo.start, [])) (by decide +kernel)
    exact ⟨a, b.1, b.2, h⟩
  · obtain ⟨a, b, h⟩ := Demo.kind_ok (x := solve (Demo.cfg .NewtonRaphson false 9 (7 / 2) 4)
      (recorded Demo.inaccurateBelow2) .new (Demo.start, [])) (by decide +kernel)
    exact ⟨a, b.1, b.2, h⟩

end Nrf
