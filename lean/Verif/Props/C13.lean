import Verif.Proofs.Sim
import Verif.Spec.Demo

/-!
# C13: a model error during damping is reported, not fatal (refuted)

The damped guess is evaluated with `model.evaluate().unwrap()`.
-/

namespace Nrf

/-- For every model and error kind: when the error grew after a step that is to be
damped, and the evaluation of the damped guess reports an error, the update panics. -/
theorem C13_error_while_damping_panics {F : Type} [Scalar F] {n : Nat} {EI EU S : Type}
    (c : Config F n) (m : UserModel F n EI EU S) (st : Solver F n) (s s1 s2 : S) (x : Vec F n)
    (r : Except (ModelError EI EU) Unit) (e : ModelError EI EU)
    (hd : c.params.damping = true) (hlog : st.debug = true → st.log.isSome = true)
    (hja : c.params.method = .NewtonRaphson ∨ st.jac.approximated = false)
    (he : m.evaluate (m.setIteratives s x) = (s1, r)) (hr : ∀ e, r ≠ .error (.unusable e))
    (hgrow : Scalar.lt (amax (c.res.evaluateStopping (m.getResiduals s)))
      (amax (c.res.evaluateStopping (m.getResiduals s1))) = true)
    (he2 : m.evaluate (m.setIteratives s1 (dampedGuess (m.getIteratives s) x)) = (s2, .error e)) :
    updateModel c m x st s = .error .dampingEvaluateUnwrap := by
  obtain ⟨v, hu⟩ : ∃ v, Usable r v := by
    match r, hr with
    | .ok (), _ => exact ⟨_, .ok⟩
    | .error (.inaccurate e), _ => exact ⟨_, .inaccurate e⟩
    | .error (.unusable e), h => exact absurd rfl (h e)
  rw [updateModel_usable he hu]
  have : finishUpdate c m (evaluateErrors c m s) (m.getIteratives s) x { st with valid := v } s1 =
      .error .dampingEvaluateUnwrap := by
    simp only [finishUpdate, bind, Except.bind]
    obtain ⟨l, hl, -⟩ := logIf_safe (st := { st with valid := v }) hlog
      (.iteration st.iter (m.getIteratives s1) (m.getResiduals s1) (evaluateErrors c m s1))
    dsimp only at hl
    rw [hl]
    simp only [hd, if_true]
    have hno : ¬ (c.params.method ≠ .NewtonRaphson ∧ st.jac.approximated = true) := by
      rintro ⟨h1, h2⟩
      rcases hja with h | h
      · exact h1 h
      · rw [h] at h2; cases h2
    have hg : Scalar.lt (amax (evaluateErrors c m s)) (amax (evaluateErrors c m s1)) = true := hgrow
    unfold dampingStep
    simp only [hg, if_true]
    rw [if_neg hno, he2]
  rw [this]

/-- `x = 0` with a badly scaled Jacobian; the point -1/4 is inaccurate. -/
def Demo.inaccurateAtQuarter : UserModel ℚ 1 String Empty (AdapterState ℚ 1) where
  lenProblem _ := 1
  setIteratives s x := { s with inputs := x }
  getIteratives s := s.inputs
  evaluate s := ({ s with left := s.inputs },
    if s.inputs 0 = -1 / 4 then .error (.inaccurate "-1/4") else .ok ())
  getResiduals s := { left := s.left, right := s.right }
  jacobianProvided _ := true
  getJacobian s := (s, .ok { left := fun _ _ => 2 / 5, right := fun _ _ => 0 })
  getMemory _ := []
  setMemory s _ := s
  displayUnusable e := nomatch e

open scoped Exact in
/-- The property fails: a whole solve of a new solver panics, although only an
*inaccurate* evaluation was reported. -/
theorem C13_refuted :
    (match solve (Demo.cfg .NewtonRaphson true 5 (1 / 10) 1) Demo.inaccurateAtQuarter .new
        Demo.start with
      | .error p => decide (p = .dampingEvaluateUnwrap)
      | .ok _ => false) = true := by
  decide +kernel

open scoped Exact in
/-- The hypotheses of the general theorem are met in that run. -/
example : ∃ s1 r s2 e,
    Demo.inaccurateAtQuarter.evaluate (Demo.inaccurateAtQuarter.setIteratives
      { Demo.start with inputs := fun _ => 1, left := fun _ => 1 } fun _ => -3 / 2) = (s1, r) ∧
    (∀ e, r ≠ .error (.unusable e)) ∧
    Scalar.lt (amax (fun _ => 1 : Vec ℚ 1)) (amax ((Demo.cfg .NewtonRaphson true 5 (1 / 10) 1).res.evaluateStopping
      (Demo.inaccurateAtQuarter.getResiduals s1))) = true ∧
    Demo.inaccurateAtQuarter.evaluate (Demo.inaccurateAtQuarter.setIteratives s1
      (dampedGuess (fun _ => 1) fun _ => -3 / 2)) = (s2, .error e) := by
  refine ⟨_, _, _, .inaccurate "-1/4", rfl, fun e => (nomatch e), by decide +kernel, Prod.ext rfl ?_⟩
  simp only [Demo.inaccurateAtQuarter]
  rw [if_pos (by decide +kernel)]

end Nrf
