import Verif.Model.RootFinder

/-!
# Inversion lemmas for the solver

Each lemma describes the possible outcomes of one solver function.
-/

set_option linter.unusedSectionVars false

namespace Nrf

section
variable {F : Type} [Scalar F] {n : Nat} {EI EU S : Type}
variable {c : Config F n} {m : UserModel F n EI EU S}
variable {st st' : Solver F n} {s s' : S}

theorem toLog_ok {e : LogEntry F n} (h : st.toLog e = .ok st') :
    ∃ l, st.log = some l ∧ st' = { st with log := some (l ++ [e]) } := by
  unfold Solver.toLog at h
  split at h
  · cases h
  · rename_i l hl
    exact ⟨l, hl, by cases h; rfl⟩

theorem logIf_ok {e : LogEntry F n} (h : st.logIf e = .ok st') :
    (st.debug = false ∧ st' = st) ∨
      (st.debug = true ∧ ∃ l, st.log = some l ∧ st' = { st with log := some (l ++ [e]) }) := by
  unfold Solver.logIf at h
  split at h
  · rename_i hd
    exact .inr ⟨hd, toLog_ok h⟩
  · rename_i hd
    cases h
    exact .inl ⟨by simpa using hd, rfl⟩

/-- Logging changes the log only. -/
theorem logIf_fields {e : LogEntry F n} (h : st.logIf e = .ok st') :
    ∃ l, st' = { st with log := l } := by
  rcases logIf_ok h with ⟨-, rfl⟩ | ⟨-, l, -, rfl⟩
  · exact ⟨st'.log, rfl⟩
  · exact ⟨_, rfl⟩

theorem parametersToLog_fields (h : st.parametersToLog = .ok st') :
    ∃ l, st' = { st with log := l } := by
  unfold Solver.parametersToLog at h
  split at h
  · split at h
    · cases h
    · split at h
      · cases h
      · obtain ⟨l, -, rfl⟩ := toLog_ok h
        exact ⟨_, rfl⟩
  · cases h
    exact ⟨st.log, rfl⟩

/-- Outcome of one step computation (`compute_newton_raphson_step` or
`compute_quasi_newton_step`) that did not panic. -/
inductive StepOutcome (c : Config F n) (m : UserModel F n EI EU S) (st : Solver F n) (s : S) :
    Solver F n → S → Except (SolverInternalError EI EU) (Vec F n) → Prop where
  /-- The Jacobian was computed from the model and a step was proposed. -/
  | computed (j l s' x) (hm : c.params.method = .NewtonRaphson ∨ st.jac.computeNext = true)
      (hj : computeJac c m st.jac s = .ok (j, s', .ok ()))
      (hx : computeNext c m { st with jac := j, log := l } s' = .ok x) :
      StepOutcome c m st s { st with jac := j, log := l } s' (.ok x)
  /-- The Jacobian computation returned an error. -/
  | computeFailed (j l s' e) (hm : c.params.method = .NewtonRaphson ∨ st.jac.computeNext = true)
      (hj : computeJac c m st.jac s = .ok (j, s', .error e)) :
      StepOutcome c m st s { st with jac := j, log := l } s' (.error e)
  /-- Stationary Newton: the Jacobian was kept. -/
  | kept (l x) (hm : c.params.method = .QuasiNewton .StationaryNewton)
      (hc : st.jac.computeNext = false)
      (hx : computeNext c m { st with log := l } s = .ok x) :
      StepOutcome c m st s { st with log := l } s (.ok x)
  /-- The Jacobian was updated and inverted. -/
  | updated (u ds dy cur j l x) (hm : c.params.method = .QuasiNewton (.JacobianUpdate u))
      (hc : st.jac.computeNext = false)
      (h1 : st.itStep = some ds) (h2 : st.resStep = some dy) (h3 : st.resCur = some cur)
      (hj : approximateJacobian c.la st.jac u ds dy cur = .ok (j, true))
      (hx : computeNext c m { st with jac := j, log := l } s = .ok x) :
      StepOutcome c m st s { st with jac := j, log := l } s (.ok x)
  /-- The updated Jacobian was not invertible. -/
  | updateFailed (u ds dy cur j) (hm : c.params.method = .QuasiNewton (.JacobianUpdate u))
      (hc : st.jac.computeNext = false)
      (h1 : st.itStep = some ds) (h2 : st.resStep = some dy) (h3 : st.resCur = some cur)
      (hj : approximateJacobian c.la st.jac u ds dy cur = .ok (j, false)) :
      StepOutcome c m st s { st with jac := j } s (.error .invalidJacobianInverse)
  /-- The inverse was updated. -/
  | invUpdated (u ds dy cur j l x)
      (hm : c.params.method = .QuasiNewton (.InverseJacobianUpdate u))
      (hc : st.jac.computeNext = false)
      (h1 : st.itStep = some ds) (h2 : st.resStep = some dy) (h3 : st.resCur = some cur)
      (hj : approximateInvJacobian c.la st.jac u ds dy cur = .ok j)
      (hx : computeNext c m { st with jac := j, log := l } s = .ok x) :
      StepOutcome c m st s { st with jac := j, log := l } s (.ok x)

theorem newtonRaphsonStep_outcome {r} (hm : c.params.method = .NewtonRaphson)
    (h : newtonRaphsonStep c m st s = .ok (st', s', r)) : StepOutcome c m st s st' s' r := by
  simp only [newtonRaphsonStep, bind, Except.bind, pure, Except.pure] at h
  split at h
  · cases h
  rename_i v hj
  obtain ⟨j, s1, rj⟩ := v
  dsimp only at h
  split at h
  · cases h
  rename_i st1 hl
  obtain ⟨l, rfl⟩ := logIf_fields hl
  split at h
  · split at h
    · cases h
    · rename_i x hx
      cases h
      exact .computed j l s' x (.inl hm) hj hx
  · cases h
    exact .computeFailed j l s' _ (.inl hm) hj

theorem quasiNewtonStep_outcome {q r} (hm : c.params.method = .QuasiNewton q)
    (h : quasiNewtonStep c m q st s = .ok (st', s', r)) : StepOutcome c m st s st' s' r := by
  simp only [quasiNewtonStep, bind, Except.bind, pure, Except.pure] at h
  split at h
  · cases h
  rename_i v hq
  obtain ⟨st1, s1, rj⟩ := v
  dsimp only at h
  simp only [quasiNewtonJacobian, bind, Except.bind, pure, Except.pure] at hq
  split at hq
  · rename_i hc
    split at hq
    · cases hq
    rename_i v hj
    obtain ⟨j, s2, rj'⟩ := v
    dsimp only at hq
    split at hq
    · cases hq
    rename_i st2 hl
    obtain ⟨l, rfl⟩ := logIf_fields hl
    cases hq
    split at h
    · split at h
      · cases h
      · rename_i x hx
        cases h
        exact .computed j l s' x (.inr hc) hj hx
    · cases h
      exact .computeFailed j l s' _ (.inr hc) hj
  · rename_i hc
    have hc : st.jac.computeNext = false := by simpa using hc
    split at hq
    · split at hq
      · cases hq
      rename_i st2 hl
      obtain ⟨l, rfl⟩ := logIf_fields hl
      cases hq
      dsimp only at h
      split at h
      · cases h
      · rename_i x hx
        cases h
        exact .kept l x hm hc hx
    · rename_i u
      split at hq
      · rename_i ds dy cur h1 h2 h3
        split at hq
        · cases hq
        rename_i v hj
        obtain ⟨j, ok⟩ := v
        dsimp only at hq
        split at hq
        · rename_i hok
          subst hok
          split at hq
          · cases hq
          rename_i st2 hl
          obtain ⟨l, rfl⟩ := logIf_fields hl
          cases hq
          dsimp only at h
          split at h
          · cases h
          · rename_i x hx
            cases h
            exact .updated u ds dy cur j l x hm hc h1 h2 h3 hj hx
        · rename_i hok
          have hok : ok = false := by simpa using hok
          subst hok
          cases hq
          dsimp only at h
          cases h
          exact .updateFailed u ds dy cur j hm hc h1 h2 h3 hj
      · cases hq
    · rename_i u
      split at hq
      · rename_i ds dy cur h1 h2 h3
        split at hq
        · cases hq
        rename_i j hj
        split at hq
        · cases hq
        rename_i st2 hl
        obtain ⟨l, rfl⟩ := logIf_fields hl
        cases hq
        dsimp only at h
        split at h
        · cases h
        · rename_i x hx
          cases h
          exact .invUpdated u ds dy cur j l x hm hc h1 h2 h3 hj hx
      · cases hq

theorem computeStep_outcome {r} (h : computeStep c m st s = .ok (st', s', r)) :
    StepOutcome c m st s st' s' r := by
  unfold computeStep at h
  split at h
  · rename_i hm; exact newtonRaphsonStep_outcome hm h
  · rename_i q hm; exact quasiNewtonStep_outcome hm h

/-- A usable evaluation (`Ok` or inaccurate) and the flag it leaves. -/
inductive Usable : Except (ModelError EI EU) Unit → Bool → Prop where
  | ok : Usable (.ok ()) true
  | inaccurate (e : EI) : Usable (.error (.inaccurate e)) false

/-- Outcome of `update_model` that did not panic. -/
inductive UpdateOutcome (c : Config F n) (m : UserModel F n EI EU S) (x : Vec F n)
    (st : Solver F n) (s : S) :
    Solver F n → S → Except (SolverError EI EU) (Vec F n) → Prop where
  /-- The model reported unusable values. -/
  | unusable (s1 e) (he : m.evaluate (m.setIteratives s x) = (s1, .error (.unusable e))) :
      UpdateOutcome c m x st s { st with valid := false } s1
        (.error (.modelEvaluation (.unusable e)))
  /-- The step was accepted without damping. -/
  | plain (s1 r v l) (he : m.evaluate (m.setIteratives s x) = (s1, r)) (hu : Usable r v)
      (hd : c.params.damping = false ∨
        Scalar.lt (amax (evaluateErrors c m s)) (amax (evaluateErrors c m s1)) = false) :
      UpdateOutcome c m x st s
        (storeSteps c.params.method { st with valid := v, log := l }
          (m.getIteratives s1) (m.getIteratives s) (evaluateErrors c m s1) (evaluateErrors c m s))
        s1 (.ok (evaluateErrors c m s1))
  /-- The error grew after a step made with an approximated Jacobian. -/
  | refused (s1 r v l) (he : m.evaluate (m.setIteratives s x) = (s1, r)) (hu : Usable r v)
      (hd : c.params.damping = true)
      (hlt : Scalar.lt (amax (evaluateErrors c m s)) (amax (evaluateErrors c m s1)) = true)
      (hm : c.params.method ≠ .NewtonRaphson) (ha : st.jac.approximated = true) :
      UpdateOutcome c m x st s
        (storeSteps c.params.method { st with valid := v, log := l, jac := st.jac.force }
          (m.getIteratives s1) (m.getIteratives s) (evaluateErrors c m s1) (evaluateErrors c m s))
        s1 (.ok (evaluateErrors c m s1))
  /-- The error grew after a step made with a computed Jacobian: the step was halved. -/
  | damped (s1 r v l s2) (he : m.evaluate (m.setIteratives s x) = (s1, r)) (hu : Usable r v)
      (hd : c.params.damping = true)
      (hlt : Scalar.lt (amax (evaluateErrors c m s)) (amax (evaluateErrors c m s1)) = true)
      (hm : ¬ (c.params.method ≠ .NewtonRaphson ∧ st.jac.approximated = true))
      (he2 : m.evaluate (m.setIteratives s1 (dampedGuess (m.getIteratives s) x)) = (s2, .ok ())) :
      UpdateOutcome c m x st s
        (storeSteps c.params.method { st with valid := v, log := l }
          (m.getIteratives s2) (m.getIteratives s) (evaluateErrors c m s2) (evaluateErrors c m s))
        s2 (.ok (evaluateErrors c m s2))

/-- Outcome of `damping` that did not panic. -/
theorem dampingStep_cases {maxError : F} {cur x e : Vec F n} {e'} 
    (h : dampingStep c m maxError cur x e st s = .ok (st', s', e')) :
    (Scalar.lt maxError (amax e) = false ∧ st' = st ∧ s' = s ∧ e' = e) ∨
    (Scalar.lt maxError (amax e) = true ∧ c.params.method ≠ .NewtonRaphson ∧
      st.jac.approximated = true ∧ s' = s ∧ e' = e ∧
      ∃ l, st' = { st with jac := st.jac.force, log := l }) ∨
    (Scalar.lt maxError (amax e) = true ∧
      ¬ (c.params.method ≠ .NewtonRaphson ∧ st.jac.approximated = true) ∧
      m.evaluate (m.setIteratives s (dampedGuess cur x)) = (s', .ok ()) ∧
      e' = evaluateErrors c m s' ∧ ∃ l, st' = { st with log := l }) := by
  simp only [dampingStep, bind, Except.bind, pure, Except.pure] at h
  split at h
  · rename_i hlt
    split at h
    · rename_i hm
      split at h
      · cases h
      rename_i st1 hl
      obtain ⟨l, rfl⟩ := logIf_fields hl
      cases h
      exact .inr (.inl ⟨hlt, hm.1, hm.2, rfl, rfl, l, rfl⟩)
    · rename_i hm
      split at h
      · cases h
      · rename_i s2 he
        split at h
        · cases h
        rename_i st1 hl
        obtain ⟨l, rfl⟩ := logIf_fields hl
        cases h
        exact .inr (.inr ⟨hlt, hm, he, rfl, l, rfl⟩)
  · rename_i hlt
    cases h
    exact .inl ⟨by simpa using hlt, rfl, rfl, rfl⟩

theorem updateModel_outcome {x r} (h : updateModel c m x st s = .ok (st', s', r)) :
    UpdateOutcome c m x st s st' s' r := by
  have fin : ∀ (s1 : S) (rv : Except (ModelError EI EU) Unit) (v : Bool) e,
      m.evaluate (m.setIteratives s x) = (s1, rv) → Usable rv v →
      finishUpdate c m (evaluateErrors c m s) (m.getIteratives s) x { st with valid := v } s1 =
        .ok (st', s', e) →
      UpdateOutcome c m x st s st' s' (.ok e) := by
    intro s1 rv v e he hu h
    simp only [finishUpdate, bind, Except.bind, pure, Except.pure] at h
    split at h
    · cases h
    rename_i st1 hl
    obtain ⟨l, rfl⟩ := logIf_fields hl
    split at h
    · rename_i hd
      split at h
      · cases h
      rename_i w hw
      obtain ⟨st2, s2, e2⟩ := w
      cases h
      rcases dampingStep_cases hw with ⟨hlt, rfl, rfl, rfl⟩ | ⟨hlt, hm, ha, rfl, rfl, l', rfl⟩ |
        ⟨hlt, hm, he2, rfl, l', rfl⟩
      · exact .plain _ rv v l he hu (.inr hlt)
      · exact .refused _ rv v l' he hu hd hlt hm ha
      · exact .damped s1 rv v l' _ he hu hd hlt hm he2
    · rename_i hd
      cases h
      exact .plain s' rv v l he hu (.inl (by simpa using hd))
  unfold updateModel at h
  simp only [bind, Except.bind, pure, Except.pure] at h
  split at h
  · rename_i s1 he
    split at h
    · cases h
    · rename_i w hw
      cases h
      exact fin s1 _ true _ he .ok hw
  · rename_i s1 e he
    split at h
    · cases h
    · rename_i w hw
      cases h
      exact fin s1 _ false _ he (.inaccurate e) hw
  · rename_i s1 e he
    cases h
    exact .unusable _ e he

/-- Outcome of one pass of the loop that did not panic. -/
inductive IterOutcome (c : Config F n) (m : UserModel F n EI EU S) (st : Solver F n) (s : S) :
    Solver F n → S → Except (SolverError EI EU) F → Prop where
  | step (st1 s1 x st2 s2 e)
      (h1 : StepOutcome c m { st with iter := st.iter + 1 } s st1 s1 (.ok x))
      (h2 : UpdateOutcome c m x st1 s1 st2 s2 (.ok e)) :
      IterOutcome c m st s st2 s2 (.ok (amax e))
  | evalFailed (st1 s1 x st2 s2 e)
      (h1 : StepOutcome c m { st with iter := st.iter + 1 } s st1 s1 (.ok x))
      (h2 : UpdateOutcome c m x st1 s1 st2 s2 (.error e)) :
      IterOutcome c m st s st2 s2 (.error e)
  | jacFailed (st1 s1 e)
      (h1 : StepOutcome c m { st with iter := st.iter + 1 } s st1 s1 (.error e)) :
      IterOutcome c m st s st1 s1 (.error (.jacobian e))

theorem iterate_outcome {r} (h : iterate c m st s = .ok (st', s', r)) :
    IterOutcome c m st s st' s' r := by
  simp only [iterate, bind, Except.bind, pure, Except.pure] at h
  split at h
  · cases h
  rename_i v hs
  obtain ⟨st1, s1, r1⟩ := v
  dsimp only at h
  have hs := computeStep_outcome hs
  split at h
  · rename_i x
    split at h
    · cases h
    rename_i w hw
    obtain ⟨st2, s2, r2⟩ := w
    dsimp only at h
    have hw := updateModel_outcome hw
    split at h
    · cases h; exact .step _ _ _ _ _ _ hs hw
    · cases h; exact .evalFailed _ _ _ _ _ _ hs hw
  · cases h; exact .jacFailed _ _ _ hs

end
end Nrf
