import Verif.Proofs.Basic

/-!
# The loop and the whole solve as relations
-/

set_option linter.unusedSectionVars false

namespace Nrf

section
variable {F : Type} [Scalar F] {n : Nat} {EI EU S : Type}
variable {c : Config F n} {m : UserModel F n EI EU S}
variable {st st' : Solver F n} {s s' : S}

/-- Finitely many passes of the loop, each entered with the loop condition true. -/
inductive Run (c : Config F n) (m : UserModel F n EI EU S) :
    Solver F n → S → F → Solver F n → S → F → Prop where
  | done (st s e) : Run c m st s e st s e
  | pass {st s e st1 s1 e1 st2 s2 e2} (hc : continues c st e = true)
      (hi : iterate c m st s = .ok (st1, s1, .ok e1)) (hr : Run c m st1 s1 e1 st2 s2 e2) :
      Run c m st s e st2 s2 e2

theorem storeSteps_fields (method : ResolutionMethod) (st : Solver F n) (a b d e : Vec F n) :
    (storeSteps method st a b d e).iter = st.iter ∧ (storeSteps method st a b d e).log = st.log ∧
    (storeSteps method st a b d e).jac = st.jac ∧ (storeSteps method st a b d e).valid = st.valid ∧
    (storeSteps method st a b d e).debug = st.debug := by
  unfold storeSteps
  split <;> simp

theorem StepOutcome.iter_eq {r} (h : StepOutcome c m st s st' s' r) : st'.iter = st.iter := by
  cases h <;> rfl

theorem UpdateOutcome.iter_eq {x r} (h : UpdateOutcome c m x st s st' s' r) :
    st'.iter = st.iter := by
  cases h <;> simp [(storeSteps_fields ..).1]

theorem IterOutcome.iter_eq {r} (h : IterOutcome c m st s st' s' r) :
    st'.iter = st.iter + 1 := by
  cases h with
  | step st1 s1 x st2 s2 e h1 h2 => rw [h2.iter_eq, h1.iter_eq]
  | evalFailed st1 s1 x st2 s2 e h1 h2 => rw [h2.iter_eq, h1.iter_eq]
  | jacFailed st1 s1 e h1 => rw [h1.iter_eq]

theorem iterate_iter {r} (h : iterate c m st s = .ok (st', s', r)) : st'.iter = st.iter + 1 :=
  (iterate_outcome h).iter_eq

/-- What the loop can end in (no panic). -/
inductive LoopOutcome (c : Config F n) (m : UserModel F n EI EU S) (st : Solver F n) (s : S)
    (e : F) : Solver F n → S → Except (SolverError EI EU) F → Prop where
  | exit {st' s' e'} (hr : Run c m st s e st' s' e') (hc : continues c st' e' = false) :
      LoopOutcome c m st s e st' s' (.ok e')
  | failed {st1 s1 e1 st' s' err} (hr : Run c m st s e st1 s1 e1)
      (hc : continues c st1 e1 = true) (hi : iterate c m st1 s1 = .ok (st', s', .error err)) :
      LoopOutcome c m st s e st' s' (.error err)

/-- The fuel `max_iter - iter` never cuts the loop short. -/
theorem loop_outcome : ∀ (fuel : Nat) {st : Solver F n} {s : S} {e : F} {st' s' r},
    c.params.maxIter ≤ st.iter + fuel → loop c m fuel st s e = .ok (st', s', r) →
    LoopOutcome c m st s e st' s' r := by
  intro fuel
  induction fuel with
  | zero =>
    intro st s e st' s' r hf h
    cases h
    refine .exit (.done _ _ _) ?_
    simp only [continues, Bool.and_eq_false_iff, decide_eq_false_iff_not]
    right; omega
  | succ fuel ih =>
    intro st s e st' s' r hf h
    unfold loop at h
    split at h
    · rename_i hc
      split at h
      · cases h
      · rename_i st1 s1 e1 hi
        have hit := iterate_iter hi
        cases ih (by omega) h with
        | exit hr hc' => exact .exit (.pass hc hi hr) hc'
        | failed hr hc' hi' => exact .failed (.pass hc hi hr) hc' hi'
      · rename_i st1 s1 e1 hi
        cases h
        exact .failed (.done _ _ _) hc hi
    · rename_i hc
      cases h
      exact .exit (.done _ _ _) (by simpa using hc)

/-- The unfolding equation of the `while` loop: the model's `loop` started with
`max_iter - iter` passes of fuel is the Rust loop. -/
theorem loop_eq (st : Solver F n) (s : S) (e : F) :
    loop c m (c.params.maxIter - st.iter) st s e =
      if continues c st e then
        match iterate c m st s with
        | .error p => .error p
        | .ok (st1, s1, .ok e1) => loop c m (c.params.maxIter - st1.iter) st1 s1 e1
        | .ok (st1, s1, .error err) => .ok (st1, s1, .error err)
      else .ok (st, s, .ok e) := by
  by_cases hlt : st.iter < c.params.maxIter
  · obtain ⟨k, hk⟩ : ∃ k, c.params.maxIter - st.iter = k + 1 :=
      ⟨c.params.maxIter - st.iter - 1, by omega⟩
    rw [hk, loop]
    split
    · split
      · rename_i hi; rw [hi]
      · rename_i st1 s1 e1 hi
        have := iterate_iter hi
        have : c.params.maxIter - st1.iter = k := by omega
        rw [hi]; simp only [this]
      · rename_i hi; rw [hi]
    · rfl
  · have h0 : c.params.maxIter - st.iter = 0 := by omega
    have hc : continues c st e = false := by simp [continues, hlt]
    simp [h0, loop, hc]

/-- What `solve` can end in (no panic). -/
inductive SolveOutcome (c : Config F n) (m : UserModel F n EI EU S) (st : Solver F n) (s : S) :
    Solver F n → S → Except (SolverError EI EU) Unit → Prop where
  | initFailed {s' e} (he : m.evaluate (m.setIteratives s c.guess) = (s', .error (.unusable e))) :
      SolveOutcome c m st s st s' (.error (.modelInitialEvaluation (m.displayUnusable e)))
  | finished {s0 r v l st' s' e'} (he : m.evaluate (m.setIteratives s c.guess) = (s0, r))
      (hu : Usable r v)
      (hl : LoopOutcome c m { st with log := l } s0 (amax (evaluateErrors c m s0)) st' s' (.ok e')) :
      SolveOutcome c m st s st' s' (finalResult c st' e')
  | failed {s0 r v l st' s' err} (he : m.evaluate (m.setIteratives s c.guess) = (s0, r))
      (hu : Usable r v)
      (hl : LoopOutcome c m { st with log := l } s0 (amax (evaluateErrors c m s0)) st' s'
        (.error err)) :
      SolveOutcome c m st s st' s' (.error err)

theorem solveFrom_outcome {r} (h : solveFrom c m st s = .ok (st', s', r)) :
    ∃ l, (∃ e', LoopOutcome c m { st with log := l } s (amax (evaluateErrors c m s)) st' s' (.ok e') ∧
        r = finalResult c st' e') ∨
      (∃ err, LoopOutcome c m { st with log := l } s (amax (evaluateErrors c m s)) st' s'
        (.error err) ∧ r = .error err) := by
  simp only [solveFrom, bind, Except.bind, pure, Except.pure] at h
  split at h
  · cases h
  rename_i st1 hp
  obtain ⟨l1, rfl⟩ := parametersToLog_fields hp
  split at h
  · cases h
  rename_i st2 hl
  obtain ⟨l2, rfl⟩ := logIf_fields hl
  refine ⟨l2, ?_⟩
  split at h
  · cases h
  rename_i v hv
  obtain ⟨st3, s3, r3⟩ := v
  have hv := loop_outcome _ (by simp only; omega) hv
  dsimp only at h
  split at h
  · cases h; exact .inl ⟨_, hv, rfl⟩
  · cases h; exact .inr ⟨_, hv, rfl⟩

theorem solve_outcome {r} (h : solve c m st s = .ok (st', s', r)) :
    SolveOutcome c m st s st' s' r := by
  unfold solve at h
  have key : ∀ s0 rv v, m.evaluate (m.setIteratives s c.guess) = (s0, rv) → Usable rv v →
      solveFrom c m st s0 = .ok (st', s', r) → SolveOutcome c m st s st' s' r := by
    intro s0 rv v he hu h
    obtain ⟨l, ⟨e', hl, rfl⟩ | ⟨err, hl, rfl⟩⟩ := solveFrom_outcome h
    · exact .finished he hu hl
    · exact .failed he hu hl
  split at h
  · rename_i s0 e he
    cases h
    exact .initFailed he
  · rename_i s0 rv hne he
    match rv, he with
    | .ok (), he => exact key _ _ _ he .ok h
    | .error (.inaccurate e), he => exact key _ _ _ he (.inaccurate e) h
    | .error (.unusable e), he => exact (hne _ rfl).elim

/-- Induction over the passes: an invariant of one pass is an invariant of the run. -/
theorem Run.invariant {P : Solver F n → S → F → Prop} {e e'}
    (hr : Run c m st s e st' s' e')
    (hstep : ∀ st s e st1 s1 e1, P st s e → continues c st e = true →
      iterate c m st s = .ok (st1, s1, .ok e1) → P st1 s1 e1)
    (h0 : P st s e) : P st' s' e' := by
  induction hr with
  | done => exact h0
  | pass hc hi _ ih => exact ih (hstep _ _ _ _ _ _ h0 hc hi)

theorem Run.iter_le {e e'} (hr : Run c m st s e st' s' e') : st.iter ≤ st'.iter := by
  induction hr with
  | done => exact le_refl _
  | pass hc hi _ ih => have := iterate_iter hi; omega

theorem Run.iter_le_max {e e'} (hr : Run c m st s e st' s' e') (h : st.iter ≤ c.params.maxIter) :
    st'.iter ≤ c.params.maxIter := by
  refine hr.invariant (P := fun st _ _ => st.iter ≤ c.params.maxIter) ?_ h
  intro st s e st1 s1 e1 _ hc hi
  have := iterate_iter hi
  simp [continues] at hc
  omega

/-- The value handed to the next loop test is the error of the model as it is. -/
theorem IterOutcome.error_eq {e} (h : IterOutcome c m st s st' s' (.ok e)) :
    e = amax (evaluateErrors c m s') := by
  cases h with
  | step st1 s1 x st2 s2 e h1 h2 => cases h2 <;> rfl

theorem Run.error_eq {e e'} (hr : Run c m st s e st' s' e')
    (h0 : e = amax (evaluateErrors c m s)) : e' = amax (evaluateErrors c m s') := by
  refine hr.invariant (P := fun _ s e => e = amax (evaluateErrors c m s)) ?_ h0
  intro st s e st1 s1 e1 _ _ hi
  exact (iterate_outcome hi).error_eq

/-- Without debugging, `solve` after the first evaluation is the loop and the final
tests. -/
theorem solveFrom_noDebug (hd : st.debug = false) (s : S) :
    solveFrom c m st s =
      match loop c m (c.params.maxIter - st.iter) st s (amax (evaluateErrors c m s)) with
      | .error p => .error p
      | .ok (st', s', .ok e) => .ok (st', s', finalResult c st' e)
      | .ok (st', s', .error e) => .ok (st', s', .error e) := by
  simp only [solveFrom, Solver.parametersToLog, Solver.logIf, bind, Except.bind, pure, Except.pure,
    hd, Bool.false_eq_true, if_false]
  rcases loop c m (c.params.maxIter - st.iter) st s (amax (evaluateErrors c m s)) with
    p | ⟨st', s', e | e⟩ <;> rfl

/-- `solve` after a usable first evaluation. -/
theorem solve_usable {s0 r v} (he : m.evaluate (m.setIteratives s c.guess) = (s0, r))
    (hu : Usable r v) : solve c m st s = solveFrom c m st s0 := by
  unfold solve
  rw [he]
  cases hu <;> rfl

theorem solve_unusable {s0 e} (he : m.evaluate (m.setIteratives s c.guess) = (s0, .error (.unusable e))) :
    solve c m st s = .ok (st, s0, .error (.modelInitialEvaluation (m.displayUnusable e))) := by
  unfold solve
  rw [he]

/-- The tests after the loop, applied to its outcome. -/
def finishLoop (c : Config F n) : Except Panic (Solver F n × S × Except (SolverError EI EU) F) →
    Except Panic (Solver F n × S × Except (SolverError EI EU) Unit)
  | .error p => .error p
  | .ok (st, s, r) => .ok (st, s, r.bind (finalResult c st))

/-- `solve` without debugging after a usable first evaluation. -/
theorem solve_finish {s0 r v} (hd : st.debug = false)
    (he : m.evaluate (m.setIteratives s c.guess) = (s0, r)) (hu : Usable r v) :
    solve c m st s = finishLoop c
      (loop c m (c.params.maxIter - st.iter) st s0 (amax (evaluateErrors c m s0))) := by
  rw [solve_usable he hu, solveFrom_noDebug hd]
  rcases loop c m (c.params.maxIter - st.iter) st s0 (amax (evaluateErrors c m s0)) with
    p | ⟨st', s', e | e⟩ <;> rfl

end
end Nrf
