import Verif.Proofs.Damping
import Verif.Spec.ReadLog

/-!
# What a solve writes to the log
-/

set_option linter.unusedSectionVars false

namespace Nrf

section
variable {F : Type} [Scalar F] {n : Nat} {EI EU S : Type}
variable {c : Config F n} {m : UserModel F n EI EU S}
variable {st st' : Solver F n} {s s' : S}

/-- The log of a solver with debugging on. -/
def Logs (st : Solver F n) (l : List (LogEntry F n)) : Prop := st.debug = true ∧ st.log = some l

theorem Logs.logIf {l e} (h : Logs st l) (hl : st.logIf e = .ok st') :
    Logs st' (l ++ [e]) ∧ st' = { st with log := st'.log } := by
  rcases logIf_ok hl with ⟨h1, -⟩ | ⟨h1, l', h2, rfl⟩
  · rw [h.1] at h1; cases h1
  · have h3 := h.2
    rw [h2] at h3
    cases h3
    exact ⟨⟨h1, rfl⟩, rfl⟩

/-- The step computation writes the Jacobian it used. -/
theorem computeStep_log {l r} (h : Logs st l) (hs : computeStep c m st s = .ok (st', s', r)) :
    (∃ x, r = .ok x ∧ Logs st' (l ++ [.jacobian st'.jac])) ∨
    (∃ e, r = .error e ∧ (Logs st' (l ++ [.jacobian st'.jac]) ∨ Logs st' l)) := by
  have comp : ∀ {j : JacobianMatrix F n} {st1 : Solver F n},
      ({ st with jac := j } : Solver F n).logIf (.jacobian j) = .ok st1 →
      Logs st1 (l ++ [.jacobian st1.jac]) := by
    intro j st1 hl
    have h' : Logs ({ st with jac := j } : Solver F n) l := h
    obtain ⟨h1, h2⟩ := h'.logIf hl
    have : st1.jac = j := by rw [h2]
    rw [this]
    exact h1
  unfold computeStep at hs
  split at hs
  · simp only [newtonRaphsonStep, bind, Except.bind, pure, Except.pure] at hs
    split at hs
    · cases hs
    rename_i v hj
    obtain ⟨j, s1, rj⟩ := v
    dsimp only at hs
    split at hs
    · cases hs
    rename_i st1 hl
    match rj with
    | .error e => cases hs; exact .inr ⟨_, rfl, .inl (comp hl)⟩
    | .ok () =>
      dsimp only at hs
      split at hs
      · cases hs
      · cases hs; exact .inl ⟨_, rfl, comp hl⟩
  · rename_i q hq
    simp only [quasiNewtonStep, bind, Except.bind, pure, Except.pure] at hs
    split at hs
    · cases hs
    rename_i v hj
    obtain ⟨st1, s1, rj⟩ := v
    have key : (rj = .ok () → Logs st1 (l ++ [.jacobian st1.jac])) ∧
        (Logs st1 (l ++ [.jacobian st1.jac]) ∨ Logs st1 l) := by
      simp only [quasiNewtonJacobian, bind, Except.bind, pure, Except.pure] at hj
      split at hj
      · split at hj
        · cases hj
        rename_i v hc
        obtain ⟨j, s2, rj2⟩ := v
        dsimp only at hj
        split at hj
        · cases hj
        rename_i st2 hl
        cases hj
        exact ⟨fun _ => comp hl, .inl (comp hl)⟩
      · split at hj
        · split at hj
          · cases hj
          rename_i st2 hl
          cases hj
          exact ⟨fun _ => comp (j := st.jac) hl, .inl (comp (j := st.jac) hl)⟩
        · split at hj
          · split at hj
            · cases hj
            rename_i v ha
            obtain ⟨j, b⟩ := v
            dsimp only at hj
            cases b
            · cases hj
              exact ⟨fun h => (by cases h), .inr h⟩
            · simp only [if_true] at hj
              split at hj
              · cases hj
              rename_i st2 hl
              cases hj
              exact ⟨fun _ => comp hl, .inl (comp hl)⟩
          · cases hj
        · split at hj
          · split at hj
            · cases hj
            rename_i j ha
            split at hj
            · cases hj
            rename_i st2 hl
            cases hj
            exact ⟨fun _ => comp hl, .inl (comp hl)⟩
          · cases hj
    dsimp only at hs
    match rj with
    | .error e => cases hs; exact .inr ⟨_, rfl, key.2⟩
    | .ok () =>
      dsimp only at hs
      split at hs
      · cases hs
      · cases hs; exact .inl ⟨_, rfl, key.1 rfl⟩

/-- The entry with the state of the model `s`. -/
def entryOf (c : Config F n) (m : UserModel F n EI EU S) (k : Nat) (s : S) : LogEntry F n :=
  .iteration k (m.getIteratives s) (m.getResiduals s) (evaluateErrors c m s)

theorem storeSteps_logs {method : ResolutionMethod} {a b d e : Vec F n} {l}
    (h : Logs st l) : Logs (storeSteps method st a b d e) l :=
  ⟨by rw [(storeSteps_fields ..).2.2.2.2]; exact h.1, by rw [(storeSteps_fields ..).2.1]; exact h.2⟩

/-- The update of the model writes the new point, then possibly that the step was
refused or damped. -/
theorem updateModel_log {l x r} (h : Logs st l) (hs : updateModel c m x st s = .ok (st', s', r)) :
    (∃ e, r = .error e ∧ Logs st' l) ∨
    (∃ e, r = .ok e ∧
      (Logs st' (l ++ [entryOf c m st.iter s']) ∨
       (c.params.damping = true ∧ Logs st' (l ++ [entryOf c m st.iter s', .refused])) ∨
       (c.params.damping = true ∧ ∃ s1, Logs st' (l ++ [entryOf c m st.iter s1,
        .damping (m.getIteratives s') (m.getResiduals s') (evaluateErrors c m s')])))) := by
  rcases he : m.evaluate (m.setIteratives s x) with ⟨s1, rv⟩
  have fin : ∀ v, Usable rv v → ∃ e, r = .ok e ∧
      (Logs st' (l ++ [entryOf c m st.iter s']) ∨
       (c.params.damping = true ∧ Logs st' (l ++ [entryOf c m st.iter s', .refused])) ∨
       (c.params.damping = true ∧ ∃ s1, Logs st' (l ++ [entryOf c m st.iter s1,
        .damping (m.getIteratives s') (m.getResiduals s') (evaluateErrors c m s')]))) := by
    intro v hu
    rw [updateModel_usable he hu] at hs
    simp only [finishUpdate, bind, Except.bind, pure, Except.pure] at hs
    rcases hl : ({ st with valid := v } : Solver F n).logIf (.iteration st.iter
        (m.getIteratives s1) (m.getResiduals s1) (evaluateErrors c m s1)) with p' | st4
    · rw [hl] at hs; cases hs
    · rw [hl] at hs
      have h4 := (Logs.logIf (st := { st with valid := v }) h hl).1
      dsimp only at hs
      by_cases hd : c.params.damping = true
      · rw [if_pos hd] at hs
        split at hs
        · cases hs
        rename_i q hq
        split at hq
        · cases hq
        rename_i v hv
        obtain ⟨st5, s5, e5⟩ := v
        cases hq
        simp only [dampingStep, bind, Except.bind, pure, Except.pure] at hv
        split at hv
        · split at hv
          · split at hv
            · cases hv
            rename_i st6 hl6
            cases hv
            cases hs
            refine ⟨_, rfl, .inr (.inl ⟨hd, storeSteps_logs ?_⟩)⟩
            have := (Logs.logIf (st := { st4 with jac := st4.jac.force }) h4 hl6).1
            rw [List.append_assoc] at this
            exact this
          · split at hv
            · cases hv
            rename_i s6 he6
            split at hv
            · cases hv
            rename_i st6 hl6
            cases hv
            cases hs
            refine ⟨_, rfl, .inr (.inr ⟨hd, s1, storeSteps_logs ?_⟩)⟩
            have := (h4.logIf hl6).1
            rw [List.append_assoc] at this
            exact this
        · cases hv
          cases hs
          exact ⟨_, rfl, .inl (storeSteps_logs h4)⟩
      · rw [if_neg hd] at hs
        cases hs
        exact ⟨_, rfl, .inl (storeSteps_logs h4)⟩
  match rv, he, fin with
  | .error (.unusable e), he, _ =>
    rw [updateModel_unusable he] at hs
    cases hs
    exact .inl ⟨_, rfl, h⟩
  | .ok (), he, fin => exact .inr (fin true .ok)
  | .error (.inaccurate e), he, fin => exact .inr (fin false (.inaccurate e))

/-- The state of the model as written in the log. -/
def loggedOf (c : Config F n) (m : UserModel F n EI EU S) (k : Nat) (s : S) : Spec.Logged F n :=
  ⟨k, m.getIteratives s, m.getResiduals s, evaluateErrors c m s⟩

theorem readLog_append (a b : List (LogEntry F n)) :
    Spec.readLog (a ++ b) = b.foldl Spec.readEntry (Spec.readLog a) := by
  simp [Spec.readLog, List.foldl_append]

/-- One iteration adds one state (none if it failed). -/
theorem iterate_log {l r} (h : Logs st l) (hs : iterate c m st s = .ok (st', s', r)) :
    ∃ new, Logs st' (l ++ new) ∧
      ((∃ e, r = .ok e ∧ ∀ acc, new.foldl Spec.readEntry acc =
          acc ++ [loggedOf c m (st.iter + 1) s']) ∨
       (∃ e, r = .error e ∧ ∀ acc, new.foldl Spec.readEntry acc = acc)) := by
  simp only [iterate, bind, Except.bind, pure, Except.pure] at hs
  rcases hc : computeStep c m { st with iter := st.iter + 1 } s with p | ⟨st1, s1, e | x⟩
  · rw [hc] at hs; cases hs
  · rw [hc] at hs
    cases hs
    rcases computeStep_log (st := { st with iter := st.iter + 1 }) h hc with
      ⟨x, hx, -⟩ | ⟨e, -, hl | hl⟩
    · cases hx
    · exact ⟨_, hl, .inr ⟨_, rfl, fun acc => rfl⟩⟩
    · exact ⟨[], by simpa using hl, .inr ⟨_, rfl, fun acc => rfl⟩⟩
  · rw [hc] at hs
    dsimp only at hs
    have hit : st1.iter = st.iter + 1 := (computeStep_outcome hc).iter_eq
    rcases computeStep_log (st := { st with iter := st.iter + 1 }) h hc with
      ⟨x', -, hl⟩ | ⟨e, he, -⟩
    · split at hs
      · cases hs
      rename_i v hv
      obtain ⟨st2, s2, r2⟩ := v
      rcases updateModel_log hl hv with ⟨e, rfl, h2⟩ | ⟨e, rfl, h2⟩
      · cases hs
        exact ⟨_, h2, .inr ⟨_, rfl, fun acc => rfl⟩⟩
      · cases hs
        rw [hit] at h2
        rcases h2 with h2 | ⟨-, h2⟩ | ⟨-, s3, h2⟩
        · rw [List.append_assoc] at h2
          exact ⟨_, h2, .inl ⟨_, rfl, fun acc => rfl⟩⟩
        · rw [List.append_assoc] at h2
          exact ⟨_, h2, .inl ⟨_, rfl, fun acc => rfl⟩⟩
        · rw [List.append_assoc] at h2
          refine ⟨_, h2, .inl ⟨_, rfl, fun acc => ?_⟩⟩
          simp [Spec.readEntry, entryOf, loggedOf]
    · cases he

/-- The states read in the log while the loop runs: the current one and the ones
reached before. -/
structure Traced (c : Config F n) (m : UserModel F n EI EU S) (l0 : List (LogEntry F n))
    (st0 : Solver F n) (s0 : S) (e0 : F) (st : Solver F n) (s : S) (e : F) : Prop where
  run : Run c m st0 s0 e0 st s e
  log : ∃ new, Logs st (l0 ++ .parameters :: new) ∧
    ∃ past, Spec.readLog (.parameters :: new) = past ++ [loggedOf c m st.iter s] ∧
      past.length = st.iter - st0.iter ∧
      ∀ k, st0.iter ≤ k → k < st.iter → ∃ stk sk ek, Run c m st0 s0 e0 stk sk ek ∧ stk.iter = k ∧
        past[k - st0.iter]? = some (loggedOf c m k sk)

theorem Traced.step {l0 : List (LogEntry F n)} {st0 : Solver F n} {s0 : S} {e0 e e' : F}
    (h : Traced c m l0 st0 s0 e0 st s e) (hc : continues c st e = true)
    (hi : iterate c m st s = .ok (st', s', .ok e')) : Traced c m l0 st0 s0 e0 st' s' e' := by
  obtain ⟨hr, new, hl, past, h1, h2, h3⟩ := h
  refine ⟨hr.snoc hc hi, ?_⟩
  have hit := iterate_iter hi
  have hle := hr.iter_le
  obtain ⟨new', hl', ⟨e1, -, hread⟩ | ⟨e1, he1, -⟩⟩ := iterate_log hl hi
  · refine ⟨new ++ new', by simpa using hl', past ++ [loggedOf c m st.iter s], ?_, ?_, ?_⟩
    · have : LogEntry.parameters :: (new ++ new') = (.parameters :: new) ++ new' := by simp
      rw [this, readLog_append, hread, h1, hit]
    · rw [List.length_append, h2]
      simp
      omega
    · intro k hk1 hk2
      by_cases hk : k = st.iter
      · subst hk
        refine ⟨st, s, e, hr, rfl, ?_⟩
        rw [List.getElem?_append_right (by omega), h2, Nat.sub_self]
        rfl
      · obtain ⟨stk, sk, ek, g1, g2, g3⟩ := h3 k hk1 (by omega)
        refine ⟨stk, sk, ek, g1, g2, ?_⟩
        rw [List.getElem?_append_left (by omega), g3]
  · cases he1

/-- The start of a solve with debugging on. -/
theorem solveFrom_logs {l0} (h : Logs st l0) (hn : n ≠ 0) (s : S) (k : Nat) :
    solveFrom (withMaxIter c k) m st s =
      match loop (withMaxIter c k) m (k - st.iter)
          { st with log := some (l0 ++ [.parameters, entryOf c m st.iter s]) } s
          (amax (evaluateErrors c m s)) with
      | .error p => .error p
      | .ok (st', s', .ok e) => .ok (st', s', finalResult c st' e)
      | .ok (st', s', .error e) => .ok (st', s', .error e) := by
  have h1 : st.parametersToLog = .ok { st with log := some (l0 ++ [.parameters]) } := by
    unfold Solver.parametersToLog
    rw [if_pos h.1]
    simp only [h.2, if_neg hn, Solver.toLog]
  have h2 : ({ st with log := some (l0 ++ [.parameters]) } : Solver F n).logIf
      (entryOf c m st.iter s) =
      .ok { st with log := some (l0 ++ [.parameters, entryOf c m st.iter s]) } := by
    simp [Solver.logIf, h.1, Solver.toLog]
  have e1 : evaluateErrors (withMaxIter c k) m s = evaluateErrors c m s := rfl
  have aux : ∀ X : Except Panic (Solver F n × S × Except (SolverError EI EU) F),
      (match X with
        | .error p => (.error p : Except Panic (Solver F n × S × Except (SolverError EI EU) Unit))
        | .ok (st', s', .ok e) => .ok (st', s', finalResult c st' e)
        | .ok (st', s', .error e) => .ok (st', s', .error e)) =
      X.bind fun x =>
        match x.2.2 with
        | .ok e => .ok (x.1, x.2.1, finalResult (withMaxIter c k) x.1 e)
        | .error e => .ok (x.1, x.2.1, .error e) := by
    intro X
    rcases X with p | ⟨a, b, e | e⟩ <;> rfl
  unfold entryOf at h2 ⊢
  rw [aux]
  simp only [solveFrom, h1, bind, Except.bind]
  rw [e1, h2]
  rfl

theorem solveFrom_zero {l0} (h : Logs st l0) (hn : n = 0) (s : S) :
    solveFrom c m st s = .error .displayEmptyIteratives := by
  simp [solveFrom, Solver.parametersToLog, h.1, h.2, hn, bind, Except.bind]

/-- What can be read in the log after a solve. -/
theorem solve_log {l0 r} (hl : Logs st l0) (h : solve c m st s = .ok (st', s', r))
    (hu : ∀ e, (m.evaluate (m.setIteratives s c.guess)).2 ≠ .error (.unusable e)) :
    ∃ new completed, Logs st' (l0 ++ .parameters :: new) ∧
      ((r = .ok () ∨ r = .error .nonConvergence ∨ r = .error .finalEvaluation) ∧
          st'.iter = st.iter + completed ∨
        ((∃ e, r = .error (.modelEvaluation e)) ∨ ∃ e, r = .error (.jacobian e)) ∧
          st'.iter = st.iter + completed + 1) ∧
      (Spec.readLog (.parameters :: new)).length = completed + 1 ∧
      ∀ k, k ≤ completed → ∃ stk sk rk,
        solve (withMaxIter c (st.iter + k)) m st s = .ok (stk, sk, rk) ∧ stk.iter = st.iter + k ∧
        (Spec.readLog (.parameters :: new))[k]? = some (loggedOf c m (st.iter + k) sk) := by
  rcases he : m.evaluate (m.setIteratives s c.guess) with ⟨s0, rv⟩
  have main : ∀ v, Usable rv v → ∃ new completed, Logs st' (l0 ++ .parameters :: new) ∧
      ((r = .ok () ∨ r = .error .nonConvergence ∨ r = .error .finalEvaluation) ∧
          st'.iter = st.iter + completed ∨
        ((∃ e, r = .error (.modelEvaluation e)) ∨ ∃ e, r = .error (.jacobian e)) ∧
          st'.iter = st.iter + completed + 1) ∧
      (Spec.readLog (.parameters :: new)).length = completed + 1 ∧
      ∀ k, k ≤ completed → ∃ stk sk rk,
        solve (withMaxIter c (st.iter + k)) m st s = .ok (stk, sk, rk) ∧ stk.iter = st.iter + k ∧
        (Spec.readLog (.parameters :: new))[k]? = some (loggedOf c m (st.iter + k) sk) := by
    intro v hus
    have hn : n ≠ 0 := by
      intro hn
      rw [solve_usable he hus, solveFrom_zero hl hn] at h
      cases h
    have hp := solveFrom_logs (c := c) (m := m) hl hn s0
    have hst : ∀ {st1 : Solver F n} {s1 e1}, Run c m
        { st with log := some (l0 ++ [.parameters, entryOf c m st.iter s0]) } s0
        (amax (evaluateErrors c m s0)) st1 s1 e1 →
        solve (withMaxIter c st1.iter) m st s = .ok (st1, s1, finalResult c st1 e1) :=
      fun hr => solve_of_run he hus hp hr
    have hs : solve c m st s = solveFrom (withMaxIter c c.params.maxIter) m st s0 :=
      solve_usable he hus
    rw [hs, hp] at h
    have start : Traced c m l0 { st with log := some (l0 ++ [.parameters, entryOf c m st.iter s0]) }
        s0 (amax (evaluateErrors c m s0))
        { st with log := some (l0 ++ [.parameters, entryOf c m st.iter s0]) } s0
        (amax (evaluateErrors c m s0)) := by
      refine ⟨.done _ _ _, [entryOf c m st.iter s0], ⟨hl.1, rfl⟩, [], rfl, by simp, ?_⟩
      intro k h1 h2
      exact absurd h1 (by simpa using h2)
    have inv := fun (st1 : Solver F n) (s1 : S) (e1 : F) st2 s2 e2
      (ht : Traced c m l0 { st with log := some (l0 ++ [.parameters, entryOf c m st.iter s0]) }
        s0 (amax (evaluateErrors c m s0)) st1 s1 e1)
      (hc : continues c st1 e1 = true) (hi : iterate c m st1 s1 = .ok (st2, s2, .ok e2)) =>
      Traced.step ht hc hi
    -- the entries of a traced state
    have fin : ∀ st1 s1 e1, Traced c m l0
        { st with log := some (l0 ++ [.parameters, entryOf c m st.iter s0]) } s0
        (amax (evaluateErrors c m s0)) st1 s1 e1 →
        ∃ new, Logs st1 (l0 ++ .parameters :: new) ∧ st.iter ≤ st1.iter ∧
        (Spec.readLog (.parameters :: new)).length = st1.iter - st.iter + 1 ∧
        ∀ k, k ≤ st1.iter - st.iter → ∃ stk sk rk,
          solve (withMaxIter c (st.iter + k)) m st s = .ok (stk, sk, rk) ∧ stk.iter = st.iter + k ∧
          (Spec.readLog (.parameters :: new))[k]? = some (loggedOf c m (st.iter + k) sk) := by
      intro st1 s1 e1 ht
      obtain ⟨hr, new, hlog, past, h1, h2, h3⟩ := ht
      have hle := hr.iter_le
      dsimp only at hle h2 h3
      refine ⟨new, hlog, hle, by rw [h1, List.length_append, h2]; rfl, ?_⟩
      intro k hk
      by_cases hk' : k = st1.iter - st.iter
      · have hki : st.iter + k = st1.iter := by omega
        rw [hki]
        refine ⟨st1, s1, _, hst hr, rfl, ?_⟩
        rw [h1, List.getElem?_append_right (by omega), h2, hk', Nat.sub_self]
        rfl
      · obtain ⟨stk, sk, ek, g1, g2, g3⟩ := h3 (st.iter + k) (by omega) (by omega)
        have := hst g1
        rw [g2] at this
        refine ⟨stk, sk, _, this, g2, ?_⟩
        rw [Nat.add_sub_cancel_left] at g3
        rw [h1, List.getElem?_append_left (by omega), g3]
    rcases hlo : loop (withMaxIter c c.params.maxIter) m (c.params.maxIter - st.iter)
      { st with log := some (l0 ++ [.parameters, entryOf c m st.iter s0]) } s0
      (amax (evaluateErrors c m s0)) with p | ⟨st1, s1, err | e⟩
    · rw [hlo] at h; cases h
    · rw [hlo] at h
      cases h
      cases loop_outcome (c := c) _ (by dsimp only; omega) hlo with
      | failed hr hc hi =>
        have ht := hr.invariant inv start
        have hit := iterate_iter hi
        obtain ⟨new, hlog, hle, h1, h2⟩ := fin _ _ _ ht
        obtain ⟨q, hq⟩ : ∃ q, q = st'.iter - 1 - st.iter := ⟨_, rfl⟩
        rw [show _ - st.iter = q by rw [hq, hit]; rfl] at h1
        have h2 : ∀ k, k ≤ q → _ := fun k hk => h2 k (by omega)
        obtain ⟨new', hl', ⟨e1, he1, -⟩ | ⟨e1, -, hread⟩⟩ := iterate_log hlog hi
        · cases he1
        · refine ⟨new ++ new', q, by simpa using hl', .inr ⟨?_, ?_⟩, ?_, ?_⟩
          rotate_left 2
          · have : LogEntry.parameters :: (new ++ new') = (.parameters :: new) ++ new' := by simp
            rw [this, readLog_append, hread, h1]
          · intro k hk
            have : LogEntry.parameters :: (new ++ new') = (.parameters :: new) ++ new' := by simp
            rw [this, readLog_append, hread]
            exact h2 k hk
          · cases iterate_outcome hi with
            | evalFailed _ _ _ _ _ _ g1 g2 => cases g2; exact .inl ⟨_, rfl⟩
            | jacFailed _ _ e g1 => exact .inr ⟨_, rfl⟩
          · omega
    · rw [hlo] at h
      cases h
      cases loop_outcome (c := c) _ (by dsimp only; omega) hlo with
      | exit hr hc =>
        have ht := hr.invariant inv start
        obtain ⟨new, hlog, hle, h1, h2⟩ := fin _ _ _ ht
        refine ⟨new, _, hlog, .inl ⟨?_, by omega⟩, h1, h2⟩
        unfold finalResult
        split
        · exact .inr (.inl rfl)
        · split
          · exact .inl rfl
          · exact .inr (.inr rfl)
  match rv, he, main with
  | .error (.unusable e), he, _ => exact absurd (by rw [he]) (hu e)
  | .ok (), he, main => exact main true .ok
  | .error (.inaccurate e), he, main => exact main false (.inaccurate e)

/-- Debugging is off and the log is `l`. -/
def Silent (l : Option (List (LogEntry F n))) (st : Solver F n) : Prop :=
  st.debug = false ∧ st.log = l

theorem Silent.logIf {l e} (h : Silent l st) (hl : st.logIf e = .ok st') : st' = st := by
  rcases logIf_ok hl with ⟨-, h2⟩ | ⟨h1, -⟩
  · exact h2
  · rw [h.1] at h1; cases h1

theorem computeStep_silent {l r} (h : Silent l st)
    (hs : computeStep c m st s = .ok (st', s', r)) : Silent l st' := by
  have comp : ∀ {j : JacobianMatrix F n} {e} {st1 : Solver F n},
      ({ st with jac := j } : Solver F n).logIf e = .ok st1 → Silent l st1 := by
    intro j e st1 hl
    have h' : Silent l ({ st with jac := j } : Solver F n) := h
    rw [h'.logIf hl]
    exact h'
  unfold computeStep at hs
  split at hs
  · simp only [newtonRaphsonStep, bind, Except.bind, pure, Except.pure] at hs
    split at hs
    · cases hs
    rename_i v hj
    obtain ⟨j, s1, rj⟩ := v
    dsimp only at hs
    split at hs
    · cases hs
    rename_i st1 hl
    match rj with
    | .error e => cases hs; exact comp hl
    | .ok () =>
      dsimp only at hs
      split at hs
      · cases hs
      · cases hs; exact comp hl
  · rename_i q hq
    simp only [quasiNewtonStep, bind, Except.bind, pure, Except.pure] at hs
    split at hs
    · cases hs
    rename_i v hj
    obtain ⟨st1, s1, rj⟩ := v
    have key : Silent l st1 := by
      simp only [quasiNewtonJacobian, bind, Except.bind, pure, Except.pure] at hj
      split at hj
      · split at hj
        · cases hj
        rename_i v hc
        obtain ⟨j, s2, rj2⟩ := v
        dsimp only at hj
        split at hj
        · cases hj
        rename_i st2 hl
        cases hj
        exact comp hl
      · split at hj
        · split at hj
          · cases hj
          rename_i st2 hl
          cases hj
          exact comp (j := st.jac) hl
        · split at hj
          · split at hj
            · cases hj
            rename_i v ha
            obtain ⟨j, b⟩ := v
            dsimp only at hj
            cases b
            · cases hj
              exact h
            · simp only [if_true] at hj
              split at hj
              · cases hj
              rename_i st2 hl
              cases hj
              exact comp hl
          · cases hj
        · split at hj
          · split at hj
            · cases hj
            rename_i j ha
            split at hj
            · cases hj
            rename_i st2 hl
            cases hj
            exact comp hl
          · cases hj
    dsimp only at hs
    match rj with
    | .error e => cases hs; exact key
    | .ok () =>
      dsimp only at hs
      split at hs
      · cases hs
      · cases hs; exact key

theorem iterate_silent {l r} (h : Silent l st)
    (hs : iterate c m st s = .ok (st', s', r)) : Silent l st' := by
  simp only [iterate, bind, Except.bind, pure, Except.pure] at hs
  rcases hc : computeStep c m { st with iter := st.iter + 1 } s with p | ⟨st1, s1, e | x⟩
  · rw [hc] at hs; cases hs
  · rw [hc] at hs
    cases hs
    exact computeStep_silent (st := { st with iter := st.iter + 1 }) h hc
  · rw [hc] at hs
    have h1 : Silent l st1 := computeStep_silent (st := { st with iter := st.iter + 1 }) h hc
    dsimp only at hs
    split at hs
    · cases hs
    rename_i v hv
    obtain ⟨st2, s2, r2⟩ := v
    have h2 : Silent l st2 := by
      rcases he : m.evaluate (m.setIteratives s1 x) with ⟨s3, rv⟩
      have fin : ∀ v, Usable rv v → Silent l st2 := by
        intro v hu
        rw [updateModel_usable he hu] at hv
        have h1' : Silent l ({ st1 with valid := v } : Solver F n) := h1
        simp only [finishUpdate, bind, Except.bind, pure, Except.pure] at hv
        rcases hl : ({ st1 with valid := v } : Solver F n).logIf (.iteration st1.iter
          (m.getIteratives s3) (m.getResiduals s3) (evaluateErrors c m s3)) with p' | st4
        · rw [hl] at hv; cases hv
        rw [hl] at hv
        obtain rfl := h1'.logIf hl
        have store : ∀ {sta : Solver F n} {a b d e}, Silent l sta →
            Silent l (storeSteps c.params.method sta a b d e) := fun hsa =>
          ⟨by rw [(storeSteps_fields ..).2.2.2.2]; exact hsa.1,
            by rw [(storeSteps_fields ..).2.1]; exact hsa.2⟩
        dsimp only at hv
        by_cases hd : c.params.damping = true
        · rw [if_pos hd] at hv
          split at hv
          · cases hv
          rename_i q hq
          split at hq
          · cases hq
          rename_i w hw
          obtain ⟨st5, s5, e5⟩ := w
          cases hq
          simp only [dampingStep, bind, Except.bind, pure, Except.pure] at hw
          split at hw
          · split at hw
            · split at hw
              · cases hw
              rename_i st6 hl6
              cases hw
              cases hv
              have hf : Silent l ({ st1 with valid := v, jac := st1.jac.force } : Solver F n) := h1
              obtain rfl := hf.logIf hl6
              exact store hf
            · split at hw
              · cases hw
              split at hw
              · cases hw
              rename_i st6 hl6
              cases hw
              cases hv
              obtain rfl := h1'.logIf hl6
              exact store h1'
          · cases hw
            cases hv
            exact store h1'
        · rw [if_neg hd] at hv
          cases hv
          exact store h1'
      match rv, he, fin with
      | .error (.unusable e), he, _ =>
        rw [updateModel_unusable he] at hv
        cases hv
        exact h1
      | .ok (), he, fin => exact fin true .ok
      | .error (.inaccurate e), he, fin => exact fin false (.inaccurate e)
    match r2 with
    | .ok e => cases hs; exact h2
    | .error e => cases hs; exact h2

/-- Without debugging a solve writes nothing. -/
theorem solve_silent {r} (hd : st.debug = false) (h : solve c m st s = .ok (st', s', r)) :
    st'.debug = false ∧ st'.log = st.log := by
  rcases he : m.evaluate (m.setIteratives s c.guess) with ⟨s0, rv⟩
  have main : ∀ v, Usable rv v → Silent st.log st' := by
    intro v hu
    rw [solve_usable he hu, solveFrom_noDebug hd] at h
    have inv := fun (st1 : Solver F n) (s1 : S) (e1 : F) st2 s2 e2
      (ht : Silent st.log st1)
      (_ : continues c st1 e1 = true) (hi : iterate c m st1 s1 = .ok (st2, s2, .ok e2)) =>
      iterate_silent ht hi
    rcases hlo : loop c m (c.params.maxIter - st.iter) st s0 (amax (evaluateErrors c m s0)) with
      p | ⟨st1, s1, err | e⟩
    · rw [hlo] at h; cases h
    · rw [hlo] at h; cases h
      cases loop_outcome _ (by omega) hlo with
      | failed hr hc hi =>
        exact iterate_silent (hr.invariant (P := fun st1 _ _ => Silent st.log st1) inv ⟨hd, rfl⟩) hi
    · rw [hlo] at h; cases h
      cases loop_outcome _ (by omega) hlo with
      | exit hr hc =>
        exact hr.invariant (P := fun st1 _ _ => Silent st.log st1) inv ⟨hd, rfl⟩
  match rv, he, main with
  | .error (.unusable e), he, _ =>
    rw [solve_unusable he] at h
    cases h
    exact ⟨hd, rfl⟩
  | .ok (), he, main => exact main true .ok
  | .error (.inaccurate e), he, main => exact main false (.inaccurate e)

end
end Nrf
