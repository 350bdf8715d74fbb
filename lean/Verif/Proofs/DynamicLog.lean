import Verif.Model.Dynamic

/-!
# Dynamic vectors of any lengths: the log does not change the solve
-/

set_option linter.unusedSectionVars false

namespace Nrf
namespace Dyn

/-- The solver without the debug mode and its log. -/
def Solver.hush {F : Type} (st : Solver F) : Solver F := { st with debug := false, log := none }

/-- A solver that can write its log. -/
def Solver.Loud {F : Type} (st : Solver F) : Prop := st.debug = true → ∃ l, st.log = some l

section
variable {F : Type} [Scalar F] {n : Nat} {EI EU S : Type}

/-- The result `x` with the log is the result `y` without. -/
def Quiet {β : Type} (x y : Except DynPanic (Solver F × S × β)) : Prop :=
  match x with
  | .error p => y = .error p
  | .ok (st, s, b) => st.Loud ∧ y = .ok (st.hush, s, b)

theorem Quiet.bind {β γ : Type} {x y : Except DynPanic (Solver F × S × β)}
    {f g : Solver F × S × β → Except DynPanic (Solver F × S × γ)} (h : Quiet x y)
    (hf : ∀ st s b, st.Loud → Quiet (f (st, s, b)) (g (st.hush, s, b))) : Quiet (x >>= f) (y >>= g) := by
  match x with
  | .error p =>
    change y = _ at h
    rw [h]
    rfl
  | .ok (st, s, b) =>
    obtain ⟨h1, h2⟩ := h
    rw [h2]
    exact hf st s b h1

/-- A log entry that is written. -/
structure Writes (x : Except DynPanic (Solver F)) (st : Solver F) : Prop where
  ok : ∃ st', x = .ok st' ∧ st'.Loud ∧ st'.hush = st.hush ∧ st'.iter = st.iter

theorem toLog_writes {st : Solver F} {l : List (Entry F)} (h : st.log = some l) (e : Entry F) :
    Writes (st.toLog e) st := by
  refine ⟨⟨{ st with log := some (l ++ [e]) }, ?_, fun _ => ⟨_, rfl⟩, rfl, rfl⟩⟩
  unfold Solver.toLog
  rw [h]

theorem logIf_writes {st : Solver F} (h : st.Loud) (e : Entry F) : Writes (st.logIf e) st := by
  unfold Solver.logIf
  by_cases hd : st.debug = true
  · obtain ⟨l, hl⟩ := h hd
    rw [if_pos hd]
    exact toLog_writes hl e
  · rw [if_neg hd]
    exact ⟨⟨st, rfl, h, rfl, rfl⟩⟩

theorem parameters_writes {st : Solver F} (h : st.Loud) (hn : n ≠ 0) : Writes (st.parametersToLog n) st := by
  unfold Solver.parametersToLog
  by_cases hd : st.debug = true
  · obtain ⟨l, hl⟩ := h hd
    rw [if_pos hd, hl]
    dsimp only
    rw [if_neg hn]
    exact toLog_writes hl _
  · rw [if_neg hd]
    exact ⟨⟨st, rfl, h, rfl, rfl⟩⟩

variable {la : (k : Nat) → LinAlg F k} {c : Config F n} {m : Model F EI EU S}

theorem evaluateErrors_len {s : S} {e : DVec F} (h : evaluateErrors c m s = .ok e) :
    ∃ v, m.getResiduals s = .ok v ∧ e.len = v.len := by
  unfold evaluateErrors at h
  cases hv : m.getResiduals s with
  | error p => rw [hv] at h; cases h
  | ok v =>
    rw [hv] at h
    change evaluateStopping c.res v = _ at h
    unfold evaluateStopping at h
    split at h
    · cases h; exact ⟨v, rfl, rfl⟩
    · cases h

theorem table_writes {st : Solver F} (h : st.Loud) {s : S} {e : DVec F} (he : evaluateErrors c m s = .ok e)
    (entry : F → List (Row F) → Entry F) : Writes (tableToLog m entry e st s) st := by
  unfold tableToLog
  by_cases hd : st.debug = true
  · obtain ⟨l, hl⟩ := h hd
    obtain ⟨v, hv, hlen⟩ := evaluateErrors_len he
    rw [if_pos hd, hv, hl]
    dsimp only [bind, Except.bind]
    unfold rows
    rw [dif_pos (by omega)]
    exact toLog_writes hl _
  · rw [if_neg hd]
    exact ⟨⟨st, rfl, h, rfl, rfl⟩⟩

theorem table_hush (st : Solver F) (s : S) (e : DVec F) (entry : F → List (Row F) → Entry F) :
    tableToLog m entry e st.hush s = .ok st.hush := rfl

/-- A continuation after a log entry that is written. -/
theorem Quiet.log {β : Type} {x : Except DynPanic (Solver F)} {st : Solver F} (h : Writes x st)
    {f : Solver F → Except DynPanic (Solver F × S × β)} {y : Except DynPanic (Solver F × S × β)}
    (hf : ∀ st', st'.Loud → st'.hush = st.hush → st'.iter = st.iter → Quiet (f st') y) : Quiet (x >>= f) y := by
  obtain ⟨st', hx, h1, h2, h3⟩ := h
  rw [hx]
  exact hf st' h1 h2 h3

theorem computeNext_hush (st : Solver F) (s : S) : computeNext la c m st.hush s = computeNext la c m st s := rfl

theorem quasiNewtonJacobian_quiet (q : QuasiNewtonMethod) {st : Solver F} (h : st.Loud) (s : S) :
    Quiet (quasiNewtonJacobian la c m q st s) (quasiNewtonJacobian la c m q st.hush s) := by
  unfold quasiNewtonJacobian
  change Quiet (if st.jac.computeNext = true then _ else _) (if st.jac.computeNext = true then _ else _)
  by_cases hn : st.jac.computeNext = true
  · rw [if_pos hn, if_pos hn]
    change Quiet _ (computeJac la c m st.jac s >>= _)
    rcases computeJac la c m st.jac s with p | ⟨j, s, r⟩
    · rfl
    · refine Quiet.log (logIf_writes (st := { st with jac := j }) h _) fun st' h1 h2 _ => ⟨h1, ?_⟩
      rw [h2]
      rfl
  · rw [if_neg hn, if_neg hn]
    cases q with
    | StationaryNewton =>
      refine Quiet.log (logIf_writes h _) fun st' h1 h2 _ => ⟨h1, ?_⟩
      rw [h2]
      rfl
    | JacobianUpdate method =>
      dsimp only
      have e1 : st.hush.itStep = st.itStep := rfl
      have e2 : st.hush.resStep = st.resStep := rfl
      have e3 : st.hush.resCur = st.resCur := rfl
      have e4 : st.hush.jac = st.jac := rfl
      rw [e1, e2, e3, e4]
      rcases hi : st.itStep with _ | ds
      · rfl
      rcases hr : st.resStep with _ | dy
      · rfl
      rcases hcur : st.resCur with _ | cur
      · rfl
      dsimp only
      rcases approximateJacobian la st.jac method ds dy cur with p | ⟨j, b⟩
      · rfl
      · cases b with
        | false => exact ⟨h, rfl⟩
        | true =>
          refine Quiet.log (logIf_writes (st := { st with jac := j, itStep := some ds, resStep := some dy, resCur := some cur })
            h _) fun st' h1 h2 _ => ⟨h1, ?_⟩
          rw [h2]
          rfl
    | InverseJacobianUpdate method =>
      dsimp only
      have e1 : st.hush.itStep = st.itStep := rfl
      have e2 : st.hush.resStep = st.resStep := rfl
      have e3 : st.hush.resCur = st.resCur := rfl
      have e4 : st.hush.jac = st.jac := rfl
      rw [e1, e2, e3, e4]
      rcases hi : st.itStep with _ | ds
      · rfl
      rcases hr : st.resStep with _ | dy
      · rfl
      rcases hcur : st.resCur with _ | cur
      · rfl
      dsimp only
      rcases approximateInvJacobian la st.jac method ds dy cur with p | j
      · rfl
      · refine Quiet.log (logIf_writes (st := { st with jac := j, itStep := some ds, resStep := some dy, resCur := some cur })
          h _) fun st' h1 h2 _ => ⟨h1, ?_⟩
        rw [h2]
        rfl

theorem evaluateJacobian_quiet {st : Solver F} (h : st.Loud) (s : S) :
    Quiet (evaluateJacobian la c m st s) (evaluateJacobian la c m st.hush s) := by
  unfold evaluateJacobian
  cases c.params.method with
  | NewtonRaphson =>
    change Quiet _ (computeJac la c m st.jac s >>= _)
    dsimp only
    rcases computeJac la c m st.jac s with p | ⟨j, s, r⟩
    · rfl
    · refine Quiet.log (logIf_writes (st := { st with jac := j }) h _) fun st' h1 h2 _ => ⟨h1, ?_⟩
      rw [h2]
      rfl
  | QuasiNewton q => exact quasiNewtonJacobian_quiet q h s

theorem computeStep_quiet {st : Solver F} (h : st.Loud) (s : S) :
    Quiet (computeStep la c m st s) (computeStep la c m st.hush s) := by
  unfold computeStep
  refine (evaluateJacobian_quiet h s).bind fun st s r h => ?_
  match r with
  | .error e => exact ⟨h, rfl⟩
  | .ok () =>
    dsimp only
    rw [computeNext_hush]
    rcases computeNext la c m st s with p | x
    · rfl
    · exact ⟨h, rfl⟩

theorem dampingStep_quiet (maxError : F) (cur x e : DVec F) {st : Solver F} (h : st.Loud) (s : S) :
    Quiet (dampingStep c m maxError cur x e st s) (dampingStep c m maxError cur x e st.hush s) := by
  unfold dampingStep
  have ha : st.hush.jac = st.jac := rfl
  rw [ha]
  split
  · split
    · refine Quiet.log (logIf_writes (st := { st with jac := { st.jac with computeNext := true } }) h _)
        fun st' h1 h2 _ => ⟨h1, ?_⟩
      rw [h2]
      rfl
    · rcases dampedGuess cur x with p | g
      · rfl
      · dsimp only [bind, Except.bind]
        rcases m.evaluate (m.setIteratives s g) with ⟨s', v⟩
        match v with
        | .error e => rfl
        | .ok () =>
          dsimp only
          cases he : evaluateErrors c m s' with
          | error p => rfl
          | ok e' =>
            dsimp only
            rw [table_hush]
            refine Quiet.log (table_writes h he .damping) (f := fun st => .ok (st, s', e')) fun st' h1 h2 _ => ⟨h1, ?_⟩
            rw [h2]
            rfl
  · exact ⟨h, rfl⟩

theorem storeSteps_quiet {st : Solver F} (h : st.Loud) (s : S) (a b d e : DVec F) :
    Quiet (storeSteps c st a b d e >>= fun st => pure (st, s, d))
      (storeSteps c st.hush a b d e >>= fun st => pure (st, s, d)) := by
  unfold storeSteps
  split
  · exact ⟨h, rfl⟩
  · exact ⟨h, rfl⟩
  · rcases sub a b with p | x
    · rfl
    · rcases sub d e with p | y
      · rfl
      · exact ⟨h, rfl⟩

theorem finishUpdate_quiet (errors cur x : DVec F) {st : Solver F} (h : st.Loud) (s : S) :
    Quiet (finishUpdate c m errors cur x st s) (finishUpdate c m errors cur x st.hush s) := by
  unfold finishUpdate
  cases he : evaluateErrors c m s with
  | error p => rfl
  | ok e =>
    refine Quiet.log (table_writes h he _) fun st' h1 h2 _ => ?_
    dsimp only [bind, Except.bind]
    rw [table_hush, ← h2]
    dsimp only
    split
    · exact (dampingStep_quiet _ _ _ _ h1 s).bind fun st s e h => storeSteps_quiet h s _ _ _ _
    · exact storeSteps_quiet h1 s _ _ _ _

theorem updateModel_quiet (x : DVec F) {st : Solver F} (h : st.Loud) (s : S) :
    Quiet (updateModel c m x st s) (updateModel c m x st.hush s) := by
  unfold updateModel
  cases he : evaluateErrors c m s with
  | error p => rfl
  | ok e =>
    dsimp only [bind, Except.bind]
    rcases m.evaluate (m.setIteratives s x) with ⟨s', v⟩
    match v with
    | .error (.unusable e) => exact ⟨h, rfl⟩
    | .error (.inaccurate e') =>
      exact (finishUpdate_quiet e _ x (st := { st with valid := false }) h s').bind fun _ _ _ h => ⟨h, rfl⟩
    | .ok () =>
      exact (finishUpdate_quiet e _ x (st := { st with valid := true }) h s').bind fun _ _ _ h => ⟨h, rfl⟩

theorem iterate_quiet {st : Solver F} (h : st.Loud) (s : S) :
    Quiet (iterate la c m st s) (iterate la c m st.hush s) := by
  unfold iterate
  refine (computeStep_quiet (st := { st with iter := st.iter + 1 }) h s).bind fun st s r h => ?_
  match r with
  | .error e => exact ⟨h, rfl⟩
  | .ok x =>
    refine (updateModel_quiet x h s).bind fun st s r h => ?_
    match r with
    | .error e => exact ⟨h, rfl⟩
    | .ok e => exact ⟨h, rfl⟩

theorem loop_quiet : ∀ (fuel : Nat) {st : Solver F} (_ : st.Loud) (s : S) (e : F),
    Quiet (loop la c m fuel st s e) (loop la c m fuel st.hush s e) := by
  intro fuel
  induction fuel with
  | zero => intro st h s e; exact ⟨h, rfl⟩
  | succ k ih =>
    intro st h s e
    unfold loop
    have hi : st.hush.iter = st.iter := rfl
    rw [hi]
    split
    · have hq := iterate_quiet (la := la) (c := c) (m := m) h s
      rcases hr : iterate la c m st s with p | ⟨a, b, r⟩
      · rw [hr] at hq
        change _ = _ at hq
        rw [hq]
        rfl
      · rw [hr] at hq
        obtain ⟨h1, h2⟩ := hq
        rw [h2]
        match r with
        | .error e => exact ⟨h1, rfl⟩
        | .ok e => exact ih h1 _ _
    · exact ⟨h, rfl⟩

theorem solve_quiet {st : Solver F} (h : st.Loud) (hn : n ≠ 0) (s : S) :
    Quiet (solve la c m st s) (solve la c m st.hush s) := by
  have hfrom : ∀ s, Quiet (solveFrom la c m st s) (solveFrom la c m st.hush s) := by
    intro s
    unfold solveFrom
    cases he : evaluateErrors c m s with
    | error p => rfl
    | ok e =>
      refine Quiet.log (parameters_writes h hn) fun st1 h1 h2 h3 => ?_
      refine Quiet.log (table_writes h1 he _) fun st2 h4 h5 h6 => ?_
      change Quiet _ (loop la c m (c.params.maxIter - st.iter) st.hush s _ >>= _)
      rw [← h2, ← h5, show st.iter = st2.iter by rw [h6, h3]]
      refine (loop_quiet _ h4 s _).bind fun st s r h => ?_
      match r with
      | .error e => exact ⟨h, rfl⟩
      | .ok e => exact ⟨h, rfl⟩
  unfold solve
  rcases m.evaluate (m.setIteratives s ⟨n, c.guess⟩) with ⟨s', v⟩
  match v with
  | .error (.unusable e) => exact ⟨h, rfl⟩
  | .error (.inaccurate e) => exact hfrom s'
  | .ok () => exact hfrom s'

end
end Dyn
end Nrf
