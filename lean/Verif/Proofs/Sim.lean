import Verif.Proofs.Loop

/-!
# Simulation between solves that differ in logging or in reported inaccuracies
-/

set_option linter.unusedSectionVars false

namespace Nrf

section
variable {F : Type} [Scalar F] {n : Nat} {EI EU S : Type}
variable {c : Config F n} {m m' : UserModel F n EI EU S} {V : Bool → Bool → Prop}

/-- The log can be written when it is needed. -/
def LogSafe (st : Solver F n) : Prop := st.debug = true → st.log.isSome = true

/-- Two solvers with the same numerical content. -/
structure Sim (V : Bool → Bool → Prop) (a b : Solver F n) : Prop where
  iter : a.iter = b.iter
  jac : a.jac = b.jac
  itStep : a.itStep = b.itStep
  resStep : a.resStep = b.resStep
  resCur : a.resCur = b.resCur
  safe1 : LogSafe a
  safe2 : LogSafe b
  debug : (a.debug = true ∨ b.debug = true) → n ≠ 0
  valid : V a.valid b.valid

/-- Two results agree. -/
def RSim {α : Type} (V : Bool → Bool → Prop) :
    Except Panic (Solver F n × S × α) → Except Panic (Solver F n × S × α) → Prop
  | .error p, .error q => p = q
  | .ok (a, s, r), .ok (b, s', r') => Sim V a b ∧ s = s' ∧ r = r'
  | _, _ => False

/-- Two models a solve cannot tell apart, except for the accuracy flag. -/
structure MSim (c : Config F n) (V : Bool → Bool → Prop) (m m' : UserModel F n EI EU S) :
    Prop where
  jac : ∀ j s, computeJac c m j s = computeJac c m' j s
  set : ∀ s x, m.setIteratives s x = m'.setIteratives s x
  get : ∀ s, m.getIteratives s = m'.getIteratives s
  res : ∀ s, m.getResiduals s = m'.getResiduals s
  disp : ∀ e, m.displayUnusable e = m'.displayUnusable e
  eval : ∀ s, (∃ s' e, m.evaluate s = (s', .error (.unusable e)) ∧
      m'.evaluate s = (s', .error (.unusable e))) ∨
    (∃ s' r r' v v', m.evaluate s = (s', r) ∧ m'.evaluate s = (s', r') ∧
      Usable r v ∧ Usable r' v' ∧ V v v')
  damp : c.params.damping = true → ∀ s, m.evaluate s = m'.evaluate s

theorem logIf_safe {st : Solver F n} (h : LogSafe st) (e : LogEntry F n) :
    ∃ l, st.logIf e = .ok { st with log := l } ∧ LogSafe { st with log := l } := by
  unfold Solver.logIf
  by_cases hd : st.debug = true
  · have := h hd
    unfold Solver.toLog
    cases hl : st.log with
    | none => simp [hl] at this
    | some l => simp only [hd, if_true]; exact ⟨_, rfl, fun _ => rfl⟩
  · rw [if_neg hd]
    exact ⟨st.log, rfl, h⟩

theorem Sim.log {a b : Solver F n} (h : Sim V a b) {l l'} (h1 : LogSafe { a with log := l })
    (h2 : LogSafe { b with log := l' }) : Sim V { a with log := l } { b with log := l' } :=
  { iter := h.iter, jac := h.jac, itStep := h.itStep, resStep := h.resStep, resCur := h.resCur,
    safe1 := h1, safe2 := h2, debug := h.debug, valid := h.valid }

theorem Sim.setJac {a b : Solver F n} (h : Sim V a b) (j : JacobianMatrix F n) :
    Sim V { a with jac := j } { b with jac := j } :=
  { iter := h.iter, jac := rfl, itStep := h.itStep, resStep := h.resStep, resCur := h.resCur,
    safe1 := h.safe1, safe2 := h.safe2, debug := h.debug, valid := h.valid }

theorem Sim.logIf {a b : Solver F n} (h : Sim V a b) (e e' : LogEntry F n) :
    ∃ l l', a.logIf e = .ok { a with log := l } ∧ b.logIf e' = .ok { b with log := l' } ∧
      Sim V { a with log := l } { b with log := l' } := by
  obtain ⟨l, h1, h2⟩ := logIf_safe h.safe1 e
  obtain ⟨l', h3, h4⟩ := logIf_safe h.safe2 e'
  exact ⟨l, l', h1, h3, h.log h2 h4⟩

theorem computeNext_sim {a b : Solver F n} (hm : MSim c V m m') (h : Sim V a b) (s : S) :
    computeNext c m a s = computeNext c m' b s := by
  unfold computeNext
  rw [h.jac, hm.get, hm.res]

theorem newtonRaphsonStep_sim {a b : Solver F n} (hm : MSim c V m m') (h : Sim V a b) (s : S) :
    RSim V (newtonRaphsonStep c m a s) (newtonRaphsonStep c m' b s) := by
  simp only [newtonRaphsonStep, bind, Except.bind, pure, Except.pure, hm.jac, h.jac]
  match computeJac c m' b.jac s with
  | .error p => rfl
  | .ok (j, s', r) =>
    obtain ⟨l, l', h1, h2, h3⟩ := (h.setJac j).logIf (.jacobian j) (.jacobian j)
    dsimp only
    rw [h1, h2]
    match r with
    | .error e => exact ⟨h3, rfl, rfl⟩
    | .ok () =>
      dsimp only at h3 ⊢
      rw [computeNext_sim hm h3]
      rcases computeNext c m' _ s' with p | x
      · rfl
      · exact ⟨h3, rfl, rfl⟩

theorem quasiNewtonJacobian_sim {a b : Solver F n} (hm : MSim c V m m') (h : Sim V a b) (s : S)
    (q : QuasiNewtonMethod) :
    RSim V (quasiNewtonJacobian c m q a s) (quasiNewtonJacobian c m' q b s) := by
  obtain ⟨da, ia, la, ja, xa, ya, za, va⟩ := a
  obtain ⟨db, ib, lb, jb, xb, yb, zb, vb⟩ := b
  obtain rfl : ia = ib := h.iter
  obtain rfl : ja = jb := h.jac
  obtain rfl : xa = xb := h.itStep
  obtain rfl : ya = yb := h.resStep
  obtain rfl : za = zb := h.resCur
  simp only [quasiNewtonJacobian, bind, Except.bind, pure, Except.pure, hm.jac]
  by_cases hc : ja.computeNext = true
  · simp only [hc, if_true]
    match computeJac c m' ja s with
    | .error p => rfl
    | .ok (j, s', r) =>
      obtain ⟨l, l', h1, h2, h3⟩ := (h.setJac j).logIf (.jacobian j) (.jacobian j)
      dsimp only
      rw [h1, h2]
      exact ⟨h3, rfl, rfl⟩
  · simp only [hc, if_false, Bool.false_eq_true]
    match q with
    | .StationaryNewton =>
      obtain ⟨l, l', h1, h2, h3⟩ := h.logIf (.jacobian ja) (.jacobian ja)
      dsimp only
      rw [h1, h2]
      exact ⟨h3, rfl, rfl⟩
    | .JacobianUpdate method =>
      dsimp only
      match xa, ya, za, h with
      | some ds, some dy, some cur, h =>
        dsimp only
        match approximateJacobian c.la ja method ds dy cur with
        | .error p => rfl
        | .ok (j, false) => exact ⟨h.setJac j, rfl, rfl⟩
        | .ok (j, true) =>
          obtain ⟨l, l', h1, h2, h3⟩ := (h.setJac j).logIf (.jacobian j) (.jacobian j)
          dsimp only at h1 h2 ⊢
          simp only [if_true]
          rw [h1, h2]
          exact ⟨h3, rfl, rfl⟩
      | none, _, _, _ => rfl
      | some _, none, _, _ => rfl
      | some _, some _, none, _ => rfl
    | .InverseJacobianUpdate method =>
      dsimp only
      match xa, ya, za, h with
      | some ds, some dy, some cur, h =>
        dsimp only
        match approximateInvJacobian c.la ja method ds dy cur with
        | .error p => rfl
        | .ok j =>
          obtain ⟨l, l', h1, h2, h3⟩ := (h.setJac j).logIf (.jacobian j) (.jacobian j)
          dsimp only at h1 h2 ⊢
          rw [h1, h2]
          exact ⟨h3, rfl, rfl⟩
      | none, _, _, _ => rfl
      | some _, none, _, _ => rfl
      | some _, some _, none, _ => rfl

theorem RSim.elim {α : Type} {x y : Except Panic (Solver F n × S × α)} (h : RSim V x y) :
    (∃ p, x = .error p ∧ y = .error p) ∨
    (∃ a b s r, x = .ok (a, s, r) ∧ y = .ok (b, s, r) ∧ Sim V a b) := by
  match x, y, h with
  | .error p, .error q, h => exact .inl ⟨p, rfl, by rw [show p = q from h]⟩
  | .ok (a, s, r), .ok (b, s', r'), ⟨h1, h2, h3⟩ =>
    subst h2; subst h3
    exact .inr ⟨a, b, s, r, rfl, rfl, h1⟩

theorem computeStep_sim {a b : Solver F n} (hm : MSim c V m m') (h : Sim V a b) (s : S) :
    RSim V (computeStep c m a s) (computeStep c m' b s) := by
  unfold computeStep
  match c.params.method with
  | .NewtonRaphson => exact newtonRaphsonStep_sim hm h s
  | .QuasiNewton q =>
    simp only [quasiNewtonStep, bind, Except.bind, pure, Except.pure]
    rcases (quasiNewtonJacobian_sim hm h s q).elim with ⟨p, h1, h2⟩ | ⟨a', b', s', r, h1, h2, h3⟩
    · rw [h1, h2]; rfl
    · rw [h1, h2]
      match r with
      | .error e => exact ⟨h3, rfl, rfl⟩
      | .ok () =>
        dsimp only
        rw [computeNext_sim hm h3]
        rcases computeNext c m' _ s' with p | x
        · rfl
        · exact ⟨h3, rfl, rfl⟩

theorem Sim.storeSteps {a b : Solver F n} (h : Sim V a b) (method : ResolutionMethod)
    (x y z w : Vec F n) : Sim V (storeSteps method a x y z w) (storeSteps method b x y z w) := by
  unfold Nrf.storeSteps
  split
  · exact h
  · exact h
  · exact { iter := h.iter, jac := h.jac, itStep := rfl, resStep := rfl, resCur := rfl,
            safe1 := h.safe1, safe2 := h.safe2, debug := h.debug, valid := h.valid }

theorem evaluateErrors_sim (hm : MSim c V m m') (s : S) :
    evaluateErrors c m s = evaluateErrors c m' s := by
  unfold evaluateErrors; rw [hm.res]

theorem dampingStep_sim {a b : Solver F n} (hm : MSim c V m m') (hd : c.params.damping = true)
    (h : Sim V a b) (s : S) (e : F) (cur prop en : Vec F n) :
    RSim V (dampingStep c m e cur prop en a s) (dampingStep c m' e cur prop en b s) := by
  unfold dampingStep
  simp only [hm.damp hd, hm.set, h.jac, bind, Except.bind, pure, Except.pure]
  split
  · split
    · obtain ⟨l, l', h1, h2, h3⟩ := (h.setJac b.jac.force).logIf .refused .refused
      rw [h1, h2]
      exact ⟨h3, rfl, rfl⟩
    · match m'.evaluate (m'.setIteratives s (dampedGuess cur prop)) with
      | (s', .error e) => rfl
      | (s', .ok ()) =>
        dsimp only
        rw [hm.get, hm.res, evaluateErrors_sim hm]
        obtain ⟨l, l', h1, h2, h3⟩ := h.logIf
          (.damping (m'.getIteratives s') (m'.getResiduals s') (evaluateErrors c m' s'))
          (.damping (m'.getIteratives s') (m'.getResiduals s') (evaluateErrors c m' s'))
        rw [h1, h2]
        exact ⟨h3, rfl, rfl⟩
  · exact ⟨h, rfl, rfl⟩

theorem finishUpdate_sim {a b : Solver F n} (hm : MSim c V m m') (h : Sim V a b) (s : S)
    (errors cur prop : Vec F n) :
    RSim V (finishUpdate c m errors cur prop a s) (finishUpdate c m' errors cur prop b s) := by
  simp only [finishUpdate, bind, Except.bind, pure, Except.pure, evaluateErrors_sim hm, hm.get,
    hm.res, h.iter]
  obtain ⟨l, l', h1, h2, h3⟩ := h.logIf
    (.iteration b.iter (m'.getIteratives s) (m'.getResiduals s) (evaluateErrors c m' s))
    (.iteration b.iter (m'.getIteratives s) (m'.getResiduals s) (evaluateErrors c m' s))
  rw [h1, h2]
  dsimp only
  by_cases hd : c.params.damping = true
  · simp only [hd, if_true]
    rcases (dampingStep_sim hm hd h3 s (amax errors) cur prop (evaluateErrors c m' s)).elim with
      ⟨p, e1, e2⟩ | ⟨a', b', s', r, e1, e2, e3⟩
    · rw [e1, e2]; rfl
    · rw [e1, e2]; exact ⟨e3.storeSteps _ _ _ _ _, rfl, rfl⟩
  · simp only [hd, if_false, Bool.false_eq_true]
    exact ⟨h3.storeSteps _ _ _ _ _, rfl, rfl⟩

theorem Sim.setValid {V' : Bool → Bool → Prop} {a b : Solver F n} (h : Sim V a b) {v v'}
    (hv : V' v v') : Sim V' { a with valid := v } { b with valid := v' } :=
  { iter := h.iter, jac := h.jac, itStep := h.itStep, resStep := h.resStep, resCur := h.resCur,
    safe1 := h.safe1, safe2 := h.safe2, debug := h.debug, valid := hv }

theorem updateModel_usable {x : Vec F n} {st : Solver F n} {s s1 : S} {r v}
    (he : m.evaluate (m.setIteratives s x) = (s1, r)) (hu : Usable r v) :
    updateModel c m x st s =
      match finishUpdate c m (evaluateErrors c m s) (m.getIteratives s) x { st with valid := v } s1 with
      | .error p => .error p
      | .ok (st, s, e) => .ok (st, s, .ok e) := by
  cases hu <;> simp only [updateModel, he, bind, Except.bind, pure, Except.pure] <;>
    rcases finishUpdate c m (evaluateErrors c m s) (m.getIteratives s) x _ s1 with p | ⟨a, b, d⟩ <;>
    rfl

theorem updateModel_unusable {x : Vec F n} {st : Solver F n} {s s1 : S} {e}
    (he : m.evaluate (m.setIteratives s x) = (s1, .error (.unusable e))) :
    updateModel c m x st s =
      .ok ({ st with valid := false }, s1, .error (.modelEvaluation (.unusable e))) := by
  simp only [updateModel, he]

theorem updateModel_sim {a b : Solver F n} (hV : V false false) (hm : MSim c V m m')
    (h : Sim V a b) (s : S) (x : Vec F n) :
    RSim V (updateModel c m x a s) (updateModel c m' x b s) := by
  rcases hm.eval (m.setIteratives s x) with ⟨s1, e, h1, h2⟩ | ⟨s1, r, r', v, v', h1, h2, hu, hu', hv⟩
  · rw [updateModel_unusable h1, updateModel_unusable (by rw [← hm.set]; exact h2)]
    exact ⟨h.setValid hV, rfl, rfl⟩
  · rw [updateModel_usable h1 hu, updateModel_usable (by rw [← hm.set]; exact h2) hu']
    rw [evaluateErrors_sim hm, hm.get]
    rcases (finishUpdate_sim hm (h.setValid (V' := V) hv) s1 (evaluateErrors c m' s)
      (m'.getIteratives s) x).elim with ⟨p, e1, e2⟩ | ⟨a', b', s', r, e1, e2, e3⟩
    · rw [e1, e2]; rfl
    · rw [e1, e2]; exact ⟨e3, rfl, rfl⟩

theorem iterate_sim {a b : Solver F n} (hV : V false false) (hm : MSim c V m m')
    (h : Sim V a b) (s : S) : RSim V (iterate c m a s) (iterate c m' b s) := by
  simp only [iterate, bind, Except.bind, pure, Except.pure]
  have h' : Sim V { a with iter := a.iter + 1 } { b with iter := b.iter + 1 } :=
    { iter := by simp [h.iter], jac := h.jac, itStep := h.itStep, resStep := h.resStep,
      resCur := h.resCur, safe1 := h.safe1, safe2 := h.safe2, debug := h.debug, valid := h.valid }
  rcases (computeStep_sim hm h' s).elim with ⟨p, e1, e2⟩ | ⟨a', b', s', r, e1, e2, e3⟩
  · rw [e1, e2]; rfl
  · rw [e1, e2]
    match r with
    | .error e => exact ⟨e3, rfl, rfl⟩
    | .ok x =>
      dsimp only
      rcases (updateModel_sim hV hm e3 s' x).elim with ⟨p, e1, e2⟩ | ⟨a2, b2, s2, r2, e1, e2, e3⟩
      · rw [e1, e2]; rfl
      · rw [e1, e2]
        match r2 with
        | .error e => exact ⟨e3, rfl, rfl⟩
        | .ok e => exact ⟨e3, rfl, rfl⟩

theorem loop_sim (hV : V false false) (hm : MSim c V m m') :
    ∀ (fuel : Nat) {a b : Solver F n} (_ : Sim V a b) (s : S) (e : F),
      RSim V (loop c m fuel a s e) (loop c m' fuel b s e) := by
  intro fuel
  induction fuel with
  | zero => intro a b h s e; exact ⟨h, rfl, rfl⟩
  | succ fuel ih =>
    intro a b h s e
    unfold loop
    have hc : continues c a e = continues c b e := by simp only [continues, h.iter]
    rw [hc]
    split
    · rcases (iterate_sim hV hm h s).elim with ⟨p, e1, e2⟩ | ⟨a', b', s', r, e1, e2, e3⟩
      · rw [e1, e2]; rfl
      · rw [e1, e2]
        match r with
        | .ok e => exact ih e3 s' e
        | .error e => exact ⟨e3, rfl, rfl⟩
    · exact ⟨h, rfl, rfl⟩

/-- Agreement of whole solves: the final results may differ only by the flag. -/
def FSim (V : Bool → Bool → Prop) :
    Except Panic (Solver F n × S × Except (SolverError EI EU) Unit) →
    Except Panic (Solver F n × S × Except (SolverError EI EU) Unit) → Prop
  | .error p, .error q => p = q
  | .ok (a, s, r), .ok (b, s', r') => Sim V a b ∧ s = s' ∧
      (r = r' ∨ (a.valid = false ∧ r = .error .finalEvaluation ∧ b.valid = true ∧ r' = .ok ()) ∨
        (a.valid = true ∧ r = .ok () ∧ b.valid = false ∧ r' = .error .finalEvaluation))
  | _, _ => False

theorem finalResult_sim {a b : Solver F n} (e : F) :
    finalResult (EI := EI) (EU := EU) c a e = finalResult c b e ∨
      (a.valid = false ∧ finalResult (EI := EI) (EU := EU) c a e = .error .finalEvaluation ∧
        b.valid = true ∧ finalResult (EI := EI) (EU := EU) c b e = .ok ()) ∨
      (a.valid = true ∧ finalResult (EI := EI) (EU := EU) c a e = .ok () ∧
        b.valid = false ∧ finalResult (EI := EI) (EU := EU) c b e = .error .finalEvaluation) := by
  unfold finalResult
  split
  · exact .inl rfl
  · cases a.valid <;> cases b.valid <;> simp

theorem parametersToLog_safe {st : Solver F n} (h : LogSafe st) (hn : st.debug = true → n ≠ 0) :
    ∃ l, st.parametersToLog = .ok { st with log := l } ∧ LogSafe { st with log := l } := by
  unfold Solver.parametersToLog
  by_cases hd : st.debug = true
  · have h1 := h hd
    have h2 := hn hd
    cases hl : st.log with
    | none => simp [hl] at h1
    | some l =>
      refine ⟨some (l ++ [.parameters]), ?_, fun _ => rfl⟩
      rw [if_pos hd]
      dsimp only
      rw [if_neg h2]
      unfold Solver.toLog
      rw [hl]
  · rw [if_neg hd]
    exact ⟨st.log, rfl, h⟩

theorem solveFrom_sim {a b : Solver F n} (hV : V false false) (hm : MSim c V m m')
    (h : Sim V a b) (s : S) : FSim V (solveFrom c m a s) (solveFrom c m' b s) := by
  simp only [solveFrom, bind, Except.bind, pure, Except.pure]
  obtain ⟨l, h1, h1s⟩ := parametersToLog_safe h.safe1 (fun hd => h.debug (.inl hd))
  obtain ⟨l', h2, h2s⟩ := parametersToLog_safe h.safe2 (fun hd => h.debug (.inr hd))
  have h3 := h.log h1s h2s
  rw [h1, h2]
  dsimp only
  obtain ⟨l2, l2', h4, h5, h6⟩ := h3.logIf
    (.iteration a.iter (m.getIteratives s) (m.getResiduals s) (evaluateErrors c m s))
    (.iteration b.iter (m'.getIteratives s) (m'.getResiduals s) (evaluateErrors c m' s))
  dsimp only at h4 h5
  rw [h4, h5, evaluateErrors_sim hm]
  dsimp only
  rw [h.iter]
  rcases (loop_sim hV hm (c.params.maxIter - b.iter) h6 s (amax (evaluateErrors c m' s))).elim with
    ⟨p, e1, e2⟩ | ⟨a', b', s', r, e1, e2, e3⟩
  · rw [h.iter] at e1
    rw [e1, e2]; rfl
  · rw [h.iter] at e1
    rw [e1, e2]
    match r with
    | .ok e => exact ⟨e3, rfl, finalResult_sim e⟩
    | .error e => exact ⟨e3, rfl, .inl rfl⟩

theorem solve_sim {a b : Solver F n} (hV : V false false) (hm : MSim c V m m')
    (h : Sim V a b) (s : S) : FSim V (solve c m a s) (solve c m' b s) := by
  unfold solve
  rcases hm.eval (m.setIteratives s c.guess) with
    ⟨s1, e, h1, h2⟩ | ⟨s1, r, r', v, v', h1, h2, hu, hu', hv⟩
  · rw [h1, ← hm.set, h2]
    exact ⟨h, rfl, .inl (by rw [hm.disp])⟩
  · rw [h1, ← hm.set, h2]
    cases hu <;> cases hu' <;> exact solveFrom_sim hV hm h s1

end
end Nrf
