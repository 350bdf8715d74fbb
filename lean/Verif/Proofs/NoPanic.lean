import Verif.Spec.Contract
import Verif.Proofs.JacOutcome
import Verif.Proofs.Sim

/-!
# Progress: when a solve does not panic
-/

set_option linter.unusedSectionVars false

namespace Nrf

section
variable {F : Type} [Scalar F] {n : Nat} {EI EU S : Type}
variable {c : Config F n} {m : UserModel F n EI EU S}

theorem fdLoop_progress (res : ResConf n) (pert : Vec F n) (mem : List F) (x r : Vec F n) :
    ∀ (k i : Nat) (J : Mat F n) (s : S), k + i ≤ n →
      ∃ v, fdLoop res m pert mem x r k i J s = .ok v := by
  intro k
  induction k with
  | zero => intro i J s _; exact ⟨_, rfl⟩
  | succ k ih =>
    intro i J s hk
    unfold fdLoop
    have hi : i < n := by omega
    simp only [hi, dite_true]
    rcases m.evaluate (m.setIteratives s _) with ⟨s1, rv⟩
    match rv with
    | .error (.unusable e) => exact ⟨_, rfl⟩
    | .error (.inaccurate e) => exact ih _ _ _ (by omega)
    | .ok () => exact ih _ _ _ (by omega)

theorem computeJac_progress (h : Spec.WellBehaved c m) (j : JacobianMatrix F n) (s : S) :
    ∃ j' s' r, computeJac c m j s = .ok (j', s', r) ∧
      (r = .ok () → j'.computeNext = false ∧ j'.inverse.isSome = true ∧ j'.matrix.isSome = true) ∧
      (r ≠ .ok () → j'.computeNext = j.computeNext ∧ (j' = j ∨ j'.inverse = none)) := by
  have : ∃ v, computeJac c m j s = .ok v := by
    unfold computeJac
    by_cases hp : m.jacobianProvided s = true
    · simp only [hp, if_true]
      rcases analyticJacobian c.la c.res m j s with ⟨j', s', r⟩
      match r with
      | .ok () => exact ⟨_, rfl⟩
      | .error (.invalidJacobian (.inaccurate e)) => exact ⟨_, rfl⟩
      | .error (.invalidJacobian (.unusable e)) => exact ⟨_, rfl⟩
      | .error .invalidJacobianInverse => exact ⟨_, rfl⟩
    · have hp : m.jacobianProvided s = false := by simpa using hp
      obtain ⟨h1, h2⟩ := h.finiteDiff s hp
      simp only [hp, Bool.false_eq_true, if_false]
      have : ∃ v, fdJacobian c.la c.res c.iters m j s = .ok v := by
        unfold fdJacobian computePerturbations
        rw [dif_pos h2]
        obtain ⟨v, hv⟩ := fdLoop_progress (m := m) c.res
          (fun i => (c.iters i).computePerturbation.get (h2 i) (m.getIteratives s i))
          (m.getMemory s) (m.getIteratives s) (c.res.evaluateUpdate (m.getResiduals s))
          (m.lenProblem s) 0 mzero s (by omega)
        unfold fdCompute
        dsimp only
        rw [hv]
        obtain ⟨s', v⟩ := v
        match v with
        | .error e => exact ⟨_, rfl⟩
        | .ok M =>
          dsimp only
          rcases j.updateExact c.la M with ⟨j', b⟩
          cases b <;> exact ⟨_, rfl⟩
      obtain ⟨⟨j', s', r⟩, hv⟩ := this
      rw [hv]
      match r with
      | .ok () => exact ⟨_, rfl⟩
      | .error (.invalidJacobian (.inaccurate e)) => exact ⟨_, rfl⟩
      | .error (.invalidJacobian (.unusable e)) => exact ⟨_, rfl⟩
      | .error .invalidJacobianInverse => exact ⟨_, rfl⟩
  obtain ⟨⟨j', s', r⟩, hv⟩ := this
  refine ⟨j', s', r, hv, ?_⟩
  cases computeJac_outcome hv with
  | success _ M inv hM hi => exact ⟨fun _ => ⟨rfl, rfl, rfl⟩, fun h => absurd rfl h⟩
  | singular _ M hM hi => exact ⟨fun h => by simp at h, fun _ => ⟨rfl, .inr rfl⟩⟩
  | inaccurate _ e hp hg =>
    exact absurd (by rw [hg]) (h.jacobian s hp e)
  | unusable _ e hp hg => exact ⟨fun h => by simp at h, fun _ => ⟨rfl, .inr rfl⟩⟩
  | fdUnusable => exact ⟨fun h => by simp at h, fun _ => ⟨rfl, .inl rfl⟩⟩

/-- The Jacobian cache is usable by the next iteration. -/
structure JacReady (method : ResolutionMethod) (st : Solver F n) : Prop where
  inverse : method ≠ .NewtonRaphson → st.jac.computeNext = false → st.jac.inverse.isSome = true
  matrix : ∀ u, method = .QuasiNewton (.JacobianUpdate u) → st.jac.computeNext = false →
    st.jac.matrix.isSome = true

/-- The stored steps are usable by the next iteration. -/
def StepsReady (method : ResolutionMethod) (st : Solver F n) : Prop :=
  ∀ u, method = .QuasiNewton (.JacobianUpdate u) ∨ method = .QuasiNewton (.InverseJacobianUpdate u) →
    st.jac.computeNext = false →
    st.itStep.isSome = true ∧ st.resStep.isSome = true ∧ st.resCur.isSome = true

/-- Invariant of the solver object between iterations. -/
structure Ready (method : ResolutionMethod) (st : Solver F n) : Prop where
  log : LogSafe st
  jac : JacReady method st
  steps : StepsReady method st

theorem computeNext_progress {st : Solver F n} (h : st.jac.inverse.isSome = true) (s : S) :
    ∃ x, computeNext c m st s = .ok x := by
  unfold computeNext
  obtain ⟨inv, hi⟩ := Option.isSome_iff_exists.1 h
  rw [hi]
  exact ⟨_, rfl⟩

theorem approximateJacobian_progress {j : JacobianMatrix F n} (h1 : j.inverse.isSome = true)
    (h2 : j.matrix.isSome = true) (u ds dy cur) :
    ∃ v, approximateJacobian c.la j u ds dy cur = .ok v := by
  obtain ⟨inv, hi⟩ := Option.isSome_iff_exists.1 h1
  obtain ⟨M, hM⟩ := Option.isSome_iff_exists.1 h2
  cases u <;> simp only [approximateJacobian, hi, hM] <;> exact ⟨_, rfl⟩

theorem approximateInvJacobian_progress {j : JacobianMatrix F n} (h1 : j.inverse.isSome = true)
    (u ds dy cur) : ∃ v, approximateInvJacobian c.la j u ds dy cur = .ok v := by
  obtain ⟨inv, hi⟩ := Option.isSome_iff_exists.1 h1
  cases u <;> simp only [approximateInvJacobian, hi] <;> exact ⟨_, rfl⟩

/-- Progress of the step computation.  With Newton-Raphson or stationary Newton the
Jacobian cache stays ready even after an error. -/
theorem computeStep_progress (hw : Spec.WellBehaved c m) {st : Solver F n}
    (h : Ready c.params.method st) (s : S) :
    ∃ st' s' r, computeStep c m st s = .ok (st', s', r) ∧ LogSafe st' ∧
      ((∃ x, r = .ok x) ∨ (∀ u, c.params.method ≠ .QuasiNewton (.JacobianUpdate u)) →
        JacReady c.params.method st') ∧
      ((∃ x, r = .ok x) → st'.jac.inverse.isSome = true) := by
  have comp : ∀ (hm : c.params.method = .NewtonRaphson ∨ st.jac.computeNext = true),
      ∃ j s' r l, computeJac c m st.jac s = .ok (j, s', r) ∧
        ({ st with jac := j } : Solver F n).logIf (.jacobian j) = .ok { st with jac := j, log := l } ∧
        LogSafe { st with jac := j, log := l } ∧
        JacReady c.params.method { st with jac := j, log := l } ∧
        (r = .ok () → j.inverse.isSome = true) := by
    intro hm
    obtain ⟨j, s', r, hj, h1, h2⟩ := computeJac_progress hw st.jac s
    obtain ⟨l, hl, hs⟩ := logIf_safe (st := { st with jac := j }) h.log (.jacobian j)
    refine ⟨j, s', r, l, hj, hl, hs, ?_, fun hr => (h1 hr).2.1⟩
    by_cases hr : r = .ok ()
    · exact ⟨fun _ _ => (h1 hr).2.1, fun _ _ _ => (h1 hr).2.2⟩
    · obtain ⟨h3, -⟩ := h2 hr
      rcases hm with hm | hm
      · exact ⟨fun h => absurd hm h, fun u h => by rw [hm] at h; cases h⟩
      · refine ⟨fun _ hc => ?_, fun _ _ hc => ?_⟩ <;>
        · dsimp only at hc; rw [h3, hm] at hc; cases hc
  unfold computeStep
  cases hmeth : c.params.method with
  | NewtonRaphson =>
    obtain ⟨j, s', r, l, h1, h2, h3, h4, h5⟩ := comp (.inl hmeth)
    simp only [newtonRaphsonStep, bind, Except.bind, pure, Except.pure, h1, h2]
    match r with
    | .error e => exact ⟨_, _, _, rfl, h3, fun _ => by rw [← hmeth]; exact h4, fun ⟨x, h⟩ => by cases h⟩
    | .ok () =>
      obtain ⟨x, hx⟩ := computeNext_progress (c := c) (m := m) (st := { st with jac := j, log := l })
        (h5 rfl) s'
      dsimp only
      rw [hx]
      exact ⟨_, _, _, rfl, h3, fun _ => by rw [← hmeth]; exact h4, fun _ => h5 rfl⟩
  | QuasiNewton q =>
    simp only [quasiNewtonStep, quasiNewtonJacobian, bind, Except.bind, pure, Except.pure]
    by_cases hc : st.jac.computeNext = true
    · obtain ⟨j, s', r, l, h1, h2, h3, h4, h5⟩ := comp (.inr hc)
      simp only [hc, if_true, h1, h2]
      match r with
      | .error e =>
        exact ⟨_, _, _, rfl, h3, fun _ => by rw [← hmeth]; exact h4, fun ⟨x, h⟩ => by cases h⟩
      | .ok () =>
        obtain ⟨x, hx⟩ := computeNext_progress (c := c) (m := m)
          (st := { st with jac := j, log := l }) (h5 rfl) s'
        dsimp only
        rw [hx]
        exact ⟨_, _, _, rfl, h3, fun _ => by rw [← hmeth]; exact h4, fun _ => h5 rfl⟩
    · have hc : st.jac.computeNext = false := by simpa using hc
      simp only [hc, Bool.false_eq_true, if_false]
      have hinv := h.jac.inverse (by rw [hmeth]; simp) hc
      match q with
      | .StationaryNewton =>
        obtain ⟨l, hl, hs⟩ := logIf_safe h.log (.jacobian st.jac)
        rw [hl]
        obtain ⟨x, hx⟩ := computeNext_progress (c := c) (m := m) (st := { st with log := l }) hinv s
        dsimp only
        rw [hx]
        refine ⟨_, _, _, rfl, hs, fun _ => ⟨fun _ _ => hinv, fun u hu => by simp at hu⟩,
          fun _ => hinv⟩
      | .JacobianUpdate u =>
        obtain ⟨hs1, hs2, hs3⟩ := h.steps u (.inl hmeth) hc
        obtain ⟨ds, h1⟩ := Option.isSome_iff_exists.1 hs1
        obtain ⟨dy, h2⟩ := Option.isSome_iff_exists.1 hs2
        obtain ⟨cur, h3⟩ := Option.isSome_iff_exists.1 hs3
        obtain ⟨⟨j, b⟩, hj⟩ := approximateJacobian_progress (c := c) hinv
          (h.jac.matrix u hmeth hc) u ds dy cur
        simp only [h1, h2, h3, hj]
        rcases approximateJacobian_ok hj with ⟨rfl, M, inv, -, rfl⟩ | ⟨rfl, rfl⟩
        · simp only [if_true]
          obtain ⟨l, hl, hs⟩ := logIf_safe (st := { st with
            jac := { matrix := some M, inverse := some inv, computeNext := false,
                     approximated := true } }) h.log
            (.jacobian { matrix := some M, inverse := some inv, computeNext := false,
                         approximated := true })
          rw [h1, h2, h3] at hl
          rw [hl]
          dsimp only
          obtain ⟨x, hx⟩ := computeNext_progress (c := c) (m := m) (st := { st with
            jac := { matrix := some M, inverse := some inv, computeNext := false,
                     approximated := true }, log := l }) rfl s
          rw [h1, h2, h3] at hx
          rw [hx]
          exact ⟨_, _, _, rfl, hs, fun _ => ⟨fun _ _ => rfl, fun _ _ _ => rfl⟩, fun _ => rfl⟩
        · simp only [Bool.false_eq_true, if_false]
          refine ⟨_, _, _, rfl, h.log, fun hh => ?_, fun ⟨x, h⟩ => by cases h⟩
          rcases hh with ⟨x, hx⟩ | hh
          · cases hx
          · exact absurd rfl (hh u)
      | .InverseJacobianUpdate u =>
        obtain ⟨hs1, hs2, hs3⟩ := h.steps u (.inr hmeth) hc
        obtain ⟨ds, h1⟩ := Option.isSome_iff_exists.1 hs1
        obtain ⟨dy, h2⟩ := Option.isSome_iff_exists.1 hs2
        obtain ⟨cur, h3⟩ := Option.isSome_iff_exists.1 hs3
        obtain ⟨j, hj⟩ := approximateInvJacobian_progress (c := c) hinv u ds dy cur
        simp only [h1, h2, h3, hj]
        obtain ⟨inv, rfl⟩ := approximateInvJacobian_ok hj
        obtain ⟨l, hl, hs⟩ := logIf_safe (st := { st with jac := st.jac.updateInverse inv }) h.log
          (.jacobian (st.jac.updateInverse inv))
        rw [h1, h2, h3] at hl
        rw [hl]
        dsimp only
        obtain ⟨x, hx⟩ := computeNext_progress (c := c) (m := m) (st := { st with
          jac := st.jac.updateInverse inv, log := l }) rfl s
        rw [h1, h2, h3] at hx
        rw [hx]
        exact ⟨_, _, _, rfl, hs, fun _ => ⟨fun _ _ => rfl, fun u hu => by simp at hu⟩, fun _ => rfl⟩

theorem storeSteps_ready {st : Solver F n} {meth : ResolutionMethod} (h1 : LogSafe st)
    (h2 : JacReady meth st) (a b d e : Vec F n) : Ready meth (storeSteps meth st a b d e) := by
  have hf := storeSteps_fields meth st a b d e
  refine ⟨?_, ?_, ?_⟩
  · unfold LogSafe; rw [hf.2.1, hf.2.2.2.2]; exact h1
  · exact ⟨by rw [hf.2.2.1]; exact h2.inverse, by rw [hf.2.2.1]; exact h2.matrix⟩
  · rintro u (rfl | rfl) _ <;> exact ⟨rfl, rfl, rfl⟩

theorem dampingStep_progress (hw : Spec.WellBehaved c m) (hd : c.params.damping = true)
    {st : Solver F n} (h1 : LogSafe st) (h2 : JacReady c.params.method st) (s : S) (e : F)
    (cur prop en : Vec F n) :
    ∃ st' s' en', dampingStep c m e cur prop en st s = .ok (st', s', en') ∧ LogSafe st' ∧
      JacReady c.params.method st' := by
  unfold dampingStep
  simp only [bind, Except.bind, pure, Except.pure]
  split
  · split
    · obtain ⟨l, hl, hs⟩ := logIf_safe (st := { st with jac := st.jac.force }) h1 .refused
      rw [hl]
      exact ⟨_, _, _, rfl, hs, ⟨fun _ h => by simp [JacobianMatrix.force] at h,
        fun _ _ h => by simp [JacobianMatrix.force] at h⟩⟩
    · rcases he : m.evaluate (m.setIteratives s (dampedGuess cur prop)) with ⟨s1, rv⟩
      match rv, he with
      | .error e, he => exact absurd (by rw [he]) (hw.damping hd (m.setIteratives s _) e)
      | .ok (), he =>
        dsimp only
        obtain ⟨l, hl, hs⟩ := logIf_safe h1
          (.damping (m.getIteratives s1) (m.getResiduals s1) (evaluateErrors c m s1))
        rw [hl]
        exact ⟨_, _, _, rfl, hs, ⟨h2.inverse, h2.matrix⟩⟩
  · exact ⟨_, _, _, rfl, h1, h2⟩

theorem finishUpdate_progress (hw : Spec.WellBehaved c m) {st : Solver F n} (h1 : LogSafe st)
    (h2 : JacReady c.params.method st) (s : S) (errors cur prop : Vec F n) :
    ∃ st' s' e, finishUpdate c m errors cur prop st s = .ok (st', s', e) ∧
      Ready c.params.method st' := by
  simp only [finishUpdate, bind, Except.bind, pure, Except.pure]
  obtain ⟨l, hl, hs⟩ := logIf_safe h1
    (.iteration st.iter (m.getIteratives s) (m.getResiduals s) (evaluateErrors c m s))
  rw [hl]
  dsimp only
  by_cases hd : c.params.damping = true
  · simp only [hd, if_true]
    obtain ⟨st', s', e, h, h3, h4⟩ := dampingStep_progress hw hd (st := { st with log := l }) hs
      ⟨h2.inverse, h2.matrix⟩ s (amax errors) cur prop (evaluateErrors c m s)
    rw [h]
    exact ⟨_, _, _, rfl, storeSteps_ready h3 h4 _ _ _ _⟩
  · simp only [hd, if_false, Bool.false_eq_true]
    exact ⟨_, _, _, rfl, storeSteps_ready (st := { st with log := l }) hs
      ⟨h2.inverse, h2.matrix⟩ _ _ _ _⟩

theorem updateModel_progress (hw : Spec.WellBehaved c m) {st : Solver F n} (h1 : LogSafe st)
    (h2 : JacReady c.params.method st) (s : S) (x : Vec F n) :
    ∃ st' s' r, updateModel c m x st s = .ok (st', s', r) ∧ LogSafe st' ∧
      JacReady c.params.method st' ∧ ((∃ e, r = .ok e) → Ready c.params.method st') := by
  have key : ∀ s1 rv v, m.evaluate (m.setIteratives s x) = (s1, rv) → Usable rv v →
      ∃ st' s' r, updateModel c m x st s = .ok (st', s', r) ∧ LogSafe st' ∧
      JacReady c.params.method st' ∧ ((∃ e, r = .ok e) → Ready c.params.method st') := by
    intro s1 rv v he hu
    rw [updateModel_usable he hu]
    obtain ⟨st', s', e, h, h3⟩ := finishUpdate_progress hw (st := { st with valid := v }) h1
      ⟨h2.inverse, h2.matrix⟩ s1 (evaluateErrors c m s) (m.getIteratives s) x
    rw [h]
    exact ⟨_, _, _, rfl, h3.log, h3.jac, fun _ => h3⟩
  rcases he : m.evaluate (m.setIteratives s x) with ⟨s1, rv⟩
  match rv, he with
  | .ok (), he => exact key _ _ _ he .ok
  | .error (.inaccurate e), he => exact key _ _ _ he (.inaccurate e)
  | .error (.unusable e), he =>
    rw [updateModel_unusable he]
    exact ⟨_, _, _, rfl, h1, ⟨h2.inverse, h2.matrix⟩, fun ⟨e, h⟩ => by cases h⟩

/-- Methods whose cache survives errors. -/
def Simple (meth : ResolutionMethod) : Prop :=
  meth = .NewtonRaphson ∨ meth = .QuasiNewton .StationaryNewton

theorem Simple.ready {meth : ResolutionMethod} (hs : Simple meth) {st : Solver F n}
    (h1 : LogSafe st) (h2 : JacReady meth st) : Ready meth st := by
  refine ⟨h1, h2, ?_⟩
  rintro u (rfl | rfl) <;> simp [Simple] at hs

theorem iterate_progress (hw : Spec.WellBehaved c m) {st : Solver F n}
    (h : Ready c.params.method st) (s : S) :
    ∃ st' s' r, iterate c m st s = .ok (st', s', r) ∧ LogSafe st' ∧
      ((∃ e, r = .ok e) ∨ Simple c.params.method → Ready c.params.method st') := by
  obtain ⟨st1, s1, r1, h1, h2, h3, h4⟩ := computeStep_progress hw
    (st := { st with iter := st.iter + 1 })
    ⟨h.log, ⟨h.jac.inverse, h.jac.matrix⟩, h.steps⟩ s
  simp only [iterate, bind, Except.bind, pure, Except.pure, h1]
  match r1 with
  | .error e =>
    refine ⟨_, _, _, rfl, h2, ?_⟩
    rintro (⟨e, he⟩ | hs)
    · cases he
    · exact hs.ready h2 (h3 (.inr (by intro u hu; rw [hu] at hs; simp [Simple] at hs)))
  | .ok x =>
    dsimp only
    obtain ⟨st2, s2, r2, h5, h6, h7, h8⟩ := updateModel_progress hw h2 (h3 (.inl ⟨x, rfl⟩)) s1 x
    rw [h5]
    match r2 with
    | .ok e => exact ⟨_, _, _, rfl, h6, fun _ => h8 ⟨e, rfl⟩⟩
    | .error e =>
      refine ⟨_, _, _, rfl, h6, ?_⟩
      rintro (⟨e, he⟩ | hs)
      · cases he
      · exact hs.ready h6 h7

theorem loop_progress (hw : Spec.WellBehaved c m) : ∀ (fuel : Nat) {st : Solver F n} (s : S) (e : F),
    Ready c.params.method st →
    ∃ st' s' r, loop c m fuel st s e = .ok (st', s', r) ∧ LogSafe st' ∧
      ((∃ e, r = .ok e) ∨ Simple c.params.method → Ready c.params.method st') := by
  intro fuel
  induction fuel with
  | zero => intro st s e h; exact ⟨_, _, _, rfl, h.log, fun _ => h⟩
  | succ fuel ih =>
    intro st s e h
    unfold loop
    split
    · obtain ⟨st1, s1, r1, h1, h2, h3⟩ := iterate_progress hw h s
      rw [h1]
      match r1 with
      | .ok e => exact ih s1 e (h3 (.inl ⟨e, rfl⟩))
      | .error e =>
        refine ⟨_, _, _, rfl, h2, ?_⟩
        rintro (⟨e, he⟩ | hs)
        · cases he
        · exact h3 (.inr hs)
    · exact ⟨_, _, _, rfl, h.log, fun _ => h⟩

/-- A solve started by a ready solver does not panic.  The solver is ready again
after a solve that was not ended by a Jacobian or evaluation error, and always for
Newton-Raphson and stationary Newton. -/
theorem solve_progress (hw : Spec.WellBehaved c m) {st : Solver F n} (s : S)
    (h : Ready c.params.method st) (hn : st.debug = true → n ≠ 0) :
    ∃ st' s' r, solve c m st s = .ok (st', s', r) ∧ st'.debug = st.debug ∧
      (((∀ e, r ≠ .error (.jacobian e)) ∧ (∀ e, r ≠ .error (.modelEvaluation e))) ∨
        Simple c.params.method → Ready c.params.method st') := by
  have key : ∀ s0, ∃ st' s' r, solveFrom c m st s0 = .ok (st', s', r) ∧
      (((∀ e, r ≠ .error (.jacobian e)) ∧ (∀ e, r ≠ .error (.modelEvaluation e))) ∨
        Simple c.params.method → Ready c.params.method st') := by
    intro s0
    simp only [solveFrom, bind, Except.bind, pure, Except.pure]
    obtain ⟨l, h1, h2⟩ := parametersToLog_safe h.log hn
    rw [h1]
    dsimp only
    obtain ⟨l2, h3, h4⟩ := logIf_safe h2
      (.iteration st.iter (m.getIteratives s0) (m.getResiduals s0) (evaluateErrors c m s0))
    dsimp only at h3
    rw [h3]
    dsimp only
    obtain ⟨st', s', r, h5, h6, h7⟩ := loop_progress hw (c.params.maxIter - st.iter)
      (st := { st with log := l2 }) s0 (amax (evaluateErrors c m s0))
      ⟨h4, ⟨h.jac.inverse, h.jac.matrix⟩, h.steps⟩
    have h5' := h5
    rw [h5]
    match r with
    | .ok e => exact ⟨_, _, _, rfl, fun _ => h7 (.inl ⟨e, rfl⟩)⟩
    | .error e =>
      refine ⟨_, _, _, rfl, ?_⟩
      rintro (⟨he1, he2⟩ | hs)
      · exfalso
        cases loop_outcome _ (by dsimp only; omega) h5' with
        | failed hrun hc hi =>
          cases iterate_outcome hi with
          | evalFailed st1 s1 x st2 s2 e h1 h2 => cases h2; exact he2 _ rfl
          | jacFailed st1 s1 e h1 => exact he1 _ rfl
      · exact h7 (.inr hs)
  have deb : ∀ {st' s' r}, solve c m st s = .ok (st', s', r) → st'.debug = st.debug := by
    intro st' s' r hsol
    have upd : ∀ {x : Vec F n} {st s st' s' r}, UpdateOutcome c m x st s st' s' r →
        st'.debug = st.debug := by
      intro x st s st' s' r hu
      cases hu <;> simp [(storeSteps_fields ..).2.2.2.2]
    have stp : ∀ {st s st' s' r}, StepOutcome c m st s st' s' r → st'.debug = st.debug := by
      intro st s st' s' r hu
      cases hu <;> rfl
    have it : ∀ {st s st' s' r}, iterate c m st s = .ok (st', s', r) → st'.debug = st.debug := by
      intro st s st' s' r hi
      cases iterate_outcome hi with
      | step st1 s1 x st2 s2 e h1 h2 => rw [upd h2, stp h1]
      | evalFailed st1 s1 x st2 s2 e h1 h2 => rw [upd h2, stp h1]
      | jacFailed st1 s1 e h1 => rw [stp h1]
    have run : ∀ {st s e st' s' e'}, Run c m st s e st' s' e' → st'.debug = st.debug := by
      intro st s e st' s' e' hr
      refine hr.invariant (P := fun st1 _ _ => st1.debug = st.debug) ?_ rfl
      intro st1 s1 e1 st2 s2 e2 h _ hi
      rw [it hi, h]
    cases solve_outcome hsol with
    | initFailed he => rfl
    | finished he hu hl => cases hl with | exit hr hc => exact (run hr).trans rfl
    | failed he hu hl => cases hl with | failed hr hc hi => exact ((it hi).trans (run hr)).trans rfl
  have : ∃ st' s' r, solve c m st s = .ok (st', s', r) ∧
      (((∀ e, r ≠ .error (.jacobian e)) ∧ (∀ e, r ≠ .error (.modelEvaluation e))) ∨
        Simple c.params.method → Ready c.params.method st') := by
    unfold solve
    rcases m.evaluate (m.setIteratives s c.guess) with ⟨s1, rv⟩
    match rv with
    | .ok () => exact key s1
    | .error (.inaccurate e) => exact key s1
    | .error (.unusable e) => exact ⟨_, _, _, rfl, fun _ => h⟩
  obtain ⟨st', s', r, h1, h2⟩ := this
  exact ⟨st', s', r, h1, deb h1, h2⟩

theorem Ready.new (meth : ResolutionMethod) : Ready meth (Solver.new : Solver F n) :=
  ⟨fun h => (by cases h), ⟨fun _ h => (by cases h), fun _ _ h => (by cases h)⟩,
    fun _ _ h => (by cases h)⟩

theorem Ready.activateDebug {meth : ResolutionMethod} {st : Solver F n} (h : Ready meth st) :
    Ready meth st.activateDebug :=
  ⟨fun _ => rfl, ⟨h.jac.inverse, h.jac.matrix⟩, h.steps⟩

end
end Nrf
