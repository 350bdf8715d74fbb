import Verif.Proofs.Program

/-!
# The program follows the model: the functions of the solver
-/

namespace Nrf.Program

section
variable {F : Type} [Scalar F] {n : Nat} {EI EU S α β : Type} {P : Setup F n EI EU S}
  {log0 : Option String} {files0 : String → Option (List Char)}

theorem sim_ask_bind {k : Method} {g : S → α} {f : α → Prog F n S β} {st : Solver F n} {s : S} {v}
    (h : Sim P log0 files0 (f (g s)) st s v) : Sim P log0 files0 (ask P k g >>= f) st s v :=
  sim_bind (g := fun _ => v) (sim_ask k g st s) fun st' s' a h' => by cases h'; exact h

theorem sim_call_bind {k : Method} {g : S → S × α} {f : α → Prog F n S β} {st : Solver F n} {s : S} {v}
    (h : Sim P log0 files0 (f (g s).2) st (g s).1 v) : Sim P log0 files0 (call P k g >>= f) st s v :=
  sim_bind (g := fun _ => v) (sim_call k g st s) fun st' s' a h' => by cases h'; exact h

theorem sim_onJac_bind {g : JacobianMatrix F n → JacobianMatrix F n} {f : Unit → Prog F n S β} {st : Solver F n} {s : S} {v}
    (h : Sim P log0 files0 (f ()) { st with jac := g st.jac } s v) : Sim P log0 files0 (onJac g >>= f) st s v :=
  sim_bind (g := fun _ => v) (sim_onJac g st s) fun st' s' a h' => by cases h'; exact h

/-- After a step whose value in the model is known. -/
theorem sim_after {p : Prog F n S α} {f : α → Prog F n S β} {st st1 : Solver F n} {s s1 : S} {a : α} {v}
    (hp : Sim P log0 files0 p st s (.ok (st1, s1, a))) (h : Sim P log0 files0 (f a) st1 s1 v) :
    Sim P log0 files0 (p >>= f) st s v :=
  sim_bind (g := fun _ => v) hp fun st' s' a h' => by cases h'; exact h

theorem sim_fails {p : Prog F n S α} {f : α → Prog F n S β} {st : Solver F n} {s : S} {y : Panic}
    (hp : Sim P log0 files0 p st s (.error y)) : Sim P log0 files0 (p >>= f) st s (.error y) :=
  sim_bind (g := fun _ => .error y) hp fun st' s' a h' => by cases h'

theorem sim_evaluateErrors (st : Solver F n) (s : S) :
    Sim P log0 files0 (evaluateErrors P) st s (.ok (st, s, Nrf.evaluateErrors P.c P.m s)) :=
  sim_ask_bind (sim_pure _ st s)

theorem sim_updateJacobianWith (b : Bool) (M : Mat F n) (st : Solver F n) (s : S) :
    Sim P log0 files0 (updateJacobianWith P b M) st s
      (.ok ({ st with jac := (({ st.jac with approximated := b } : JacobianMatrix F n).update P.c.la M).1 }, s,
        (({ st.jac with approximated := b } : JacobianMatrix F n).update P.c.la M).2)) := by
  refine sim_onJac_bind ?_
  unfold updateJacobian JacobianMatrix.update
  generalize P.c.la.inv M = o
  rcases o with - | inv
  rotate_left
  · refine sim_onJac_bind (sim_onJac_bind (sim_onJac_bind ?_))
    exact (sim_pure (P := P) (log0 := log0) (files0 := files0) true _ s).of_eq rfl
  · refine sim_onJac_bind (sim_onJac_bind ?_)
    exact (sim_pure (P := P) (log0 := log0) (files0 := files0) false _ s).of_eq rfl

theorem sim_fromAnalyticalFunction (st : Solver F n) (s : S) :
    Sim P log0 files0 (fromAnalyticalFunction P) st s
      (.ok ({ st with jac := (analyticJacobian P.c.la P.c.res P.m st.jac s).1 },
        (analyticJacobian P.c.la P.c.res P.m st.jac s).2.1, (analyticJacobian P.c.la P.c.res P.m st.jac s).2.2)) := by
  refine sim_ask_bind (sim_call_bind ?_)
  unfold analyticJacobian
  rcases hj : P.m.getJacobian s with ⟨s', r⟩
  cases r with
  | ok jacs =>
    dsimp only
    refine sim_after (sim_updateJacobianWith false _ st s') ?_
    unfold JacobianMatrix.updateExact
    rcases hu : JacobianMatrix.update P.c.la { st.jac with approximated := false } (jacs.normalize (P.m.getResiduals s) P.c.res.upd) with ⟨j', b⟩
    cases b
    · exact sim_pure _ _ _
    · exact sim_pure _ _ _
  | error e =>
    refine sim_onJac_bind (sim_onJac_bind ?_)
    exact sim_pure _ _ _

theorem sim_columns (pert : Vec F n) (mem : List F) (xRef resRef : Vec F n) (st : Solver F n) :
    ∀ (k i : Nat) (J : Mat F n) (s : S), Sim P log0 files0 (columns P pert mem xRef resRef k i J) st s
      ((fdLoop P.c.res P.m pert mem xRef resRef k i J s).map fun v => (st, v.1, v.2))
  | 0, i, J, s => sim_pure _ _ _
  | k + 1, i, J, s => by
    unfold columns fdLoop
    by_cases h : i < n
    · rw [dif_pos h, dif_pos h]
      refine sim_call_bind (sim_call_bind ?_)
      dsimp only
      rcases hev : P.m.evaluate (P.m.setIteratives s fun l => if l = ⟨i, h⟩ then xRef ⟨i, h⟩ +ᶠ pert ⟨i, h⟩ else xRef l) with ⟨s', r⟩
      have rest : Sim P log0 files0 (do
          let residuals ← ask P .getResiduals P.m.getResiduals
          setMemory P mem
          columns P pert mem xRef resRef k (i + 1)
            (setColumn J ⟨i, h⟩ (vdiv (vsub (P.c.res.evaluateUpdate residuals) resRef) (pert ⟨i, h⟩)))) st s'
          ((fdLoop P.c.res P.m pert mem xRef resRef k (i + 1)
            (setColumn J ⟨i, h⟩ (vdiv (vsub (P.c.res.evaluateUpdate (P.m.getResiduals s')) resRef) (pert ⟨i, h⟩)))
            (P.m.setMemory s' mem)).map fun v => (st, v.1, v.2)) :=
        sim_ask_bind (sim_call_bind (sim_columns pert mem xRef resRef st k (i + 1) _ _))
      rcases r with (e | e) | u
      · exact rest
      · exact sim_pure _ _ _
      · exact rest
    · rw [dif_neg h, dif_neg h]
      exact sim_throw _ _ _

theorem sim_fromFiniteDifference (st : Solver F n) (s : S) :
    Sim P log0 files0 (fromFiniteDifference P) st s
      ((fdJacobian P.c.la P.c.res P.c.iters P.m st.jac s).map fun v => ({ st with jac := v.1 }, v.2.1, v.2.2)) := by
  refine sim_ask_bind ?_
  unfold fdJacobian
  cases computePerturbations P.c.iters (P.m.getIteratives s) with
  | none => exact sim_throw _ _ _
  | some pert =>
    dsimp only
    refine sim_ask_bind (sim_ask_bind (sim_ask_bind (sim_ask_bind ?_)))
    have h := sim_columns (P := P) (log0 := log0) (files0 := files0) pert (P.m.getMemory s) (P.m.getIteratives s)
      (P.c.res.evaluateUpdate (P.m.getResiduals s)) st (P.m.lenProblem s) 0 mzero s
    unfold fdCompute
    rcases hf : fdLoop P.c.res P.m pert (P.m.getMemory s) (P.m.getIteratives s)
      (P.c.res.evaluateUpdate (P.m.getResiduals s)) (P.m.lenProblem s) 0 mzero s with y | ⟨s', r⟩
    · rw [hf] at h
      exact sim_fails h
    · rw [hf] at h
      refine sim_after h ?_
      cases r with
      | error e => exact sim_pure _ _ _
      | ok J =>
        dsimp only
        refine sim_after (sim_updateJacobianWith false _ st s') ?_
        unfold JacobianMatrix.updateExact
        rcases hu : JacobianMatrix.update P.c.la { st.jac with approximated := false } J with ⟨j', b⟩
        cases b
        · exact sim_pure _ _ _
        · exact sim_pure _ _ _

theorem sim_computeJac (st : Solver F n) (s : S) :
    Sim P log0 files0 (computeJac P) st s
      ((Nrf.computeJac P.c P.m st.jac s).map fun v => ({ st with jac := v.1 }, v.2.1, v.2.2)) := by
  refine sim_ask_bind ?_
  unfold Nrf.computeJac
  have last : ∀ st' s' (r : Except (SolverInternalError EI EU) Unit), Sim P log0 files0
      (match r with
        | .ok () => return .ok ()
        | .error (.invalidJacobian (.inaccurate _)) => return .ok ()
        | .error e => return .error e : Prog F n S (Except (SolverInternalError EI EU) Unit)) st' s'
      (match r with
        | .ok () => .ok (st', s', .ok ())
        | .error (.invalidJacobian (.inaccurate _)) => .ok (st', s', .ok ())
        | .error e => .ok (st', s', .error e)) := by
    intro st' s' r
    rcases r with ((e | e) | - ) | u
    · exact sim_pure _ _ _
    · exact sim_pure _ _ _
    · exact sim_pure _ _ _
    · exact sim_pure _ _ _
  cases P.m.jacobianProvided s with
  | true =>
    refine sim_after (sim_fromAnalyticalFunction st s) ((last _ _ _).of_eq ?_)
    rcases analyticJacobian P.c.la P.c.res P.m st.jac s with ⟨j', s', ((e | e) | - ) | u⟩ <;> rfl
  | false =>
    have h := sim_fromFiniteDifference (P := P) (log0 := log0) (files0 := files0) st s
    rcases hf : fdJacobian P.c.la P.c.res P.c.iters P.m st.jac s with y | ⟨j', s', r⟩
    · rw [hf] at h
      exact (sim_fails h).of_eq (by simp [hf]; rfl)
    · rw [hf] at h
      refine (sim_after h (last _ _ _)).of_eq ?_
      rcases r with ((e | e) | - ) | u <;> simp [hf] <;> rfl

theorem sim_computeNext (st : Solver F n) (s : S) :
    Sim P log0 files0 (computeNextFromInvJac P) st s ((Nrf.computeNext P.c P.m st s).map fun x => (st, s, x)) := by
  refine sim_ask_bind (sim_get fun j => ?_)
  unfold Nrf.computeNext
  change Sim P log0 files0 (match st.jac.inverse with | none => _ | some inverse => _) st s _
  cases st.jac.inverse with
  | none => exact sim_throw _ _ _
  | some inv => exact sim_ask_bind (sim_pure _ _ _)

/-- The end of both kinds of steps. -/
theorem sim_next (r : Except (SolverInternalError EI EU) Unit) (st : Solver F n) (s : S) :
    Sim P log0 files0 (match r with
        | .ok () => do return .ok (← computeNextFromInvJac P)
        | .error e => return .error e : Prog F n S (Except (SolverInternalError EI EU) (Vec F n))) st s
      (match r with
        | .ok () => do
          let x ← Nrf.computeNext P.c P.m st s
          return (st, s, .ok x)
        | .error e => return (st, s, .error e)) := by
  cases r with
  | error e => exact sim_pure _ _ _
  | ok u =>
    dsimp only
    refine (sim_bind (g := fun v => .ok (v.1, v.2.1, .ok v.2.2)) (sim_computeNext st s) fun st' s' a h => sim_pure _ _ _).of_eq ?_
    cases Nrf.computeNext P.c P.m st s <;> rfl

theorem sim_newtonRaphson (st : Solver F n) (s : S) :
    Sim P log0 files0 (newtonRaphson P) st s (newtonRaphsonStep P.c P.m st s) := by
  have h := sim_computeJac (P := P) (log0 := log0) (files0 := files0) st s
  unfold newtonRaphson newtonRaphsonStep
  rcases hc : Nrf.computeJac P.c P.m st.jac s with y | ⟨j, s', r⟩
  · rw [hc] at h
    exact sim_fails h
  · rw [hc] at h
    refine sim_after h ?_
    have hl := sim_jacToLog (P := P) (log0 := log0) (files0 := files0) { st with jac := j } s'
    refine (sim_bind (g := fun v => match r with
        | .ok () => do
          let x ← Nrf.computeNext P.c P.m v.1 v.2.1
          return (v.1, v.2.1, .ok x)
        | .error e => return (v.1, v.2.1, .error e)) hl fun st' s'' a h => ?_).of_eq ?_
    · exact sim_next r st' s''
    · cases hlog : Solver.logIf { st with jac := j } (.jacobian j) with
      | error y => simp [bind, Except.bind, Except.map, hlog]
      | ok st' => cases r <;> simp [bind, Except.bind, Except.map, hlog]

theorem sim_unwrapOr {o : Option α} {y : Panic} {f : α → Prog F n S β} {st : Solver F n} {s : S} {v : α → _}
    (h : ∀ a, Sim P log0 files0 (f a) st s (v a)) :
    Sim P log0 files0 (unwrapOr y o >>= f) st s (match o with | none => .error y | some a => v a) := by
  cases o with
  | none => exact sim_fails (sim_throw _ _ _)
  | some a => exact sim_after (sim_pure a st s) (h a)

theorem sim_approximateJacobian (method : UpdateMethod) (ds dy cur : Vec F n) (st : Solver F n) (s : S) :
    Sim P log0 files0 (approximateJacobian P method ds dy cur) st s
      ((Nrf.approximateJacobian P.c.la st.jac method ds dy cur).map fun v => ({ st with jac := v.1 }, s, v.2)) := by
  unfold approximateJacobian Nrf.approximateJacobian
  have upd : ∀ M, Sim P log0 files0 (updateJacobianWith P true M) st s
      (.ok ({ st with jac := (st.jac.updateApproximated P.c.la M).1 }, s, (st.jac.updateApproximated P.c.la M).2)) :=
    fun M => sim_updateJacobianWith true M st s
  have one : ∀ (g : Mat F n → Mat F n), Sim P log0 files0 (do
      let M ← (do return g (← unwrapOr .jacobianUnwrap (← get).jac.matrix) : Prog F n S (Mat F n))
      updateJacobianWith P true M) st s
      ((match st.jac.matrix with
        | none => .error .jacobianUnwrap
        | some jac => .ok (st.jac.updateApproximated P.c.la (g jac)) : Except Panic _).map
        fun v => ({ st with jac := v.1 }, s, v.2)) := by
    intro g
    rw [bind_assoc]
    refine sim_get fun j => ?_
    change Sim P log0 files0 ((unwrapOr .jacobianUnwrap st.jac.matrix >>= _) >>= _) st s _
    rw [bind_assoc]
    refine (sim_unwrapOr (v := fun jac => .ok ({ st with jac := (st.jac.updateApproximated P.c.la (g jac)).1 }, s,
      (st.jac.updateApproximated P.c.la (g jac)).2)) fun jac => ?_).of_eq ?_
    · rw [pure_bind]
      exact upd _
    · cases st.jac.matrix <;> rfl
  cases method with
  | BroydenFirst => exact one _
  | BroydenSecond => exact one _
  | GreenstadtFirst => exact one _
  | GreenstadtSecond =>
    unfold nextJacobian
    rw [bind_assoc]
    refine sim_get fun j => ?_
    change Sim P log0 files0 ((unwrapOr .inverseUnwrap st.jac.inverse >>= _) >>= _) st s _
    rw [bind_assoc]
    refine (sim_unwrapOr (v := fun inv => match st.jac.matrix with
      | none => .error .jacobianUnwrap
      | some jac => .ok ({ st with jac := (st.jac.updateApproximated P.c.la
            (greenstadtSecondJac P.c.la jac ds dy (mulVec P.c.la inv dy))).1 }, s,
        (st.jac.updateApproximated P.c.la (greenstadtSecondJac P.c.la jac ds dy (mulVec P.c.la inv dy))).2)) fun inv => ?_).of_eq ?_
    · refine (one fun jac => greenstadtSecondJac P.c.la jac ds dy (mulVec P.c.la inv dy)).of_eq ?_
      cases st.jac.matrix <;> rfl
    · cases st.jac.inverse <;> cases st.jac.matrix <;> rfl

theorem sim_approximateInvJacobian (method : UpdateMethod) (ds dy cur : Vec F n) (st : Solver F n) (s : S) :
    Sim P log0 files0 (approximateInvJacobian P method ds dy cur) st s
      ((Nrf.approximateInvJacobian P.c.la st.jac method ds dy cur).map fun j => ({ st with jac := j }, s, ())) := by
  unfold approximateInvJacobian Nrf.approximateInvJacobian
  have upd : ∀ M, Sim P log0 files0 (do
      onJac fun j => { j with matrix := none }
      onJac fun j => { j with inverse := some M }
      onJac fun j => { j with approximated := true }) st s (.ok ({ st with jac := st.jac.updateInverse M }, s, ())) :=
    fun M => sim_onJac_bind (sim_onJac_bind ((sim_onJac (P := P) (log0 := log0) (files0 := files0) _ _ _).of_eq rfl))
  have one : ∀ (g : Mat F n → Mat F n), Sim P log0 files0 (do
      let M ← (do return g (← unwrapOr .inverseUnwrap (← get).jac.inverse) : Prog F n S (Mat F n))
      onJac fun j => { j with matrix := none }
      onJac fun j => { j with inverse := some M }
      onJac fun j => { j with approximated := true }) st s
      ((match st.jac.inverse with
        | none => .error .inverseUnwrap
        | some inv => .ok (st.jac.updateInverse (g inv)) : Except Panic _).map fun j => ({ st with jac := j }, s, ())) := by
    intro g
    rw [bind_assoc]
    refine sim_get fun j => ?_
    change Sim P log0 files0 ((unwrapOr .inverseUnwrap st.jac.inverse >>= _) >>= _) st s _
    rw [bind_assoc]
    refine (sim_unwrapOr (v := fun inv => .ok ({ st with jac := st.jac.updateInverse (g inv) }, s, ())) fun jac => ?_).of_eq ?_
    · rw [pure_bind]
      exact upd _
    · cases st.jac.inverse <;> rfl
  cases method with
  | BroydenFirst => exact one _
  | BroydenSecond => exact one _
  | GreenstadtFirst => exact one _
  | GreenstadtSecond => exact one _

/-- The three stored steps. -/
theorem sim_steps {f : Vec F n → Vec F n → Vec F n → Prog F n S β} {st : Solver F n} {s : S}
    {v : Vec F n → Vec F n → Vec F n → Except Panic (Solver F n × S × β)}
    (h : ∀ ds dy cur, Sim P log0 files0 (f ds dy cur) st s (v ds dy cur)) :
    Sim P log0 files0 (do
      let itStep ← unwrapOr .stepUnwrap (← get).itStep
      let resStep ← unwrapOr .stepUnwrap (← get).resStep
      let resCur ← unwrapOr .stepUnwrap (← get).resCur
      f itStep resStep resCur) st s
      (match st.itStep, st.resStep, st.resCur with
        | some ds, some dy, some cur => v ds dy cur
        | _, _, _ => .error .stepUnwrap) := by
  refine sim_get fun j => ?_
  refine (sim_unwrapOr (o := st.itStep) (v := fun ds => match st.resStep with
    | none => .error .stepUnwrap
    | some dy => match st.resCur with
      | none => .error .stepUnwrap
      | some cur => v ds dy cur) fun ds => ?_).of_eq ?_
  · refine sim_get fun j => ?_
    refine (sim_unwrapOr (P := P) (o := st.resStep) (v := fun dy => match st.resCur with
      | none => .error .stepUnwrap
      | some cur => v ds dy cur) fun dy => ?_).of_eq (by cases st.resStep <;> rfl)
    refine sim_get fun j => ?_
    exact (sim_unwrapOr (P := P) (o := st.resCur) (v := fun cur => v ds dy cur) fun cur => h ds dy cur).of_eq
      (by cases st.resCur <;> rfl)
  · cases st.itStep <;> cases st.resStep <;> cases st.resCur <;> rfl

/-- Logging the Jacobian and returning. -/
theorem sim_logged (a : α) (st : Solver F n) (s : S) :
    Sim P log0 files0 (do ifDebug (jacToLog P); return a) st s
      ((st.logIf (.jacobian st.jac)).map fun st' => (st', s, a)) := by
  refine (sim_bind (g := fun v => .ok (v.1, v.2.1, a)) (sim_jacToLog st s) fun st' s' _ h => sim_pure _ _ _).of_eq ?_
  cases Solver.logIf st (.jacobian st.jac) <;> rfl

theorem sim_quasiNewtonJacobian (q : QuasiNewtonMethod) (st : Solver F n) (s : S) :
    Sim P log0 files0 (quasiNewtonJacobian P q) st s (Nrf.quasiNewtonJacobian P.c P.m q st s) := by
  unfold quasiNewtonJacobian Nrf.quasiNewtonJacobian
  refine sim_get fun j => ?_
  change Sim P log0 files0 (if st.jac.computeNext = true then _ else _) st s _
  split
  · have h := sim_computeJac (P := P) (log0 := log0) (files0 := files0) st s
    rcases hc : Nrf.computeJac P.c P.m st.jac s with y | ⟨j, s', r⟩
    · rw [hc] at h
      exact sim_fails h
    · rw [hc] at h
      refine sim_after h ?_
      cases r with
      | error e =>
        refine (sim_logged _ { st with jac := j } s').of_eq ?_
        dsimp only [bind, Except.bind]
        cases Solver.logIf { st with jac := j } (.jacobian j) <;> rfl
      | ok u =>
        refine (sim_logged _ { st with jac := j } s').of_eq ?_
        dsimp only [bind, Except.bind]
        cases Solver.logIf { st with jac := j } (.jacobian j) <;> rfl
  · cases q with
    | StationaryNewton =>
      refine (sim_logged _ st s).of_eq ?_
      dsimp only [bind, Except.bind]
      cases Solver.logIf st (.jacobian st.jac) <;> rfl
    | JacobianUpdate method =>
      refine (sim_steps (v := fun ds dy cur => do
        let (j, ok) ← Nrf.approximateJacobian P.c.la st.jac method ds dy cur
        let st := { st with jac := j }
        if ok then
          let st ← st.logIf (.jacobian st.jac)
          return (st, s, .ok ())
        else
          return (st, s, .error .invalidJacobianInverse)) fun ds dy cur => ?_).of_eq rfl
      have h := sim_approximateJacobian (P := P) (log0 := log0) (files0 := files0) method ds dy cur st s
      generalize Nrf.approximateJacobian P.c.la st.jac method ds dy cur = v at h ⊢
      rcases v with y | ⟨j, ok⟩
      · exact sim_fails h
      · refine sim_after h ?_
        cases ok with
        | false => exact sim_pure _ _ _
        | true =>
          refine (sim_logged _ { st with jac := j } s).of_eq ?_
          dsimp only [bind, Except.bind]
          rw [if_pos rfl]
          cases Solver.logIf { st with jac := j } (.jacobian j) <;> rfl
    | InverseJacobianUpdate method =>
      refine (sim_steps (v := fun ds dy cur => do
        let j ← Nrf.approximateInvJacobian P.c.la st.jac method ds dy cur
        let st ← ({ st with jac := j } : Solver F n).logIf (.jacobian j)
        return (st, s, .ok ())) fun ds dy cur => ?_).of_eq rfl
      have h := sim_approximateInvJacobian (P := P) (log0 := log0) (files0 := files0) method ds dy cur st s
      generalize Nrf.approximateInvJacobian P.c.la st.jac method ds dy cur = v at h ⊢
      rcases v with y | j
      · exact sim_fails h
      · refine sim_after h ?_
        refine (sim_logged _ { st with jac := j } s).of_eq ?_
        dsimp only [bind, Except.bind]
        cases Solver.logIf { st with jac := j } (.jacobian j) <;> rfl

theorem sim_quasiNewton (q : QuasiNewtonMethod) (st : Solver F n) (s : S) :
    Sim P log0 files0 (quasiNewton P q) st s (quasiNewtonStep P.c P.m q st s) := by
  unfold quasiNewton quasiNewtonStep
  exact sim_bind (sim_quasiNewtonJacobian q st s) fun st' s' a h => sim_next a st' s'

theorem sim_computeStep (st : Solver F n) (s : S) :
    Sim P log0 files0 (computeStep P P.c.params.method) st s (Nrf.computeStep P.c P.m st s) := by
  unfold computeStep Nrf.computeStep
  cases P.c.params.method
  · exact sim_newtonRaphson st s
  · exact sim_quasiNewton _ st s

theorem sim_damping (maxError : F) (current proposed errorsNext : Vec F n) (st : Solver F n) (s : S) :
    Sim P log0 files0 (damping P maxError current proposed errorsNext) st s
      (dampingStep P.c P.m maxError current proposed errorsNext st s) := by
  unfold damping dampingStep
  split
  · refine sim_get fun j => ?_
    change Sim P log0 files0 (if P.c.params.method ≠ .NewtonRaphson ∧ st.jac.approximated = true then _ else _) st s _
    split
    · refine sim_onJac_bind ?_
      refine (sim_bind (g := fun v => .ok (v.1, v.2.1, errorsNext)) (sim_refusedToLog _ s) fun st' s' _ h => sim_pure _ _ _).of_eq ?_
      dsimp only [bind, Except.bind]
      unfold JacobianMatrix.force
      cases Solver.logIf { st with jac := { st.jac with computeNext := true } } .refused <;> rfl
    · refine sim_call_bind (sim_call_bind ?_)
      change Sim P log0 files0 (match (P.m.evaluate (P.m.setIteratives s (dampedGuess current proposed))).2 with
        | .error _ => _ | .ok () => _) st (P.m.evaluate (P.m.setIteratives s (dampedGuess current proposed))).1 _
      rcases P.m.evaluate (P.m.setIteratives s (dampedGuess current proposed)) with ⟨s', r⟩
      cases r with
      | error e => exact sim_throw _ _ _
      | ok u =>
        dsimp only
        refine sim_after (sim_evaluateErrors st s') ?_
        refine (sim_bind (g := fun v => .ok (v.1, v.2.1, Nrf.evaluateErrors P.c P.m s')) (sim_dampingToLog _ st s')
          fun st' s' _ h => sim_pure _ _ _).of_eq ?_
        dsimp only [bind, Except.bind]
        cases Solver.logIf st (.damping (P.m.getIteratives s') (P.m.getResiduals s') (Nrf.evaluateErrors P.c P.m s')) <;> rfl
  · exact sim_pure _ _ _

theorem sim_modify {g : World F n S → World F n S} {st st1 : Solver F n} {s s1 : S} (hk : Keeps st st1)
    (h : ∀ j, g (worldOf P log0 files0 j st s []) = worldOf P log0 files0 j st1 s1 []) :
    Sim P log0 files0 (modify g) st s (.ok (st1, s1, ())) :=
  fun _ j => ⟨j, st1, s1, h j, hk, rfl⟩

theorem sim_storeSteps (current errors errorsNext : Vec F n) (method : ResolutionMethod) (st : Solver F n) (s : S) :
    Sim P log0 files0 (storeSteps P current errors errorsNext method) st s
      (.ok (Nrf.storeSteps method st (P.m.getIteratives s) current errorsNext errors, s, ())) := by
  have store : Sim P log0 files0 (do
      let x ← ask P .getIteratives P.m.getIteratives
      modify fun w => { w with itStep := some (vsub x current) }
      modify fun w => { w with resStep := some (vsub errorsNext errors) }
      modify fun w => { w with resCur := some errorsNext }) st s
      (.ok ({ st with
        itStep := some (vsub (P.m.getIteratives s) current)
        resStep := some (vsub errorsNext errors)
        resCur := some errorsNext }, s, ())) := by
    refine sim_ask_bind ?_
    refine sim_after (sim_modify (st1 := { st with itStep := some (vsub (P.m.getIteratives s) current) }) (s1 := s)
      (Keeps.refl st) fun j => rfl) ?_
    refine sim_after (sim_modify (st1 := { st with itStep := some (vsub (P.m.getIteratives s) current), resStep := some (vsub errorsNext errors) }) (s1 := s) (Keeps.refl st) fun j => rfl) ?_
    exact sim_modify (Keeps.refl st) fun j => rfl
  rcases method with - | (- | u | u)
  · exact sim_pure _ _ _
  · exact sim_pure _ _ _
  · exact store
  · exact store

theorem sim_afterEvaluation (errors current proposed : Vec F n) (st : Solver F n) (s : S) :
    Sim P log0 files0 (afterEvaluation P errors current proposed) st s
      (finishUpdate P.c P.m errors current proposed st s) := by
  unfold afterEvaluation finishUpdate
  refine sim_after (sim_evaluateErrors st s) ?_
  dsimp only
  have hl := sim_iterationToLog (P := P) (log0 := log0) (files0 := files0) (Nrf.evaluateErrors P.c P.m s) st s
  cases hlog : st.logIf (.iteration st.iter (P.m.getIteratives s) (P.m.getResiduals s) (Nrf.evaluateErrors P.c P.m s)) with
  | error y =>
    rw [hlog] at hl
    exact sim_fails hl
  | ok st1 =>
    rw [hlog] at hl
    refine sim_after hl ?_
    dsimp only [bind, Except.bind]
    have last : ∀ st' s' e, Sim P log0 files0 (do
        storeSteps P current errors e P.c.params.method
        return e) st' s' (.ok (Nrf.storeSteps P.c.params.method st' (P.m.getIteratives s') current e errors, s', e)) :=
      fun st' s' e => sim_after (sim_storeSteps current errors e _ st' s') (sim_pure _ _ _)
    split
    · have hd := sim_damping (P := P) (log0 := log0) (files0 := files0) (amax errors) current proposed
        (Nrf.evaluateErrors P.c P.m s) st1 s
      generalize dampingStep P.c P.m (amax errors) current proposed (Nrf.evaluateErrors P.c P.m s) st1 s = v at hd ⊢
      rcases v with y | ⟨st2, s2, e2⟩
      · exact sim_fails hd
      · exact sim_after hd (last st2 s2 e2)
    · exact last st1 s _

theorem sim_updateModel (proposed : Vec F n) (st : Solver F n) (s : S) :
    Sim P log0 files0 (updateModel P proposed) st s (Nrf.updateModel P.c P.m proposed st s) := by
  unfold updateModel Nrf.updateModel
  refine sim_after (sim_evaluateErrors st s) (sim_ask_bind (sim_call_bind (sim_call_bind ?_)))
  dsimp only
  rcases P.m.evaluate (P.m.setIteratives s proposed) with ⟨s', r⟩
  have go : ∀ b, Sim P log0 files0 (do
      modify fun w => { w with valid := b }
      return .ok (← afterEvaluation P (Nrf.evaluateErrors P.c P.m s) (P.m.getIteratives s) proposed) :
        Prog F n S (Except (SolverError EI EU) (Vec F n))) st s' (do
      let (st, s, e) ← finishUpdate P.c P.m (Nrf.evaluateErrors P.c P.m s) (P.m.getIteratives s) proposed { st with valid := b } s'
      return (st, s, .ok e)) := by
    intro b
    refine sim_after (sim_modify (st1 := { st with valid := b }) (s1 := s') (Keeps.refl st) fun j => rfl) ?_
    exact sim_bind (g := fun v => Except.ok (v.1, v.2.1, Except.ok v.2.2)) (sim_afterEvaluation _ _ _ _ _)
      fun st' s' a h => sim_pure _ _ _
  rcases r with (e | e) | u
  · exact go false
  · refine sim_after (sim_modify (st1 := { st with valid := false }) (s1 := s') (Keeps.refl st) fun j => rfl) ?_
    exact sim_pure _ _ _
  · exact go true

/-- One pass, after the counter has been increased. -/
theorem sim_pass (st : Solver F n) (s : S) :
    Sim P log0 files0 (do
      match ← computeStep P P.c.params.method with
      | .ok value =>
        match ← updateModel P value with
        | .ok errors => return .ok (amax errors)
        | .error e => return .error e
      | .error e => return .error (.jacobian e) : Prog F n S (Except (SolverError EI EU) F))
      { st with iter := st.iter + 1 } s (iterate P.c P.m st s) := by
  unfold iterate
  refine sim_bind (sim_computeStep _ s) fun st1 s1 r h => ?_
  cases r with
  | error e => exact sim_pure _ _ _
  | ok x =>
    refine sim_bind (sim_updateModel x st1 s1) fun st2 s2 r h => ?_
    cases r with
    | error e => exact sim_pure _ _ _
    | ok e => exact sim_pure _ _ _

end
end Nrf.Program
