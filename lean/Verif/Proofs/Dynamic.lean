import Verif.Model.Dynamic

/-!
# Dynamic vectors of one common length: the solve is the one on fixed dimensions
-/

set_option linter.unusedSectionVars false

namespace Nrf
namespace Dyn

section
variable {F : Type} {n : Nat} {EI EU S S' : Type}

/-- The Jacobian cache with the lengths recorded. -/
def liftJ (j : Nrf.JacobianMatrix F n) : JacobianMatrix F :=
  { matrix := j.matrix.map fun M => ⟨n, M⟩, inverse := j.inverse.map fun M => ⟨n, M⟩
    computeNext := j.computeNext, approximated := j.approximated }

/-- The rows of a table whose vectors have one common length. -/
def liftRows (x : Vec F n) (r : ResidualsValues F n) (e : Vec F n) : List (Row F) :=
  List.ofFn fun i : Fin n => { value := x i, left := r.left i, right := r.right i, error := e i }

/-- The log entry with its rows. -/
def liftE [Scalar F] : LogEntry F n → Entry F
  | .header => .header
  | .parameters => .parameters
  | .iteration k x r e => .iteration k (amax e) (liftRows x r e)
  | .damping x r e => .damping (amax e) (liftRows x r e)
  | .refused => .refused
  | .jacobian j => .jacobian (liftJ j)

/-- The solver with the lengths recorded. -/
def liftS [Scalar F] (st : Nrf.Solver F n) : Solver F :=
  { debug := st.debug, iter := st.iter, log := st.log.map (List.map liftE), jac := liftJ st.jac, itStep := st.itStep.map fun v => ⟨n, v⟩
    resStep := st.resStep.map fun v => ⟨n, v⟩, resCur := st.resCur.map fun v => ⟨n, v⟩
    valid := st.valid }

/-- The panic of the finite differences for a large `len_problem()` is an index
panic. -/
def liftPanic : Panic → DynPanic
  | .indexOutOfBounds => .index
  | p => .inner p

variable [Scalar F]

/-- The same result. -/
def Match {β β' : Type} (π : S' → S) (lift : β → β')
    (x : Except Panic (Nrf.Solver F n × S' × β))
    (y : Except DynPanic (Solver F × S × β')) : Prop :=
  match x with
  | .error p => y = .error (liftPanic p)
  | .ok (st, s, b) => y = .ok (liftS st, π s, lift b)

theorem Match.bind {β β' γ γ' : Type} {π : S' → S} {lift : β → β'} {lift' : γ → γ'}
    {x : Except Panic (Nrf.Solver F n × S' × β)} {y : Except DynPanic (Solver F × S × β')}
    {f : Nrf.Solver F n × S' × β → Except Panic (Nrf.Solver F n × S' × γ)}
    {g : Solver F × S × β' → Except DynPanic (Solver F × S × γ')} (h : Match π lift x y)
    (hf : ∀ st s b, Match π lift' (f (st, s, b)) (g (liftS st, π s, lift b))) :
    Match π lift' (x >>= f) (y >>= g) := by
  match x with
  | .error p =>
    change y = _ at h
    rw [h]
    rfl
  | .ok (st, s, b) =>
    change y = _ at h
    rw [h]
    exact hf st s b

end

end Dyn

/-- The dynamic model `m` is the model `m'` on vectors of length `n`: every vector it
returns has that length as long as it is given vectors of that length. -/
structure Spec.Shaped {F : Type} {n : Nat} {EI EU S S' : Type} (m' : UserModel F n EI EU S')
    (m : Dyn.Model F EI EU S) (π : S' → S) : Prop where
  lenProblem : ∀ s, m.lenProblem (π s) = m'.lenProblem s
  setIteratives : ∀ s x, m.setIteratives (π s) ⟨n, x⟩ = π (m'.setIteratives s x)
  getIteratives : ∀ s, m.getIteratives (π s) = ⟨n, m'.getIteratives s⟩
  evaluate : ∀ s, m.evaluate (π s) = (π (m'.evaluate s).1, (m'.evaluate s).2)
  getResiduals : ∀ s, m.getResiduals (π s) = .ok ⟨n, m'.getResiduals s⟩
  jacobianProvided : ∀ s, m.jacobianProvided (π s) = m'.jacobianProvided s
  getJacobian : ∀ s, m.getJacobian (π s) =
    .ok (π (m'.getJacobian s).1, (m'.getJacobian s).2.map fun j => ⟨n, j⟩)
  getMemory : ∀ s, m.getMemory (π s) = m'.getMemory s
  setMemory : ∀ s l, m.setMemory (π s) l = π (m'.setMemory s l)
  displayUnusable : ∀ e, m.displayUnusable e = m'.displayUnusable e

namespace Dyn
section
variable {F : Type} [Scalar F] {n : Nat} {EI EU S S' : Type}

theorem evaluateUpdate_same (r : ResConf n) (v : ResidualsValues F n) :
    evaluateUpdate r ⟨n, v⟩ = .ok ⟨n, r.evaluateUpdate v⟩ := by
  simp [evaluateUpdate]
  rfl

theorem evaluateStopping_same (r : ResConf n) (v : ResidualsValues F n) :
    evaluateStopping r ⟨n, v⟩ = .ok ⟨n, r.evaluateStopping v⟩ := by
  simp [evaluateStopping]
  rfl

theorem normalize_same (j : JacobianValues F n) (v : ResidualsValues F n)
    (methods : Fin n → NormalizationMethod) :
    normalize ⟨n, j⟩ ⟨n, v⟩ methods = .ok ⟨n, j.normalize v methods⟩ := by
  simp [normalize]
  rfl

theorem stepLimitations_same (iters : Fin n → Iterative F) (x raw : Vec F n) :
    stepLimitations iters ⟨n, x⟩ ⟨n, raw⟩ = .ok ⟨n, Nrf.stepLimitations iters x raw⟩ := by
  simp [stepLimitations]
  rfl

theorem computePerturbations_same (iters : Fin n → Iterative F) (x : Vec F n) :
    computePerturbations iters ⟨n, x⟩ =
      (match Nrf.computePerturbations iters x with
      | none => .error (.inner .unimplementedPerturbation)
      | some p => .ok ⟨n, p⟩) := by
  unfold computePerturbations Nrf.computePerturbations
  by_cases h : ∀ i, (iters i).computePerturbation.isSome = true
  · have h' : ∀ i : Fin n, i.val < n → (iters i).computePerturbation.isSome = true :=
      fun i _ => h i
    simp [h]
  · have h' : ¬ ∀ i : Fin n, i.val < n → (iters i).computePerturbation.isSome = true :=
      fun hh => h fun i => hh i i.isLt
    simp only [h, h', dite_false]

theorem sub_same (a b : Vec F n) : sub ⟨n, a⟩ ⟨n, b⟩ = .ok ⟨n, vsub a b⟩ := by
  simp [sub]

theorem negMulVec_same (la : (k : Nat) → LinAlg F k) (A : Mat F n) (v : Vec F n) :
    negMulVec la ⟨n, A⟩ ⟨n, v⟩ = .ok ⟨n, mulVec (la n) (mneg A) v⟩ := by
  simp [negMulVec]

theorem perturb_same (x pert : Vec F n) (i : Nat) :
    perturb (⟨n, x⟩ : DVec F) ⟨n, pert⟩ i =
      if h : i < n then
        .ok (⟨n, fun l => if l = ⟨i, h⟩ then x ⟨i, h⟩ +ᶠ pert ⟨i, h⟩ else x l⟩, pert ⟨i, h⟩)
      else .error .index := by
  unfold perturb
  by_cases h : i < n <;> simp [h]

theorem setCol_same (J : Mat F n) {i : Nat} (h : i < n) (col : Vec F n) :
    setCol ⟨n, J⟩ i ⟨n, col⟩ = .ok ⟨n, setColumn J ⟨i, h⟩ col⟩ := by
  simp [setCol, h]

theorem dampedGuess_same (x y : Vec F n) :
    dampedGuess ⟨n, x⟩ ⟨n, y⟩ = .ok ⟨n, Nrf.dampedGuess x y⟩ := by
  simp [dampedGuess]

theorem updateExact_same (la : (k : Nat) → LinAlg F k) (j : Nrf.JacobianMatrix F n)
    (M : Mat F n) :
    (liftJ j).update la false ⟨n, M⟩ =
      (liftJ (j.updateExact (la n) M).1, (j.updateExact (la n) M).2) := by
  unfold JacobianMatrix.update JacobianMatrix.updateExact Nrf.JacobianMatrix.update
  cases (la n).inv M <;> rfl

theorem updateApproximated_same (la : (k : Nat) → LinAlg F k) (j : Nrf.JacobianMatrix F n)
    (M : Mat F n) :
    (liftJ j).update la true ⟨n, M⟩ =
      (liftJ (j.updateApproximated (la n) M).1, (j.updateApproximated (la n) M).2) := by
  unfold JacobianMatrix.update JacobianMatrix.updateApproximated Nrf.JacobianMatrix.update
  cases (la n).inv M <;> rfl

/-- A change of the solver alone. -/
def liftX : Except Panic (Nrf.Solver F n) → Except DynPanic (Solver F)
  | .error p => .error (liftPanic p)
  | .ok st => .ok (liftS st)

theorem toLog_same (st : Nrf.Solver F n) (e : LogEntry F n) :
    (liftS st).toLog (liftE e) = liftX (st.toLog e) := by
  unfold Solver.toLog Nrf.Solver.toLog
  cases h : st.log with
  | none => simp [liftS, h, liftX, liftPanic]
  | some l => simp [liftS, h, liftX]

theorem logIf_same (st : Nrf.Solver F n) (e : LogEntry F n) :
    (liftS st).logIf (liftE e) = liftX (st.logIf e) := by
  unfold Solver.logIf Nrf.Solver.logIf
  rw [toLog_same]
  change (if st.debug then _ else _) = _
  split <;> rfl

theorem parametersToLog_same (st : Nrf.Solver F n) :
    (liftS st).parametersToLog n = liftX st.parametersToLog := by
  unfold Solver.parametersToLog Nrf.Solver.parametersToLog
  have h0 := toLog_same st .parameters
  change (if st.debug then _ else _) = _
  split
  · cases h : st.log with
    | none => simp [liftS, h, liftX, liftPanic]
    | some l =>
      have : (liftS st).log = some (l.map liftE) := by simp [liftS, h]
      rw [this]
      dsimp only
      split
      · rfl
      · exact h0
  · rfl

theorem rows_same (x : Vec F n) (v : ResidualsValues F n) (e : Vec F n) :
    rows ⟨n, x⟩ ⟨n, v⟩ ⟨n, e⟩ = .ok (liftRows x v e) := by
  unfold rows liftRows
  have h : min n n = n := Nat.min_self n
  simp only [h, le_refl, dite_true]
  congr 1
  apply List.ext_getElem
  · simp
  · intro i h1 h2
    simp

/-- A continuation after a log entry. -/
theorem Match.log {β β' : Type} {π : S' → S} {lift : β → β'} {x : Except Panic (Nrf.Solver F n)}
    {y : Except DynPanic (Solver F)} {f : Nrf.Solver F n → Except Panic (Nrf.Solver F n × S' × β)}
    {g : Solver F → Except DynPanic (Solver F × S × β')} (h : y = liftX x)
    (hf : ∀ st, Match π lift (f st) (g (liftS st))) : Match π lift (x >>= f) (y >>= g) := by
  subst h
  match x with
  | .error p => rfl
  | .ok st => exact hf st

variable {la : (k : Nat) → LinAlg F k} {c : Config F n} {m' : UserModel F n EI EU S'}
  {m : Model F EI EU S} {π : S' → S}
variable (hla : c.la = la n) (H : Spec.Shaped m' m π)
include hla H

theorem evaluateErrors_same (s : S') :
    evaluateErrors c m (π s) = .ok ⟨n, Nrf.evaluateErrors c m' s⟩ := by
  unfold evaluateErrors
  rw [H.getResiduals]
  exact evaluateStopping_same _ _

omit hla in
theorem tableToLog_same (entry : F → List (Row F) → Entry F) (e : LogEntry F n) (errors : Vec F n) (st : Nrf.Solver F n)
    (s : S') (he : entry (amax errors) (liftRows (m'.getIteratives s) (m'.getResiduals s) errors) = liftE e) :
    tableToLog m entry ⟨n, errors⟩ (liftS st) (π s) = liftX (st.logIf e) := by
  rw [← logIf_same]
  unfold tableToLog Solver.logIf
  rw [H.getResiduals, H.getIteratives]
  split
  · cases h : (liftS st).log with
    | none => simp only [bind, Except.bind, Solver.toLog, h]
    | some l => simp only [bind, Except.bind, rows_same, he]
  · rfl

/-- The result of a Jacobian computation with the lengths recorded. -/
def liftC (π : S' → S) :
    Except Panic (Nrf.JacobianMatrix F n × S' × Except (SolverInternalError EI EU) Unit) →
    Except DynPanic (JacobianMatrix F × S × Except (SolverInternalError EI EU) Unit)
  | .error p => .error (liftPanic p)
  | .ok (j, s, r) => .ok (liftJ j, π s, r)

theorem analyticJacobian_same (j : Nrf.JacobianMatrix F n) (s : S') :
    analyticJacobian la c m (liftJ j) (π s) =
      liftC π (.ok (Nrf.analyticJacobian c.la c.res m' j s)) := by
  unfold analyticJacobian Nrf.analyticJacobian
  simp only [bind, Except.bind, pure, Except.pure, H.getJacobian, H.getResiduals, hla]
  rcases m'.getJacobian s with ⟨s', r⟩
  match r with
  | .error e => rfl
  | .ok v =>
    simp only [Except.map, normalize_same, updateExact_same]
    rcases j.updateExact (la n) (v.normalize (m'.getResiduals s) c.res.upd) with ⟨j', b⟩
    cases b <;> rfl

theorem fdLoop_same (pert : Vec F n) (mem : List F) (x r : Vec F n) :
    ∀ (k i : Nat) (J : Mat F n) (s : S'),
      fdLoop c.res m ⟨n, pert⟩ mem ⟨n, x⟩ ⟨n, r⟩ k i ⟨n, J⟩ (π s) =
        (match Nrf.fdLoop c.res m' pert mem x r k i J s with
        | .error p => .error (liftPanic p)
        | .ok (s', v) => .ok (π s', v.map fun M => ⟨n, M⟩)) := by
  intro k
  induction k with
  | zero => intro i J s; rfl
  | succ k ih =>
    intro i J s
    unfold fdLoop Nrf.fdLoop
    rw [perturb_same]
    by_cases hi : i < n
    · simp only [hi, dite_true, H.setIteratives, H.evaluate, bind, Except.bind, pure, Except.pure]
      rcases m'.evaluate (m'.setIteratives s _) with ⟨s', v⟩
      match v with
      | .error (.unusable e) => rfl
      | .error (.inaccurate e) =>
        simp only [H.getResiduals, H.setMemory, evaluateUpdate_same, sub_same, setCol_same _ hi, ih]
      | .ok () =>
        simp only [H.getResiduals, H.setMemory, evaluateUpdate_same, sub_same, setCol_same _ hi, ih]
    · simp only [hi, dite_false, bind, Except.bind]
      rfl

theorem fdJacobian_same (j : Nrf.JacobianMatrix F n) (s : S') :
    fdJacobian la c m (liftJ j) (π s) =
      liftC π (Nrf.fdJacobian c.la c.res c.iters m' j s) := by
  unfold fdJacobian Nrf.fdJacobian fdCompute
  simp only [bind, Except.bind, pure, Except.pure, H.getIteratives, H.getMemory, H.getResiduals,
    H.lenProblem, computePerturbations_same, evaluateUpdate_same]
  cases Nrf.computePerturbations c.iters (m'.getIteratives s) with
  | none => rfl
  | some pert =>
    dsimp only
    rw [fdLoop_same hla H]
    rcases Nrf.fdLoop c.res m' pert _ _ _ _ _ _ s with p | ⟨s', v⟩
    · rfl
    · match v with
      | .error e => rfl
      | .ok J =>
        simp only [Except.map, updateExact_same, hla]
        rcases j.updateExact (la n) J with ⟨j', b⟩
        cases b <;> rfl

theorem computeJac_same (j : Nrf.JacobianMatrix F n) (s : S') :
    computeJac la c m (liftJ j) (π s) = liftC π (Nrf.computeJac c m' j s) := by
  unfold computeJac Nrf.computeJac
  simp only [H.jacobianProvided, analyticJacobian_same hla H, fdJacobian_same hla H]
  by_cases hp : m'.jacobianProvided s = true
  · simp only [hp, if_true]
    rcases Nrf.analyticJacobian c.la c.res m' j s with ⟨j', s', r⟩
    match r with
    | .ok () => rfl
    | .error (.invalidJacobian (.inaccurate e)) => rfl
    | .error (.invalidJacobian (.unusable e)) => rfl
    | .error .invalidJacobianInverse => rfl
  · simp only [hp]
    rcases Nrf.fdJacobian c.la c.res c.iters m' j s with p | ⟨j', s', r⟩
    · rfl
    match r with
    | .ok () => rfl
    | .error (.invalidJacobian (.inaccurate e)) => rfl
    | .error (.invalidJacobian (.unusable e)) => rfl
    | .error .invalidJacobianInverse => rfl

theorem computeNext_same (st : Nrf.Solver F n) (s : S') :
    computeNext la c m (liftS st) (π s) =
      (match Nrf.computeNext c m' st s with
      | .error p => .error (liftPanic p)
      | .ok x => .ok ⟨n, x⟩) := by
  unfold computeNext Nrf.computeNext
  simp only [bind, Except.bind, H.getResiduals, evaluateUpdate_same, H.getIteratives, hla]
  cases hi : st.jac.inverse with
  | none => simp [liftS, liftJ, hi, liftPanic]
  | some inv =>
    simp only [liftS, liftJ, hi, Option.map, negMulVec_same, stepLimitations_same]

omit H in
theorem approximateJacobian_same (j : Nrf.JacobianMatrix F n) (method : UpdateMethod)
    (ds dy cur : Vec F n) :
    approximateJacobian la (liftJ j) method ⟨n, ds⟩ ⟨n, dy⟩ ⟨n, cur⟩ =
      (match Nrf.approximateJacobian c.la j method ds dy cur with
      | .error p => .error (liftPanic p)
      | .ok (j, b) => .ok (liftJ j, b)) := by
  unfold approximateJacobian Nrf.approximateJacobian
  rw [hla]
  have hm : (liftJ j).matrix = j.matrix.map fun M => ⟨n, M⟩ := rfl
  have hi : (liftJ j).inverse = j.inverse.map fun M => ⟨n, M⟩ := rfl
  cases method <;> dsimp only <;> rw [hm] <;> try rw [hi]
  all_goals
    cases hj : j.matrix with
    | none =>
      cases j.inverse <;> simp [liftPanic]
    | some M =>
      cases j.inverse <;> simp [liftPanic, updateApproximated_same]

omit H in
theorem approximateInvJacobian_same (j : Nrf.JacobianMatrix F n) (method : UpdateMethod)
    (ds dy cur : Vec F n) :
    approximateInvJacobian la (liftJ j) method ⟨n, ds⟩ ⟨n, dy⟩ ⟨n, cur⟩ =
      (match Nrf.approximateInvJacobian c.la j method ds dy cur with
      | .error p => .error (liftPanic p)
      | .ok j => .ok (liftJ j)) := by
  unfold approximateInvJacobian Nrf.approximateInvJacobian
  rw [hla]
  have hi : (liftJ j).inverse = j.inverse.map fun M => ⟨n, M⟩ := rfl
  rw [hi]
  cases j.inverse with
  | none => rfl
  | some inv =>
    cases method <;> simp <;> rfl

theorem quasiNewtonJacobian_same (q : QuasiNewtonMethod) (st : Nrf.Solver F n) (s : S') :
    Match π id (Nrf.quasiNewtonJacobian c m' q st s)
      (quasiNewtonJacobian la c m q (liftS st) (π s)) := by
  unfold quasiNewtonJacobian Nrf.quasiNewtonJacobian
  have hc : (liftS st).jac.computeNext = st.jac.computeNext := rfl
  have hj : (liftS st).jac = liftJ st.jac := rfl
  rw [hc]
  by_cases hn : st.jac.computeNext = true
  · rw [if_pos hn, if_pos hn, hj, computeJac_same hla H]
    rcases Nrf.computeJac c m' st.jac s with p | ⟨j', s', r⟩
    · rfl
    · exact Match.log (logIf_same { st with jac := j' } (.jacobian j')) fun _ => rfl
  · rw [if_neg hn, if_neg hn]
    cases q with
    | StationaryNewton => exact Match.log (logIf_same st (.jacobian st.jac)) fun _ => rfl
    | JacobianUpdate method =>
      dsimp only
      cases h1 : st.itStep with
      | none => simp [liftS, h1, Match, liftPanic]
      | some ds =>
      cases h2 : st.resStep with
      | none => simp [liftS, h1, h2, Match, liftPanic]
      | some dy =>
      cases h3 : st.resCur with
      | none => simp [liftS, h1, h2, h3, Match, liftPanic]
      | some cur =>
        have e1 : (liftS st).itStep = some ⟨n, ds⟩ := by simp [liftS, h1]
        have e2 : (liftS st).resStep = some ⟨n, dy⟩ := by simp [liftS, h2]
        have e3 : (liftS st).resCur = some ⟨n, cur⟩ := by simp [liftS, h3]
        rw [e1, e2, e3, hj]
        dsimp only
        rw [approximateJacobian_same hla]
        rcases Nrf.approximateJacobian c.la st.jac method ds dy cur with p | ⟨j', b⟩
        · rfl
        · cases b with
          | false => rfl
          | true =>
            exact Match.log (logIf_same { st with jac := j', itStep := some ds, resStep := some dy, resCur := some cur }
              (.jacobian j')) fun _ => rfl
    | InverseJacobianUpdate method =>
      dsimp only
      cases h1 : st.itStep with
      | none => simp [liftS, h1, Match, liftPanic]
      | some ds =>
      cases h2 : st.resStep with
      | none => simp [liftS, h1, h2, Match, liftPanic]
      | some dy =>
      cases h3 : st.resCur with
      | none => simp [liftS, h1, h2, h3, Match, liftPanic]
      | some cur =>
        have e1 : (liftS st).itStep = some ⟨n, ds⟩ := by simp [liftS, h1]
        have e2 : (liftS st).resStep = some ⟨n, dy⟩ := by simp [liftS, h2]
        have e3 : (liftS st).resCur = some ⟨n, cur⟩ := by simp [liftS, h3]
        rw [e1, e2, e3, hj]
        dsimp only
        rw [approximateInvJacobian_same hla]
        rcases Nrf.approximateInvJacobian c.la st.jac method ds dy cur with p | j'
        · rfl
        · exact Match.log (logIf_same { st with jac := j', itStep := some ds, resStep := some dy, resCur := some cur }
            (.jacobian j')) fun _ => rfl

theorem afterJacobian_same (st : Nrf.Solver F n) (s : S')
    (r : Except (SolverInternalError EI EU) Unit) :
    Match π (Except.map fun x => (⟨n, x⟩ : DVec F))
      (match r with
        | .ok () => do
          let x ← Nrf.computeNext c m' st s
          return (st, s, .ok x)
        | .error e => return (st, s, .error e) :
        Except Panic (Nrf.Solver F n × S' × Except (SolverInternalError EI EU) (Vec F n)))
      (match r with
        | .ok () => do
          let x ← computeNext la c m (liftS st) (π s)
          return (liftS st, π s, .ok x)
        | .error e => return (liftS st, π s, .error e)) := by
  match r with
  | .error e => rfl
  | .ok () =>
    simp only [bind, Except.bind, pure, Except.pure, computeNext_same hla H]
    rcases Nrf.computeNext c m' st s with p | x
    · rfl
    · rfl

theorem computeStep_same (st : Nrf.Solver F n) (s : S') :
    Match π (Except.map fun x => (⟨n, x⟩ : DVec F)) (Nrf.computeStep c m' st s)
      (computeStep la c m (liftS st) (π s)) := by
  unfold computeStep Nrf.computeStep evaluateJacobian
  cases c.params.method with
  | NewtonRaphson =>
    unfold newtonRaphsonStep
    have hj : (liftS st).jac = liftJ st.jac := rfl
    dsimp only
    rw [hj, computeJac_same hla H]
    rcases Nrf.computeJac c m' st.jac s with p | ⟨j', s', r⟩
    · rfl
    · have hl := logIf_same { st with jac := j' } (.jacobian j')
      have e : (({ liftS st with jac := liftJ j' } : Solver F).logIf (.jacobian (liftJ j'))) =
        liftX (({ st with jac := j' } : Nrf.Solver F n).logIf (.jacobian j')) := hl
      simp only [liftC, bind, Except.bind, pure, Except.pure]
      rw [e]
      cases hx : ({ st with jac := j' } : Nrf.Solver F n).logIf (.jacobian j') with
      | error p => rfl
      | ok st2 =>
        have := afterJacobian_same hla H st2 s' r
        simp only [bind, Except.bind, pure, Except.pure] at this
        exact this
  | QuasiNewton q =>
    exact (quasiNewtonJacobian_same hla H q st s).bind fun st s r =>
      afterJacobian_same hla H st s r

theorem dampingStep_same (maxError : F) (cur x e : Vec F n) (st : Nrf.Solver F n) (s : S') :
    Match π (fun v => (⟨n, v⟩ : DVec F)) (Nrf.dampingStep c m' maxError cur x e st s)
      (dampingStep c m maxError ⟨n, cur⟩ ⟨n, x⟩ ⟨n, e⟩ (liftS st) (π s)) := by
  unfold dampingStep Nrf.dampingStep
  have ha : (liftS st).jac.approximated = st.jac.approximated := rfl
  rw [ha]
  split
  · split
    · exact Match.log (logIf_same { st with jac := st.jac.force } .refused) fun _ => rfl
    · rw [dampedGuess_same]
      change Match _ _ _ (match m.evaluate (m.setIteratives (π s) ⟨n, _⟩) with
        | (_, .error _) => _
        | (s, .ok ()) => _)
      rw [H.setIteratives, H.evaluate]
      rcases m'.evaluate _ with ⟨s', v⟩
      match v with
      | .error e => rfl
      | .ok () =>
        dsimp only
        rw [evaluateErrors_same hla H]
        exact Match.log (tableToLog_same H .damping
          (.damping (m'.getIteratives s') (m'.getResiduals s') (Nrf.evaluateErrors c m' s')) _ st s' rfl) fun _ => rfl
  · rfl

omit H in
theorem storeSteps_same (st : Nrf.Solver F n) (a b d e : Vec F n) :
    storeSteps c (liftS st) ⟨n, a⟩ ⟨n, b⟩ ⟨n, d⟩ ⟨n, e⟩ =
      .ok (liftS (Nrf.storeSteps c.params.method st a b d e)) := by
  unfold storeSteps Nrf.storeSteps
  cases c.params.method with
  | NewtonRaphson => rfl
  | QuasiNewton q =>
    cases q <;> simp [bind, Except.bind, pure, Except.pure, sub_same, liftS]

theorem finishUpdate_same (errors cur x : Vec F n) (st : Nrf.Solver F n) (s : S') :
    Match π (fun v => (⟨n, v⟩ : DVec F)) (Nrf.finishUpdate c m' errors cur x st s)
      (finishUpdate c m ⟨n, errors⟩ ⟨n, cur⟩ ⟨n, x⟩ (liftS st) (π s)) := by
  unfold finishUpdate Nrf.finishUpdate
  rw [evaluateErrors_same hla H]
  have hend : ∀ (st : Nrf.Solver F n) (s : S') (e : Vec F n),
      Match π (fun v => (⟨n, v⟩ : DVec F))
        (pure (Nrf.storeSteps c.params.method st (m'.getIteratives s) cur e errors, s, e))
        (storeSteps c (liftS st) (m.getIteratives (π s)) ⟨n, cur⟩ ⟨n, e⟩ ⟨n, errors⟩ >>= fun st =>
          pure (st, π s, (⟨n, e⟩ : DVec F))) := by
    intro st s e
    rw [H.getIteratives, storeSteps_same hla]
    rfl
  refine Match.log (tableToLog_same H (.iteration st.iter)
    (.iteration st.iter (m'.getIteratives s) (m'.getResiduals s) (Nrf.evaluateErrors c m' s)) _ st s rfl) ?_
  intro st
  split
  · exact (dampingStep_same hla H _ _ _ _ st s).bind fun st s e => hend st s e
  · exact hend st s _

theorem updateModel_same (x : Vec F n) (st : Nrf.Solver F n) (s : S') :
    Match π (Except.map fun v => (⟨n, v⟩ : DVec F)) (Nrf.updateModel c m' x st s)
      (updateModel c m ⟨n, x⟩ (liftS st) (π s)) := by
  unfold updateModel Nrf.updateModel
  rw [evaluateErrors_same hla H]
  dsimp only [bind, Except.bind]
  rw [H.setIteratives, H.evaluate, H.getIteratives]
  rcases m'.evaluate (m'.setIteratives s x) with ⟨s', v⟩
  match v with
  | .error (.unusable e) => rfl
  | .error (.inaccurate e) =>
    exact (finishUpdate_same hla H _ _ _ { st with valid := false } s').bind fun _ _ _ => rfl
  | .ok () =>
    exact (finishUpdate_same hla H _ _ _ { st with valid := true } s').bind fun _ _ _ => rfl

theorem iterate_same (st : Nrf.Solver F n) (s : S') :
    Match π id (Nrf.iterate c m' st s) (iterate la c m (liftS st) (π s)) := by
  unfold iterate Nrf.iterate
  refine (computeStep_same hla H { st with iter := st.iter + 1 } s).bind ?_
  intro st s r
  match r with
  | .error e => rfl
  | .ok x =>
    refine (updateModel_same hla H x st s).bind ?_
    intro st s r
    match r with
    | .error e => rfl
    | .ok e => rfl

theorem loop_same : ∀ (fuel : Nat) (st : Nrf.Solver F n) (s : S') (e : F),
    Match π id (Nrf.loop c m' fuel st s e) (loop la c m fuel (liftS st) (π s) e) := by
  intro fuel
  induction fuel with
  | zero => intro st s e; rfl
  | succ k ih =>
    intro st s e
    unfold loop Nrf.loop continues
    have hi : (liftS st).iter = st.iter := rfl
    rw [hi]
    split
    · have h := iterate_same hla H st s
      rcases hr : Nrf.iterate c m' st s with p | ⟨a, b, r⟩
      · rw [hr] at h
        change _ = _ at h
        rw [h]
        rfl
      · rw [hr] at h
        change _ = _ at h
        rw [h]
        match r with
        | .error e => rfl
        | .ok e => exact ih _ _ _
    · rfl

theorem solve_same (st : Nrf.Solver F n) (s : S') :
    Match π id (Nrf.solve c m' st s) (solve la c m (liftS st) (π s)) := by
  have hfrom : ∀ s, Match π id (Nrf.solveFrom c m' st s) (solveFrom la c m (liftS st) (π s)) := by
    intro s
    unfold solveFrom Nrf.solveFrom
    rw [evaluateErrors_same hla H]
    refine Match.log (parametersToLog_same st) fun st => ?_
    refine Match.log (tableToLog_same H (.iteration st.iter)
      (.iteration st.iter (m'.getIteratives s) (m'.getResiduals s) (Nrf.evaluateErrors c m' s)) _ st s rfl) fun st => ?_
    refine (loop_same hla H _ st s _).bind ?_
    intro st s r
    match r with
    | .error e => rfl
    | .ok e => rfl
  unfold solve Nrf.solve
  rw [H.setIteratives, H.evaluate]
  rcases m'.evaluate (m'.setIteratives s c.guess) with ⟨s', v⟩
  match v with
  | .error (.unusable e) =>
    change Except.ok _ = _
    dsimp only
    rw [H.displayUnusable]
    rfl
  | .error (.inaccurate e) => exact hfrom s'
  | .ok () => exact hfrom s'

end
end Dyn
end Nrf
