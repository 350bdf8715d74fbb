import Verif.Model.RootFinder

/-!
# `RootFinder::solve` with dynamic dimensions

With `D = nalgebra::Dyn` the length of a vector is a run-time value and the type
checker does not compare it with `problem_size`.  `RootFinder::new` checks the
user inputs (`Config.new`); nothing checks the vectors of the model.  Here every
vector and matrix carries its length, and each operation of the solver checks the
lengths it needs: indexing past the end and operations on unequal shapes are
panics.  The log is the list of the entries with the rows of their tables.
-/

namespace Nrf
namespace Dyn

/-- `nalgebra::DVector<f64>`. -/
structure DVec (F : Type) where
  len : Nat
  val : Vec F len

/-- A square `nalgebra::DMatrix<f64>`. -/
structure DMat (F : Type) where
  len : Nat
  val : Mat F len

/-- Any `nalgebra::DMatrix<f64>`. -/
structure Rect (F : Type) where
  rows : Nat
  cols : Nat
  val : Fin rows → Fin cols → F

/-- `ResidualsValues<Dyn>` (`residuals/values.rs` L14-22): both sides have the
length recorded in `problem_size`. -/
structure Values (F : Type) where
  len : Nat
  val : ResidualsValues F len

/-- `JacobianValues<Dyn>` (`residuals/values.rs` L88-97): both sides are square of
the size recorded in `problem_size`. -/
structure Jacobians (F : Type) where
  len : Nat
  val : JacobianValues F len

/-- The panics of a solve on vectors of any length. -/
inductive DynPanic where
  /-- A panic that can happen with consistent dimensions as well. -/
  | inner (p : Panic)
  /-- nalgebra's or Rust's check of an index. -/
  | index
  /-- nalgebra's check that two operands have fitting shapes. -/
  | shape
  /-- `ResidualsValues::new` (`residuals/values.rs` L29-35). -/
  | residualsLength
  /-- `JacobianValues::new` (`residuals/values.rs` L106-116). -/
  | jacobianShape
  deriving DecidableEq, Repr

/-- The trait `Model<Dyn>` (`model/model_definition.rs` L40-124).  `get_residuals`
and `get_jacobian` call the constructors of `ResidualsValues` and
`JacobianValues`, which may panic. -/
structure Model (F EI EU S : Type) where
  lenProblem : S → Nat
  setIteratives : S → DVec F → S
  getIteratives : S → DVec F
  evaluate : S → S × Except (ModelError EI EU) Unit
  getResiduals : S → Except DynPanic (Values F)
  jacobianProvided : S → Bool
  getJacobian : S → Except DynPanic (S × Except (ModelError EI EU) (Jacobians F))
  getMemory : S → List F
  setMemory : S → List F → S
  displayUnusable : EU → String

/-- `JacobianMatrix<Dyn>` (`solver/jacobian/jacobian_struct.rs` L19-29). -/
structure JacobianMatrix (F : Type) where
  matrix : Option (DMat F)
  inverse : Option (DMat F)
  computeNext : Bool
  approximated : Bool

/-- A row of a table in the log (`solver/log.rs` L151-172), without its number. -/
structure Row (F : Type) where
  value : F
  left : F
  right : F
  error : F
  deriving DecidableEq

/-- One call of a `SolverLog` method (`solver/log.rs` L59-175), see `LogEntry`: the tables hold the largest error and
the rows. -/
inductive Entry (F : Type) where
  | header
  | parameters
  | iteration (iter : Nat) (maxError : F) (rows : List (Row F))
  | damping (maxError : F) (rows : List (Row F))
  | refused
  | jacobian (j : JacobianMatrix F)

/-- The mutable fields of `RootFinder<Dyn>` (`rootfinder.rs` L38-47). -/
structure Solver (F : Type) where
  debug : Bool
  iter : Nat
  log : Option (List (Entry F))
  jac : JacobianMatrix F
  itStep : Option (DVec F)
  resStep : Option (DVec F)
  resCur : Option (DVec F)
  valid : Bool

/-- `jacobian_struct.rs` L48-55, `new`. -/
def JacobianMatrix.new {F : Type} : JacobianMatrix F :=
  { matrix := none, inverse := none, computeNext := true, approximated := false }

/-- `rootfinder.rs` L65-67 and L91-95. -/
def Solver.new {F : Type} : Solver F :=
  { debug := false, iter := 0, log := none, jac := .new, itStep := none, resStep := none, resCur := none, valid := true }

/-- `rootfinder.rs` L144-147, `activate_debug`. -/
def Solver.activateDebug {F : Type} (st : Solver F) : Solver F :=
  { st with debug := true, log := some [.header] }

section
variable {F : Type} [Scalar F] {n : Nat} {EI EU S : Type}

/-- `self.solver_log.as_ref().unwrap().add_…` (`rootfinder.rs` L452-497). -/
def Solver.toLog (st : Solver F) (e : Entry F) : Except DynPanic (Solver F) :=
  match st.log with
  | none => .error (.inner .logUnwrap)
  | some l => .ok { st with log := some (l ++ [e]) }

/-- `if self.debug { self.…_to_log(…) }`. -/
def Solver.logIf (st : Solver F) (e : Entry F) : Except DynPanic (Solver F) :=
  if st.debug then st.toLog e else .ok st

/-- `rootfinder.rs` L411-413 and L452-458; `n` iteratives are configured. -/
def Solver.parametersToLog (n : Nat) (st : Solver F) : Except DynPanic (Solver F) :=
  if st.debug then
    match st.log with
    | none => .error (.inner .logUnwrap)
    | some _ => if n = 0 then .error (.inner .displayEmptyIteratives) else st.toLog .parameters
  else .ok st

/-- The rows of `add_iteration` (`solver/log.rs` L151-172): the iteratives and the errors are zipped, the residuals are
indexed (`residuals/values.rs` L65-74). -/
def rows (x : DVec F) (v : Values F) (e : DVec F) : Except DynPanic (List (Row F)) :=
  if h : min x.len e.len ≤ v.len then
    .ok (List.ofFn fun i : Fin (min x.len e.len) =>
      { value := x.val ⟨i, by omega⟩, left := v.val.left ⟨i, by omega⟩, right := v.val.right ⟨i, by omega⟩
        error := e.val ⟨i, by omega⟩ })
  else .error .index

/-- `residuals/config.rs` L100-116, `evaluate_update_residuals`: zeros of the length
of the values, then one entry for each configured equation. -/
def evaluateUpdate (r : ResConf n) (v : Values F) : Except DynPanic (DVec F) :=
  if h : n ≤ v.len then
    .ok ⟨v.len, fun i => if hi : i.val < n then
      normalization (v.val.left i) (v.val.right i) (r.upd ⟨i, hi⟩) else Scalar.zero⟩
  else .error .index

/-- `residuals/config.rs` L119-135, `evaluate_stopping_residuals`. -/
def evaluateStopping (r : ResConf n) (v : Values F) : Except DynPanic (DVec F) :=
  if h : n ≤ v.len then
    .ok ⟨v.len, fun i => if hi : i.val < n then
      Scalar.abs (normalization (v.val.left i) (v.val.right i) (r.stop ⟨i, hi⟩))
      else Scalar.zero⟩
  else .error .index

/-- `residuals/values.rs` L125-148, `JacobianValues::normalize`: zeros of the size of
the residuals, then the entries of the model's Jacobian. -/
def normalize (j : Jacobians F) (v : Values F) (methods : Fin n → NormalizationMethod) :
    Except DynPanic (DMat F) :=
  if h : j.len ≤ v.len ∧ j.len ≤ n then
    .ok ⟨v.len, fun i k =>
      if hik : i.val < j.len ∧ k.val < j.len then
        derivNormalization (v.val.left i) (v.val.right i) (j.val.left ⟨i, hik.1⟩ ⟨k, hik.2⟩)
          (j.val.right ⟨i, hik.1⟩ ⟨k, hik.2⟩) (methods ⟨i, lt_of_lt_of_le hik.1 h.2⟩)
      else Scalar.zero⟩
  else .error .index

/-- `iteratives/iteratives_base.rs` L56-71, `step_limitations`: zeros of the length of
the values, then one entry for each configured variable. -/
def stepLimitations (iters : Fin n → Iterative F) (x raw : DVec F) :
    Except DynPanic (DVec F) :=
  if h : n ≤ x.len ∧ n ≤ raw.len then
    .ok ⟨x.len, fun i => if hi : i.val < n then
      (iters ⟨i, hi⟩).stepLimitation (x.val i) (raw.val ⟨i, lt_of_lt_of_le hi h.2⟩)
      else Scalar.zero⟩
  else .error .index

/-- `iteratives/iteratives_base.rs` L74-89, `compute_perturbations`.  The variables are
visited in order; `unimplemented!()` for one that has a value comes before the
index check of the first one that has none. -/
def computePerturbations (iters : Fin n → Iterative F) (x : DVec F) :
    Except DynPanic (DVec F) :=
  if h : ∀ i : Fin n, i.val < x.len → (iters i).computePerturbation.isSome then
    if n ≤ x.len then
      .ok ⟨x.len, fun i => if hi : i.val < n then
        (iters ⟨i, hi⟩).computePerturbation.get (h ⟨i, hi⟩ i.isLt) (x.val i)
        else Scalar.zero⟩
    else .error .index
  else .error (.inner .unimplementedPerturbation)

/-- `a - b` of vectors; nalgebra asserts equal lengths. -/
def sub (a b : DVec F) : Except DynPanic (DVec F) :=
  if h : b.len = a.len then .ok ⟨a.len, vsub a.val (fun i => b.val (i.cast h.symm))⟩
  else .error .shape

/-- `-A * v`; nalgebra asserts that the columns of `A` match the length of `v`. -/
def negMulVec (la : (k : Nat) → LinAlg F k) (A : DMat F) (v : DVec F) :
    Except DynPanic (DVec F) :=
  if h : v.len = A.len then
    .ok ⟨A.len, mulVec (la A.len) (mneg A.val) (fun i => v.val (i.cast h.symm))⟩
  else .error .shape

/-- `jacobian_struct.rs` L71-95, `update_jacobian` after setting
`is_current_jacobian_approximated`. -/
def JacobianMatrix.update (la : (k : Nat) → LinAlg F k) (approximated : Bool)
    (j : JacobianMatrix F) (M : DMat F) : JacobianMatrix F × Bool :=
  match (la M.len).inv M.val with
  | some inv => ({ inverse := some ⟨M.len, inv⟩, matrix := some M, computeNext := false,
                   approximated }, true)
  | none => ({ j with matrix := none, inverse := none, approximated }, false)

variable (la : (k : Nat) → LinAlg F k) (c : Config F n) (m : Model F EI EU S)

/-- `rootfinder.rs` L149-156, `evaluate_errors`. -/
def evaluateErrors (s : S) : Except DynPanic (DVec F) := do
  let v ← m.getResiduals s
  evaluateStopping c.res v

/-- `iteration_to_log` and `damping_to_log` under `if self.debug` (`rootfinder.rs` L460-472 and L480-490): the
iteratives and the residuals are read from the model again. -/
def tableToLog (entry : F → List (Row F) → Entry F) (errors : DVec F) (st : Solver F) (s : S) :
    Except DynPanic (Solver F) :=
  if st.debug then do
    let v ← m.getResiduals s
    match st.log with
    | none => .error (.inner .logUnwrap)
    | some _ =>
      let r ← rows (m.getIteratives s) v errors
      st.toLog (entry (amax errors.val) r)
  else .ok st

/-- `jacobian_analytic.rs` L6-39. -/
def analyticJacobian (j : JacobianMatrix F) (s : S) :
    Except DynPanic (JacobianMatrix F × S × Except (SolverInternalError EI EU) Unit) := do
  let v ← m.getResiduals s
  let (s, r) ← m.getJacobian s
  match r with
  | .ok jacs =>
    let M ← normalize jacs v c.res.upd
    match j.update la false M with
    | (j, true) => return (j, s, .ok ())
    | (j, false) => return (j, s, .error .invalidJacobianInverse)
  | .error e => return ({ j with matrix := none, inverse := none }, s, .error (.invalidJacobian e))

/-- `jacobian_finite_diff.rs` L34-36: the reference point with entry `i` perturbed. -/
def perturb (x pert : DVec F) (i : Nat) : Except DynPanic (DVec F × F) :=
  if h : i < x.len ∧ i < pert.len then
    .ok (⟨x.len, fun l => if l = ⟨i, h.1⟩ then x.val ⟨i, h.1⟩ +ᶠ pert.val ⟨i, h.2⟩ else x.val l⟩,
      pert.val ⟨i, h.2⟩)
  else .error .index

/-- `jacobian.set_column(i, &col)`. -/
def setCol (J : DMat F) (i : Nat) (col : DVec F) : Except DynPanic (DMat F) :=
  if h : i < J.len then
    if hc : col.len = J.len then
      .ok ⟨J.len, setColumn J.val ⟨i, h⟩ (fun l => col.val (l.cast hc.symm))⟩
    else .error .shape
  else .error .index

/-- The loop of `jacobian_finite_diff.rs` L32-59. -/
def fdLoop (res : ResConf n) (m : Model F EI EU S) (pert : DVec F) (memoryRef : List F)
    (xRef resRef : DVec F) :
    (k i : Nat) → DMat F → S → Except DynPanic (S × Except (ModelError EI EU) (DMat F))
  | 0, _, J, s => .ok (s, .ok J)
  | k + 1, i, J, s => do
    let (xp, p) ← perturb xRef pert i
    match m.evaluate (m.setIteratives s xp) with
    | (s, .error (.unusable e)) => return (s, .error (.unusable e))
    | (s, _) =>
      let v ← m.getResiduals s
      let resPert ← evaluateUpdate res v
      let diff ← sub resPert resRef
      let J ← setCol J i ⟨diff.len, vdiv diff.val p⟩
      fdLoop res m pert memoryRef xRef resRef k (i + 1) J (m.setMemory s memoryRef)

/-- `jacobian_finite_diff.rs` L64-94. -/
def fdJacobian (j : JacobianMatrix F) (s : S) :
    Except DynPanic (JacobianMatrix F × S × Except (SolverInternalError EI EU) Unit) := do
  let pert ← computePerturbations c.iters (m.getIteratives s)
  let v ← m.getResiduals s
  let resRef ← evaluateUpdate c.res v
  let (s, r) ← fdLoop c.res m pert (m.getMemory s) (m.getIteratives s) resRef (m.lenProblem s) 0
    ⟨pert.len, mzero⟩ s
  match r with
  | .ok J =>
    match j.update la false J with
    | (j, true) => return (j, s, .ok ())
    | (j, false) => return (j, s, .error .invalidJacobianInverse)
  | .error e => return (j, s, .error (.invalidJacobian e))

/-- `rootfinder.rs` L158-184, `compute_jac`. -/
def computeJac (j : JacobianMatrix F) (s : S) :
    Except DynPanic (JacobianMatrix F × S × Except (SolverInternalError EI EU) Unit) := do
  let (j, s, r) ← if m.jacobianProvided s then analyticJacobian la c m j s
    else fdJacobian la c m j s
  match r with
  | .error (.invalidJacobian (.inaccurate _)) => return (j, s, .ok ())
  | r => return (j, s, r)

/-- `rootfinder.rs` L285-298, `compute_next_from_inv_jac`. -/
def computeNext (st : Solver F) (s : S) : Except DynPanic (DVec F) := do
  let v ← m.getResiduals s
  let residuals ← evaluateUpdate c.res v
  match st.jac.inverse with
  | none => .error (.inner .inverseUnwrap)
  | some inv =>
    let raw ← negMulVec la inv residuals
    stepLimitations c.iters (m.getIteratives s) raw

/-- `jacobian_approximation.rs` L9-52, `approximate_jacobian`.  Every formula adds the
matrix to products with all the vectors it takes, so nalgebra accepts exactly the
operands of one common length. -/
def approximateJacobian (j : JacobianMatrix F) (method : UpdateMethod) (ds dy cur : DVec F) :
    Except DynPanic (JacobianMatrix F × Bool) :=
  let matrix := match method with
    | .GreenstadtSecond =>
      match j.inverse, j.matrix with
      | none, _ => .error (.inner .inverseUnwrap)
      | some inv, none =>
        if inv.len = dy.len then .error (.inner .jacobianUnwrap) else .error .shape
      | some inv, some jac =>
        if h : inv.len = jac.len ∧ ds.len = jac.len ∧ dy.len = jac.len then
          let hy := mulVec (la jac.len) (fun a b => inv.val (a.cast h.1.symm) (b.cast h.1.symm))
            (fun i => dy.val (i.cast h.2.2.symm))
          .ok ⟨jac.len, greenstadtSecondJac (la jac.len) jac.val
            (fun i => ds.val (i.cast h.2.1.symm)) (fun i => dy.val (i.cast h.2.2.symm)) hy⟩
        else .error .shape
    | .GreenstadtFirst =>
      match j.matrix with
      | none => .error (.inner .jacobianUnwrap)
      | some jac =>
        if h : ds.len = jac.len ∧ dy.len = jac.len ∧ cur.len = jac.len then
          .ok ⟨jac.len, quasiJac (la jac.len) jac.val (fun i => ds.val (i.cast h.1.symm))
            (fun i => dy.val (i.cast h.2.1.symm)) (fun i => cur.val (i.cast h.2.2.symm))⟩
        else .error .shape
    | .BroydenFirst =>
      match j.matrix with
      | none => .error (.inner .jacobianUnwrap)
      | some jac =>
        if h : ds.len = jac.len ∧ dy.len = jac.len then
          .ok ⟨jac.len, broydenFirstJac (la jac.len) jac.val (fun i => ds.val (i.cast h.1.symm))
            (fun i => dy.val (i.cast h.2.symm))⟩
        else .error .shape
    | .BroydenSecond =>
      match j.matrix with
      | none => .error (.inner .jacobianUnwrap)
      | some jac =>
        if h : ds.len = jac.len ∧ dy.len = jac.len then
          .ok ⟨jac.len, broydenSecondJac (la jac.len) jac.val (fun i => ds.val (i.cast h.1.symm))
            (fun i => dy.val (i.cast h.2.symm))⟩
        else .error .shape
  match (matrix : Except DynPanic (DMat F)) with
  | .error p => .error p
  | .ok M => .ok (j.update la true M)

/-- `jacobian_inverse_approximation.rs` L7-51, `approximate_inv_jacobian`. -/
def approximateInvJacobian (j : JacobianMatrix F) (method : UpdateMethod) (ds dy cur : DVec F) :
    Except DynPanic (JacobianMatrix F) :=
  match j.inverse with
  | none => .error (.inner .inverseUnwrap)
  | some inv =>
    if h : ds.len = inv.len ∧ dy.len = inv.len then
      let L := la inv.len
      let s : Vec F inv.len := fun i => ds.val (i.cast h.1.symm)
      let y : Vec F inv.len := fun i => dy.val (i.cast h.2.symm)
      let next (M : Mat F inv.len) : Except DynPanic (JacobianMatrix F) :=
        .ok { j with matrix := none, inverse := some ⟨inv.len, M⟩, approximated := true }
      match method with
      | .BroydenFirst => next (broydenFirstInv L inv.val s y)
      | .BroydenSecond => next (broydenSecondInv L inv.val s y)
      | .GreenstadtFirst =>
        if hc : cur.len = inv.len then
          next (quasiInv L inv.val s y (fun i => cur.val (i.cast hc.symm)))
        else .error .shape
      | .GreenstadtSecond =>
        next (quasiInv L inv.val s y (mulVec L (matMul L (mtranspose inv.val) inv.val) y))
    else .error .shape

/-- `rootfinder.rs` L210-264, `evaluate_jacobian_quasi_newton_step`. -/
def quasiNewtonJacobian (q : QuasiNewtonMethod) (st : Solver F) (s : S) :
    Except DynPanic (Solver F × S × Except (SolverInternalError EI EU) Unit) := do
  if st.jac.computeNext then
    let (j, s, r) ← computeJac la c m st.jac s
    let st ← ({ st with jac := j } : Solver F).logIf (.jacobian j)
    return (st, s, r)
  else
    match q with
    | .StationaryNewton =>
      let st ← st.logIf (.jacobian st.jac)
      return (st, s, .ok ())
    | .JacobianUpdate method =>
      match st.itStep, st.resStep, st.resCur with
      | some ds, some dy, some cur =>
        let (j, ok) ← approximateJacobian la st.jac method ds dy cur
        let st := { st with jac := j }
        if ok then
          let st ← st.logIf (.jacobian st.jac)
          return (st, s, .ok ())
        else return (st, s, .error .invalidJacobianInverse)
      | _, _, _ => .error (.inner .stepUnwrap)
    | .InverseJacobianUpdate method =>
      match st.itStep, st.resStep, st.resCur with
      | some ds, some dy, some cur =>
        let j ← approximateInvJacobian la st.jac method ds dy cur
        let st ← ({ st with jac := j } : Solver F).logIf (.jacobian j)
        return (st, s, .ok ())
      | _, _, _ => .error (.inner .stepUnwrap)

/-- The Jacobian work of one pass: `rootfinder.rs` L186-202 (first part) and L210-264. -/
def evaluateJacobian (st : Solver F) (s : S) :
    Except DynPanic (Solver F × S × Except (SolverInternalError EI EU) Unit) :=
  match c.params.method with
  | .NewtonRaphson => do
    let (j, s, r) ← computeJac la c m st.jac s
    let st ← ({ st with jac := j } : Solver F).logIf (.jacobian j)
    return (st, s, r)
  | .QuasiNewton q => quasiNewtonJacobian la c m q st s

/-- The step computation selected in the loop (`rootfinder.rs` L186-202, L266-283 and
L423-428). -/
def computeStep (st : Solver F) (s : S) :
    Except DynPanic (Solver F × S × Except (SolverInternalError EI EU) (DVec F)) := do
  let (st, s, r) ← evaluateJacobian la c m st s
  match r with
  | .ok () =>
    let x ← computeNext la c m st s
    return (st, s, .ok x)
  | .error e => return (st, s, .error e)

/-- `rootfinder.rs` L321-323: the damped guess; nalgebra asserts equal lengths. -/
def dampedGuess (current proposed : DVec F) : Except DynPanic (DVec F) :=
  if h : proposed.len = current.len then
    .ok ⟨current.len, Nrf.dampedGuess current.val (fun i => proposed.val (i.cast h.symm))⟩
  else .error .shape

/-- `rootfinder.rs` L300-333, `damping`. -/
def dampingStep (maxError : F) (current proposed errorsNext : DVec F) (st : Solver F) (s : S) :
    Except DynPanic (Solver F × S × DVec F) :=
  if Scalar.lt maxError (amax errorsNext.val) then
    if c.params.method ≠ .NewtonRaphson ∧ st.jac.approximated = true then do
      let st ← ({ st with jac := { st.jac with computeNext := true } } : Solver F).logIf .refused
      return (st, s, errorsNext)
    else do
      let x ← dampedGuess current proposed
      match m.evaluate (m.setIteratives s x) with
      | (_, .error _) => .error (.inner .dampingEvaluateUnwrap)
      | (s, .ok ()) =>
        let errorsNext ← evaluateErrors c m s
        let st ← tableToLog m .damping errorsNext st s
        return (st, s, errorsNext)
  else .ok (st, s, errorsNext)

/-- `rootfinder.rs` L376-384. -/
def storeSteps (st : Solver F) (xNext xCurrent errorsNext errors : DVec F) :
    Except DynPanic (Solver F) :=
  match c.params.method with
  | .NewtonRaphson => .ok st
  | .QuasiNewton .StationaryNewton => .ok st
  | _ => do
    let ds ← sub xNext xCurrent
    let dy ← sub errorsNext errors
    return { st with itStep := some ds, resStep := some dy, resCur := some errorsNext }

/-- `rootfinder.rs` L360-386: `update_model` after a usable evaluation. -/
def finishUpdate (errors current proposed : DVec F) (st : Solver F) (s : S) :
    Except DynPanic (Solver F × S × DVec F) := do
  let errorsNext ← evaluateErrors c m s
  let st ← tableToLog m (.iteration st.iter) errorsNext st s
  let (st, s, errorsNext) ←
    if c.params.damping then
      dampingStep c m (amax errors.val) current proposed errorsNext st s
    else .ok (st, s, errorsNext)
  let st ← storeSteps c st (m.getIteratives s) current errorsNext errors
  return (st, s, errorsNext)

/-- `rootfinder.rs` L335-387, `update_model`. -/
def updateModel (proposed : DVec F) (st : Solver F) (s : S) :
    Except DynPanic (Solver F × S × Except (SolverError EI EU) (DVec F)) := do
  let errors ← evaluateErrors c m s
  let current := m.getIteratives s
  match m.evaluate (m.setIteratives s proposed) with
  | (s, .ok ()) => do
    let (st, s, e) ← finishUpdate c m errors current proposed { st with valid := true } s
    return (st, s, .ok e)
  | (s, .error (.inaccurate _)) => do
    let (st, s, e) ← finishUpdate c m errors current proposed { st with valid := false } s
    return (st, s, .ok e)
  | (s, .error (.unusable e)) =>
    return ({ st with valid := false }, s, .error (.modelEvaluation (.unusable e)))

/-- The body of the `while` loop (`rootfinder.rs` L421-440). -/
def iterate (st : Solver F) (s : S) :
    Except DynPanic (Solver F × S × Except (SolverError EI EU) F) := do
  let (st, s, r) ← computeStep la c m { st with iter := st.iter + 1 } s
  match r with
  | .ok x =>
    let (st, s, r) ← updateModel c m x st s
    match r with
    | .ok errors => return (st, s, .ok (amax errors.val))
    | .error e => return (st, s, .error e)
  | .error e => return (st, s, .error (.jacobian e))

/-- The `while` loop (`rootfinder.rs` L418-441); each pass increases `iter`, so
`max_iter - iter` passes are enough. -/
def loop : (fuel : Nat) → Solver F → S → F →
    Except DynPanic (Solver F × S × Except (SolverError EI EU) F)
  | 0, st, s, e => .ok (st, s, .ok e)
  | fuel + 1, st, s, e =>
    if Scalar.lt c.params.tolerance e && decide (st.iter < c.params.maxIter) then
      match iterate la c m st s with
      | .error p => .error p
      | .ok (st, s, .ok e) => loop fuel st s e
      | .ok (st, s, .error err) => .ok (st, s, .error err)
    else .ok (st, s, .ok e)

/-- The tests after the loop (`rootfinder.rs` L443-449). -/
def finalResult (st : Solver F) (maxError : F) : Except (SolverError EI EU) Unit :=
  if Scalar.lt c.params.tolerance maxError then .error .nonConvergence
  else if st.valid then .ok ()
  else .error .finalEvaluation

/-- `rootfinder.rs` L408-449. -/
def solveFrom (st : Solver F) (s : S) :
    Except DynPanic (Solver F × S × Except (SolverError EI EU) Unit) := do
  let errors ← evaluateErrors c m s
  let st ← st.parametersToLog n
  let st ← tableToLog m (.iteration st.iter) errors st s
  let (st, s, r) ← loop la c m (c.params.maxIter - st.iter) st s (amax errors.val)
  match r with
  | .ok maxError => return (st, s, finalResult c st maxError)
  | .error e => return (st, s, .error e)

/-- `rootfinder.rs` L390-450, `solve`. -/
def solve (st : Solver F) (s : S) :
    Except DynPanic (Solver F × S × Except (SolverError EI EU) Unit) :=
  match m.evaluate (m.setIteratives s ⟨n, c.guess⟩) with
  | (s, .error (.unusable e)) =>
    .ok (st, s, .error (.modelInitialEvaluation (m.displayUnusable e)))
  | (s, _) => solveFrom la c m st s

end

/-- State of the function adapters with dynamic vectors (`model/model_from_func.rs`
L31-37 and L118-125); `size` is the field `problem_size`, fixed by `new`. -/
structure AdapterState (F : Type) where
  size : Nat
  inputs : DVec F
  left : DVec F
  right : DVec F

section
variable {F : Type} [Scalar F]

/-- `ResidualsValues::new` (`residuals/values.rs` L28-45). -/
def Values.new (left right : DVec F) : Except DynPanic (Values F) :=
  if h : left.len = right.len then
    .ok ⟨left.len, { left := left.val, right := fun i => right.val (i.cast h) }⟩
  else .error .residualsLength

/-- `JacobianValues::new` (`residuals/values.rs` L105-123) with a zero right side of the
given size (`model_from_func.rs` L178-183). -/
def Jacobians.ofLeft (left : Rect F) (size : Nat) : Except DynPanic (Jacobians F) :=
  if h : left.rows = size ∧ left.cols = size then
    .ok ⟨size, { left := fun i j => left.val (i.cast h.1.symm) (j.cast h.2.symm),
                 right := mzero }⟩
  else .error .jacobianShape

/-- `new` of the adapters (`model_from_func.rs` L39-56 and L127-146). -/
def AdapterState.new [HasSpecials F] (size : Nat) : AdapterState F :=
  { size, inputs := ⟨size, fun _ => Scalar.zero⟩, left := ⟨size, fun _ => HasSpecials.nan⟩,
    right := ⟨size, fun _ => Scalar.zero⟩ }

/-- `UserModelFromFunction` (`model/model_from_func.rs` L58-82) and
`UserModelFromClosure` (`model/model_from_closure.rs` L57-81).  The default
`get_jacobian` has zero sides of the length of the iteratives
(`model_definition.rs` L104-108). -/
def fromFunction (f : DVec F → DVec F) : Model F Empty Empty (AdapterState F) where
  lenProblem s := s.size
  setIteratives s x := { s with inputs := x }
  getIteratives s := s.inputs
  evaluate s := ({ s with left := f s.inputs }, .ok ())
  getResiduals s := Values.new s.left s.right
  jacobianProvided _ := false
  getJacobian s := .ok (s, .ok ⟨s.inputs.len, { left := mzero, right := mzero }⟩)
  getMemory _ := []
  setMemory s _ := s
  displayUnusable e := nomatch e

/-- `UserModelFromFunctionAndJacobian` (`model/model_from_func.rs` L148-184) and
`UserModelFromClosureAndJacobian` (`model/model_from_closure.rs` L148-184). -/
def fromFunctionAndJacobian (f : DVec F → DVec F) (jac : DVec F → Rect F) :
    Model F Empty Empty (AdapterState F) where
  lenProblem s := s.size
  setIteratives s x := { s with inputs := x }
  getIteratives s := s.inputs
  evaluate s := ({ s with left := f s.inputs }, .ok ())
  getResiduals s := Values.new s.left s.right
  jacobianProvided _ := true
  getJacobian s :=
    match Jacobians.ofLeft (jac s.inputs) s.size with
    | .error p => .error p
    | .ok j => .ok (s, .ok j)
  getMemory _ := []
  setMemory s _ := s
  displayUnusable e := nomatch e

end
end Dyn
end Nrf
