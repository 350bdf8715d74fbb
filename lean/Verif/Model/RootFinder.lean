import Verif.Model.Log

/-!
# The solver: `solver/rootfinder.rs`

`Solver` holds the fields of `RootFinder` that change during a solve.  Every
function returns `Except Panic _`; a Rust panic is `.error`.
-/

namespace Nrf

/-- The mutable fields of `RootFinder` (`rootfinder.rs` L38-47). -/
structure Solver (F : Type) (n : Nat) where
  debug : Bool
  iter : Nat
  log : Option (List (LogEntry F n))
  jac : JacobianMatrix F n
  itStep : Option (Vec F n)
  resStep : Option (Vec F n)
  resCur : Option (Vec F n)
  valid : Bool

/-- The mutable fields set by `RootFinder::new` (`rootfinder.rs` L65-67, L91-95). -/
def Solver.new {F : Type} {n : Nat} : Solver F n :=
  { debug := false, iter := 0, log := none, jac := .new, itStep := none, resStep := none,
    resCur := none, valid := true }

/-- `rootfinder.rs` L144-147, `activate_debug`. -/
def Solver.activateDebug {F : Type} {n : Nat} (st : Solver F n) : Solver F n :=
  { st with debug := true, log := some [.header] }

section
variable {F : Type} [Scalar F] {n : Nat} {EI EU S : Type}

/-- `self.solver_log.as_ref().unwrap().add_…` (`rootfinder.rs` L452-497). -/
def Solver.toLog (st : Solver F n) (e : LogEntry F n) : Except Panic (Solver F n) :=
  match st.log with
  | none => .error .logUnwrap
  | some l => .ok { st with log := some (l ++ [e]) }

/-- `if self.debug { self.…_to_log(…) }`. -/
def Solver.logIf (st : Solver F n) (e : LogEntry F n) : Except Panic (Solver F n) :=
  if st.debug then st.toLog e else .ok st

/-- `rootfinder.rs` L411-413 and L452-458: `parameters_to_log` under `if self.debug`.
The arguments are built first; `Display for Iteratives` indexes element 0
(`iteratives_base.rs` L97) and panics when there is none. -/
def Solver.parametersToLog (st : Solver F n) : Except Panic (Solver F n) :=
  if st.debug then
    match st.log with
    | none => .error .logUnwrap
    | some _ => if n = 0 then .error .displayEmptyIteratives else st.toLog .parameters
  else .ok st

variable (c : Config F n) (m : UserModel F n EI EU S)

/-- `rootfinder.rs` L149-156, `evaluate_errors`. -/
def evaluateErrors (s : S) : Vec F n := c.res.evaluateStopping (m.getResiduals s)

/-- `rootfinder.rs` L158-184, `compute_jac`. -/
def computeJac (j : JacobianMatrix F n) (s : S) :
    Except Panic (JacobianMatrix F n × S × Except (SolverInternalError EI EU) Unit) :=
  match (if m.jacobianProvided s then .ok (analyticJacobian c.la c.res m j s)
         else fdJacobian c.la c.res c.iters m j s) with
  | .error p => .error p
  | .ok (j', s', .ok ()) => .ok (j', s', .ok ())
  | .ok (j', s', .error (.invalidJacobian (.inaccurate _))) => .ok (j', s', .ok ())
  | .ok (j', s', .error e) => .ok (j', s', .error e)

/-- `rootfinder.rs` L285-298, `compute_next_from_inv_jac`. -/
def computeNext (st : Solver F n) (s : S) : Except Panic (Vec F n) :=
  let residuals := c.res.evaluateUpdate (m.getResiduals s)
  match st.jac.inverse with
  | none => .error .inverseUnwrap
  | some inv =>
    let rawStep := mulVec c.la (mneg inv) residuals
    .ok (stepLimitations c.iters (m.getIteratives s) rawStep)

/-- `rootfinder.rs` L186-202, `compute_newton_raphson_step`. -/
def newtonRaphsonStep (st : Solver F n) (s : S) :
    Except Panic (Solver F n × S × Except (SolverInternalError EI EU) (Vec F n)) := do
  let (j, s, r) ← computeJac c m st.jac s
  let st ← ({ st with jac := j } : Solver F n).logIf (.jacobian j)
  match r with
  | .ok () =>
    let x ← computeNext c m st s
    return (st, s, .ok x)
  | .error e => return (st, s, .error e)

/-- `rootfinder.rs` L210-264, `evaluate_jacobian_quasi_newton_step`. -/
def quasiNewtonJacobian (q : QuasiNewtonMethod) (st : Solver F n) (s : S) :
    Except Panic (Solver F n × S × Except (SolverInternalError EI EU) Unit) := do
  if st.jac.computeNext then
    let (j, s, r) ← computeJac c m st.jac s
    let st ← ({ st with jac := j } : Solver F n).logIf (.jacobian j)
    return (st, s, r)
  else
    match q with
    | .StationaryNewton =>
      let st ← st.logIf (.jacobian st.jac)
      return (st, s, .ok ())
    | .JacobianUpdate method =>
      match st.itStep, st.resStep, st.resCur with
      | some ds, some dy, some cur =>
        let (j, ok) ← approximateJacobian c.la st.jac method ds dy cur
        let st := { st with jac := j }
        if ok then
          let st ← st.logIf (.jacobian st.jac)
          return (st, s, .ok ())
        else
          return (st, s, .error .invalidJacobianInverse)
      | _, _, _ => .error .stepUnwrap
    | .InverseJacobianUpdate method =>
      match st.itStep, st.resStep, st.resCur with
      | some ds, some dy, some cur =>
        let j ← approximateInvJacobian c.la st.jac method ds dy cur
        let st ← ({ st with jac := j } : Solver F n).logIf (.jacobian j)
        return (st, s, .ok ())
      | _, _, _ => .error .stepUnwrap

/-- `rootfinder.rs` L266-283, `compute_quasi_newton_step`. -/
def quasiNewtonStep (q : QuasiNewtonMethod) (st : Solver F n) (s : S) :
    Except Panic (Solver F n × S × Except (SolverInternalError EI EU) (Vec F n)) := do
  let (st, s, r) ← quasiNewtonJacobian c m q st s
  match r with
  | .ok () =>
    let x ← computeNext c m st s
    return (st, s, .ok x)
  | .error e => return (st, s, .error e)

/-- `rootfinder.rs` L321-323: the damped guess. -/
def dampedGuess (current proposed : Vec F n) : Vec F n :=
  let factor : F := Scalar.one /ᶠ Scalar.two
  vadd (vscale current (Scalar.one -ᶠ factor)) (vscale proposed factor)

/-- `rootfinder.rs` L300-333, `damping`; returns `errors_next` as well. -/
def dampingStep (maxError : F) (current proposed errorsNext : Vec F n) (st : Solver F n) (s : S) :
    Except Panic (Solver F n × S × Vec F n) :=
  if Scalar.lt maxError (amax errorsNext) then
    if c.params.method ≠ .NewtonRaphson ∧ st.jac.approximated = true then do
      let st ← ({ st with jac := st.jac.force } : Solver F n).logIf .refused
      return (st, s, errorsNext)
    else
      match m.evaluate (m.setIteratives s (dampedGuess current proposed)) with
      | (_, .error _) => .error .dampingEvaluateUnwrap
      | (s, .ok ()) => do
        let errorsNext := evaluateErrors c m s
        let st ← st.logIf (.damping (m.getIteratives s) (m.getResiduals s) errorsNext)
        return (st, s, errorsNext)
  else .ok (st, s, errorsNext)

/-- `rootfinder.rs` L376-384: the steps kept for the quasi-Newton updates. -/
def storeSteps (method : ResolutionMethod) (st : Solver F n)
    (xNext xCurrent errorsNext errors : Vec F n) : Solver F n :=
  match method with
  | .NewtonRaphson => st
  | .QuasiNewton .StationaryNewton => st
  | _ => { st with
      itStep := some (vsub xNext xCurrent)
      resStep := some (vsub errorsNext errors)
      resCur := some errorsNext }

/-- `rootfinder.rs` L360-386: the part of `update_model` after a usable evaluation.
`errors` and `current` were read before the step. -/
def finishUpdate (errors current proposed : Vec F n) (st : Solver F n) (s : S) :
    Except Panic (Solver F n × S × Vec F n) := do
  let errorsNext := evaluateErrors c m s
  let st ← st.logIf (.iteration st.iter (m.getIteratives s) (m.getResiduals s) errorsNext)
  let (st, s, errorsNext) ←
    if c.params.damping then dampingStep c m (amax errors) current proposed errorsNext st s
    else .ok (st, s, errorsNext)
  return (storeSteps c.params.method st (m.getIteratives s) current errorsNext errors, s,
    errorsNext)

/-- `rootfinder.rs` L335-387, `update_model`. -/
def updateModel (proposed : Vec F n) (st : Solver F n) (s : S) :
    Except Panic (Solver F n × S × Except (SolverError EI EU) (Vec F n)) :=
  let errors := evaluateErrors c m s
  let current := m.getIteratives s
  match m.evaluate (m.setIteratives s proposed) with
  | (s, .ok ()) => do
    let (st, s, e) ← finishUpdate c m errors current proposed { st with valid := true } s
    return (st, s, .ok e)
  | (s, .error (.inaccurate _)) => do
    let (st, s, e) ← finishUpdate c m errors current proposed { st with valid := false } s
    return (st, s, .ok e)
  | (s, .error (.unusable e)) =>
    .ok ({ st with valid := false }, s, .error (.modelEvaluation (.unusable e)))

/-- The step computation selected in the loop (`rootfinder.rs` L423-428). -/
def computeStep (st : Solver F n) (s : S) :
    Except Panic (Solver F n × S × Except (SolverInternalError EI EU) (Vec F n)) :=
  match c.params.method with
  | .NewtonRaphson => newtonRaphsonStep c m st s
  | .QuasiNewton q => quasiNewtonStep c m q st s

/-- The body of the `while` loop (`rootfinder.rs` L421-440); `.ok e` is the new
`max_error`, `.error` an early `return Err(..)`. -/
def iterate (st : Solver F n) (s : S) :
    Except Panic (Solver F n × S × Except (SolverError EI EU) F) := do
  let (st, s, r) ← computeStep c m { st with iter := st.iter + 1 } s
  match r with
  | .ok x =>
    let (st, s, r) ← updateModel c m x st s
    match r with
    | .ok errors => return (st, s, .ok (amax errors))
    | .error e => return (st, s, .error e)
  | .error e => return (st, s, .error (.jacobian e))

/-- The condition of the `while` loop (`rootfinder.rs` L418-419). -/
def continues (st : Solver F n) (maxError : F) : Bool :=
  Scalar.lt c.params.tolerance maxError && decide (st.iter < c.params.maxIter)

/-- The `while` loop (`rootfinder.rs` L418-441).  Every pass increases `iter`, so
`max_iter - iter` passes are enough; `loop_eq` (in `Proofs`) shows that the fuel
never cuts the loop short. -/
def loop : (fuel : Nat) → Solver F n → S → F →
    Except Panic (Solver F n × S × Except (SolverError EI EU) F)
  | 0, st, s, e => .ok (st, s, .ok e)
  | fuel + 1, st, s, e =>
    if continues c st e then
      match iterate c m st s with
      | .error p => .error p
      | .ok (st, s, .ok e) => loop fuel st s e
      | .ok (st, s, .error err) => .ok (st, s, .error err)
    else .ok (st, s, .ok e)

/-- The tests after the loop (`rootfinder.rs` L443-449). -/
def finalResult (st : Solver F n) (maxError : F) : Except (SolverError EI EU) Unit :=
  if Scalar.lt c.params.tolerance maxError then .error .nonConvergence
  else if st.valid then .ok ()
  else .error .finalEvaluation

/-- `rootfinder.rs` L408-449: `solve` after a usable first evaluation. -/
def solveFrom (st : Solver F n) (s : S) :
    Except Panic (Solver F n × S × Except (SolverError EI EU) Unit) := do
  let errors := evaluateErrors c m s
  let st ← st.parametersToLog
  let st ← st.logIf (.iteration st.iter (m.getIteratives s) (m.getResiduals s) errors)
  let (st, s, r) ← loop c m (c.params.maxIter - st.iter) st s (amax errors)
  match r with
  | .ok maxError => return (st, s, finalResult c st maxError)
  | .error e => return (st, s, .error e)

/-- `rootfinder.rs` L390-450, `solve`. -/
def solve (st : Solver F n) (s : S) :
    Except Panic (Solver F n × S × Except (SolverError EI EU) Unit) :=
  match m.evaluate (m.setIteratives s c.guess) with
  | (s, .error (.unusable e)) =>
    .ok (st, s, .error (.modelInitialEvaluation (m.displayUnusable e)))
  | (s, _) => solveFrom c m st s

end
end Nrf
