import Verif.Model.Text
import Verif.Model.RootFinder

/-!
# The solver as a program: effects in the order of the source

`RootFinder.lean` gives the result of a solve as a function.  Here the same code is transcribed
statement by statement as a program which changes the fields of `self`, the user's model and the
files, and which can stop in the middle:

* a method of the user's model can panic,
* opening the log file or writing to it can fail, after a part of the text has reached the file
  (`log.rs` L60, L82, L90, L91: `unwrap`),
* every panic of the crate itself.

What has been done before a panic stays done: the state after it is part of the result.  Files are
lists of characters; a failed write leaves a prefix of the text, cut between two characters.  The
user's model does not touch the log file.
-/

namespace Nrf.Program

/-- The methods of the trait `Model` (`model/model_definition.rs` L40-124). -/
inductive Method
  | lenProblem | setIteratives | getIteratives | evaluate | getResiduals | jacobianProvided
  | getJacobian | getMemory | setMemory
deriving DecidableEq

/-- Why a program stops. -/
inductive Abort
  /-- a panic of the crate -/
  | code (p : Panic)
  /-- a panic in a method of the user's model -/
  | user (k : Method)
  /-- the `unwrap` of a failed file operation -/
  | io
deriving DecidableEq

/-- The surroundings.  `user k s`: the method `k` called on the model in state `s` panics and leaves this
state.  `io k`: the file operation number `k` fails after this number of characters. -/
structure Env (S : Type) where
  user : Method → S → Option S
  io : Nat → Option Nat

/-- Nothing fails. -/
def Env.calm {S : Type} : Env S := ⟨fun _ _ => none, fun _ => none⟩

/-- The fields of `RootFinder` which change (`rootfinder.rs` L38-47; of the log, its path: `log.rs` L16-18),
the user's model, the files, and the number of file operations done. -/
structure World (F : Type) (n : Nat) (S : Type) where
  debug : Bool
  iter : Nat
  log : Option String
  jac : JacobianMatrix F n
  itStep : Option (Vec F n)
  resStep : Option (Vec F n)
  resCur : Option (Vec F n)
  valid : Bool
  model : S
  files : String → Option (List Char)
  ops : Nat

/-- What does not change: the configuration, the user's model, the surroundings, the texts of numbers,
matrices and iteratives. -/
structure Setup (F : Type) (n : Nat) (EI EU S : Type) where
  c : Config F n
  m : UserModel F n EI EU S
  env : Env S
  num : F → List Char
  mat : Mat F n → List Char
  fd : Bool
  its : List (List Char)

/-- A program: the state survives a panic. -/
abbrev Prog (F : Type) (n : Nat) (S : Type) := EStateM Abort (World F n S)

section
variable {F : Type} [Scalar F] {n : Nat} {EI EU S : Type} (P : Setup F n EI EU S)

/-- Call a `&self` method of the user's model. -/
def ask {α : Type} (k : Method) (g : S → α) : Prog F n S α := do
  let w ← get
  match P.env.user k w.model with
  | some s => set { w with model := s }; throw (.user k)
  | none => return g w.model

/-- Call a `&mut self` method of the user's model. -/
def call {α : Type} (k : Method) (g : S → S × α) : Prog F n S α := do
  let w ← get
  match P.env.user k w.model with
  | some s => set { w with model := s }; throw (.user k)
  | none => set { w with model := (g w.model).1 }; return (g w.model).2

def setIteratives (x : Vec F n) : Prog F n S Unit := call P .setIteratives fun s => (P.m.setIteratives s x, ())
def evaluate : Prog F n S (Except (ModelError EI EU) Unit) := call P .evaluate P.m.evaluate
def getJacobian : Prog F n S (Except (ModelError EI EU) (JacobianValues F n)) := call P .getJacobian P.m.getJacobian
def setMemory (l : List F) : Prog F n S Unit := call P .setMemory fun s => (P.m.setMemory s l, ())

/-- Contents of a file after a change. -/
def setFile (files : String → Option (List Char)) (path : String) (t : List Char) : String → Option (List Char) :=
  fun q => if q = path then some t else files q

/-- `log.rs` L89-92, `add_content`: opening fails when there is no file, for it is not created. -/
def addContent (path : String) (t : List Char) : Prog F n S Unit := do
  let w ← get
  match w.files path with
  | none => throw .io
  | some old =>
    match P.env.io w.ops with
    | none => set { w with ops := w.ops + 1, files := setFile w.files path (old ++ t) }
    | some j => do
      set { w with ops := w.ops + 1, files := setFile w.files path (old ++ t.take j) }
      throw .io

/-- `log.rs` L59-87, `SolverLog::new`: create or empty the file, write the header. -/
def newLog (path : String) : Prog F n S Unit := do
  let w ← get
  match P.env.io w.ops with
  | some _ => do
    set { w with ops := w.ops + 1 }
    throw .io
  | none => do
    set { w with ops := w.ops + 1, files := setFile w.files path [] }
    addContent P path (LogEntry.text P.num P.mat P.c P.fd P.its (.header : LogEntry F n))

/-- `rootfinder.rs` L144-147, `activate_debug`. -/
def activateDebug (path : String) : Prog F n S Unit := do
  modify fun w => { w with debug := true }
  newLog P path
  modify fun w => { w with log := some path }

/-- `self.solver_log.as_ref().unwrap()`. -/
def unwrapLog : Prog F n S String := do
  match (← get).log with
  | none => throw (.code .logUnwrap)
  | some path => return path

/-- `log.rs` L136-175, `add_iteration`. -/
def addIteration (path : String) (x : Vec F n) (r : ResidualsValues F n) (e : Vec F n) : Prog F n S Unit := do
  addContent P path (lit "Max error: " ++ P.num (amax e) ++ lit "\n\n")
  addContent P path (separationLine ++ lit "\n")
  addContent P path (titleLine ++ lit "\n")
  addContent P path (separationLine ++ lit "\n")
  (List.finRange n).forM fun i =>
    addContent P path (logRow P.num i.val (x i) (r.left i) (r.right i) (e i) ++ lit "\n" ++ (separationLine ++ lit "\n"))
  addContent P path (lit "\n")

/-- `rootfinder.rs` L452-458, `parameters_to_log`, with `add_parameters` (`log.rs` L94-103).  The texts are made
before the first write; the one of the iteratives looks at element 0 (`iteratives_base.rs` L97). -/
def parametersToLog : Prog F n S Unit := do
  let path ← unwrapLog
  if n = 0 then throw (.code .displayEmptyIteratives)
  addContent P path (P.c.params.text P.num)
  addContent P path (iterativesText P.fd P.its)
  addContent P path P.c.res.text

/-- `rootfinder.rs` L460-472, `iteration_to_log`, with `add_new_iteration` (`log.rs` L119-134). -/
def iterationToLog (errors : Vec F n) : Prog F n S Unit := do
  let iteratives ← ask P .getIteratives P.m.getIteratives
  let residuals ← ask P .getResiduals P.m.getResiduals
  let path ← unwrapLog
  addContent P path ((separationIter ++ lit "\n\n") ++ (lit "Iteration: " ++ natText (← get).iter ++ lit "\n\n"))
  addIteration P path iteratives residuals errors

/-- `rootfinder.rs` L474-478, `recompute_jacobian_to_log`. -/
def recomputeJacobianToLog : Prog F n S Unit := do
  let path ← unwrapLog
  addContent P path (lit "Iteration refused, the jacobian will be recomputed at the next iteration\n\n")

/-- `rootfinder.rs` L480-490, `damping_to_log`, with `add_damping` (`log.rs` L105-118). -/
def dampingToLog (errors : Vec F n) : Prog F n S Unit := do
  let iteratives ← ask P .getIteratives P.m.getIteratives
  let residuals ← ask P .getResiduals P.m.getResiduals
  let path ← unwrapLog
  addContent P path (lit "Damping activated !\n\n")
  addIteration P path iteratives residuals errors

/-- `rootfinder.rs` L492-497, `jac_to_log`. -/
def jacToLog : Prog F n S Unit := do
  let path ← unwrapLog
  addContent P path ((← get).jac.text P.mat)

/-- `if self.debug { … }`. -/
def ifDebug (p : Prog F n S Unit) : Prog F n S Unit := do
  if (← get).debug then p

/-- Change the cached Jacobian. -/
def onJac (f : JacobianMatrix F n → JacobianMatrix F n) : Prog F n S Unit :=
  modify fun w => { w with jac := f w.jac }

/-- `jacobian_struct.rs` L71-87, `update_jacobian`; `false` for `Err(NonInvertibleJacobian)`. -/
def updateJacobian (matrix : Mat F n) : Prog F n S Bool := do
  match P.c.la.inv matrix with
  | some inverse =>
    onJac fun j => { j with inverse := some inverse }
    onJac fun j => { j with matrix := some matrix }
    onJac fun j => { j with computeNext := false }
    return true
  | none =>
    onJac fun j => { j with matrix := none }
    onJac fun j => { j with inverse := none }
    return false

/-- `jacobian_struct.rs` L89-95 and L97-103. -/
def updateJacobianWith (approximated : Bool) (matrix : Mat F n) : Prog F n S Bool := do
  onJac fun j => { j with approximated := approximated }
  updateJacobian P matrix

/-- `rootfinder.rs` L149-156, `evaluate_errors`. -/
def evaluateErrors : Prog F n S (Vec F n) := do
  let residuals ← ask P .getResiduals P.m.getResiduals
  return P.c.res.evaluateStopping residuals

/-- `jacobian_analytic.rs` L6-39. -/
def fromAnalyticalFunction : Prog F n S (Except (SolverInternalError EI EU) Unit) := do
  let values ← ask P .getResiduals P.m.getResiduals
  let jacobians ← getJacobian P
  match jacobians with
  | .ok valid =>
    if ← updateJacobianWith P false (valid.normalize values P.c.res.upd) then return .ok ()
    else return .error .invalidJacobianInverse
  | .error e =>
    onJac fun j => { j with matrix := none }
    onJac fun j => { j with inverse := none }
    return .error (.invalidJacobian e)

/-- The loop of `jacobian_finite_diff.rs` L32-59: `k` columns to do, the next one is `i`. -/
def columns (pert : Vec F n) (memoryRef : List F) (xRef resRef : Vec F n) :
    (k i : Nat) → Mat F n → Prog F n S (Except (ModelError EI EU) (Mat F n))
  | 0, _, J => return .ok J
  | k + 1, i, J => do
    if h : i < n then
      setIteratives P fun l => if l = ⟨i, h⟩ then xRef ⟨i, h⟩ +ᶠ pert ⟨i, h⟩ else xRef l
      match ← evaluate P with
      | .error (.unusable e) => return .error (.unusable e)
      | _ =>
        let residuals ← ask P .getResiduals P.m.getResiduals
        let col := vdiv (vsub (P.c.res.evaluateUpdate residuals) resRef) (pert ⟨i, h⟩)
        setMemory P memoryRef
        columns pert memoryRef xRef resRef k (i + 1) (setColumn J ⟨i, h⟩ col)
    else throw (.code .indexOutOfBounds)

/-- `jacobian_finite_diff.rs` L64-94 with L14-31. -/
def fromFiniteDifference : Prog F n S (Except (SolverInternalError EI EU) Unit) := do
  let values ← ask P .getIteratives P.m.getIteratives
  match computePerturbations P.c.iters values with
  | none => throw (.code .unimplementedPerturbation)
  | some pert =>
    let problemSize ← ask P .lenProblem P.m.lenProblem
    let memoryRef ← ask P .getMemory P.m.getMemory
    let iterativesRef ← ask P .getIteratives P.m.getIteratives
    let residuals ← ask P .getResiduals P.m.getResiduals
    match ← columns P pert memoryRef iterativesRef (P.c.res.evaluateUpdate residuals) problemSize 0 mzero with
    | .ok J =>
      if ← updateJacobianWith P false J then return .ok ()
      else return .error .invalidJacobianInverse
    | .error e => return .error (.invalidJacobian e)

/-- `rootfinder.rs` L158-184, `compute_jac`. -/
def computeJac : Prog F n S (Except (SolverInternalError EI EU) Unit) := do
  let provided ← ask P .jacobianProvided P.m.jacobianProvided
  let r ← if provided then fromAnalyticalFunction P else fromFiniteDifference P
  match r with
  | .ok () => return .ok ()
  | .error (.invalidJacobian (.inaccurate _)) => return .ok ()
  | .error e => return .error e

/-- `rootfinder.rs` L285-298, `compute_next_from_inv_jac`. -/
def computeNextFromInvJac : Prog F n S (Vec F n) := do
  let values ← ask P .getResiduals P.m.getResiduals
  let residuals := P.c.res.evaluateUpdate values
  match (← get).jac.inverse with
  | none => throw (.code .inverseUnwrap)
  | some inverse =>
    let iterValues ← ask P .getIteratives P.m.getIteratives
    return stepLimitations P.c.iters iterValues (mulVec P.c.la (mneg inverse) residuals)

/-- `rootfinder.rs` L186-202, `compute_newton_raphson_step`. -/
def newtonRaphson : Prog F n S (Except (SolverInternalError EI EU) (Vec F n)) := do
  let r ← computeJac P
  ifDebug (jacToLog P)
  match r with
  | .ok () => return .ok (← computeNextFromInvJac P)
  | .error e => return .error e

/-- `unwrap` of an option. -/
def unwrapOr {α : Type} (p : Panic) : Option α → Prog F n S α
  | none => throw (.code p)
  | some a => return a

/-- `jacobian_approximation.rs` L23-49: the next matrix. -/
def nextJacobian (itStep resStep resCur : Vec F n) : UpdateMethod → Prog F n S (Mat F n)
  | .BroydenFirst => do
    return broydenFirstJac P.c.la (← unwrapOr .jacobianUnwrap (← get).jac.matrix) itStep resStep
  | .BroydenSecond => do
    return broydenSecondJac P.c.la (← unwrapOr .jacobianUnwrap (← get).jac.matrix) itStep resStep
  | .GreenstadtFirst => do
    return quasiJac P.c.la (← unwrapOr .jacobianUnwrap (← get).jac.matrix) itStep resStep resCur
  | .GreenstadtSecond => do
    let c := mulVec P.c.la (← unwrapOr .inverseUnwrap (← get).jac.inverse) resStep
    return greenstadtSecondJac P.c.la (← unwrapOr .jacobianUnwrap (← get).jac.matrix) itStep resStep c

/-- `jacobian_approximation.rs` L9-52, `approximate_jacobian`. -/
def approximateJacobian (method : UpdateMethod) (itStep resStep resCur : Vec F n) : Prog F n S Bool := do
  let jacNext ← nextJacobian P itStep resStep resCur method
  updateJacobianWith P true jacNext

/-- `jacobian_inverse_approximation.rs` L20-48: the next inverse. -/
def nextInverse (itStep resStep resCur : Vec F n) : UpdateMethod → Prog F n S (Mat F n)
  | .BroydenFirst => do
    return broydenFirstInv P.c.la (← unwrapOr .inverseUnwrap (← get).jac.inverse) itStep resStep
  | .BroydenSecond => do
    return broydenSecondInv P.c.la (← unwrapOr .inverseUnwrap (← get).jac.inverse) itStep resStep
  | .GreenstadtFirst => do
    return quasiInv P.c.la (← unwrapOr .inverseUnwrap (← get).jac.inverse) itStep resStep resCur
  | .GreenstadtSecond => do
    let inv ← unwrapOr .inverseUnwrap (← get).jac.inverse
    return quasiInv P.c.la inv itStep resStep (mulVec P.c.la (matMul P.c.la (mtranspose inv) inv) resStep)

/-- `jacobian_inverse_approximation.rs` L7-51, `approximate_inv_jacobian`, with `update_inverse`
(`jacobian_struct.rs` L108-112). -/
def approximateInvJacobian (method : UpdateMethod) (itStep resStep resCur : Vec F n) : Prog F n S Unit := do
  let invNext ← nextInverse P itStep resStep resCur method
  onJac fun j => { j with matrix := none }
  onJac fun j => { j with inverse := some invNext }
  onJac fun j => { j with approximated := true }

/-- `rootfinder.rs` L210-264, `evaluate_jacobian_quasi_newton_step`. -/
def quasiNewtonJacobian (q : QuasiNewtonMethod) : Prog F n S (Except (SolverInternalError EI EU) Unit) := do
  if (← get).jac.computeNext then
    match ← computeJac P with
    | .ok () => ifDebug (jacToLog P); return .ok ()
    | .error e => ifDebug (jacToLog P); return .error e
  else
    match q with
    | .StationaryNewton => ifDebug (jacToLog P); return .ok ()
    | .JacobianUpdate method =>
      let itStep ← unwrapOr .stepUnwrap (← get).itStep
      let resStep ← unwrapOr .stepUnwrap (← get).resStep
      let resCur ← unwrapOr .stepUnwrap (← get).resCur
      if ← approximateJacobian P method itStep resStep resCur then
        ifDebug (jacToLog P)
        return .ok ()
      else return .error .invalidJacobianInverse
    | .InverseJacobianUpdate method =>
      let itStep ← unwrapOr .stepUnwrap (← get).itStep
      let resStep ← unwrapOr .stepUnwrap (← get).resStep
      let resCur ← unwrapOr .stepUnwrap (← get).resCur
      approximateInvJacobian P method itStep resStep resCur
      ifDebug (jacToLog P)
      return .ok ()

/-- `rootfinder.rs` L266-283, `compute_quasi_newton_step`. -/
def quasiNewton (q : QuasiNewtonMethod) : Prog F n S (Except (SolverInternalError EI EU) (Vec F n)) := do
  match ← quasiNewtonJacobian P q with
  | .ok () => return .ok (← computeNextFromInvJac P)
  | .error e => return .error e

/-- `rootfinder.rs` L300-333, `damping`; the new value of `errors_next`. -/
def damping (maxError : F) (current proposed errorsNext : Vec F n) : Prog F n S (Vec F n) := do
  if Scalar.lt maxError (amax errorsNext) then
    if P.c.params.method ≠ .NewtonRaphson ∧ (← get).jac.approximated = true then
      onJac fun j => { j with computeNext := true }
      ifDebug (recomputeJacobianToLog P)
      return errorsNext
    else
      let factor : F := Scalar.one /ᶠ Scalar.two
      setIteratives P (vadd (vscale current (Scalar.one -ᶠ factor)) (vscale proposed factor))
      match ← evaluate P with
      | .error _ => throw (.code .dampingEvaluateUnwrap)
      | .ok () =>
        let errorsNext ← evaluateErrors P
        ifDebug (dampingToLog P errorsNext)
        return errorsNext
  else return errorsNext

/-- `rootfinder.rs` L376-384: the steps kept for the quasi-Newton updates. -/
def storeSteps (current errors errorsNext : Vec F n) : ResolutionMethod → Prog F n S Unit
  | .NewtonRaphson => return ()
  | .QuasiNewton .StationaryNewton => return ()
  | _ => do
    let x ← ask P .getIteratives P.m.getIteratives
    modify fun w => { w with itStep := some (vsub x current) }
    modify fun w => { w with resStep := some (vsub errorsNext errors) }
    modify fun w => { w with resCur := some errorsNext }

/-- `rootfinder.rs` L360-386: `update_model` after a usable evaluation. -/
def afterEvaluation (errors current proposed : Vec F n) : Prog F n S (Vec F n) := do
  let errorsNext ← evaluateErrors P
  ifDebug (iterationToLog P errorsNext)
  let errorsNext ← if P.c.params.damping then damping P (amax errors) current proposed errorsNext
    else pure errorsNext
  storeSteps P current errors errorsNext P.c.params.method
  return errorsNext

/-- `rootfinder.rs` L335-387, `update_model`. -/
def updateModel (proposed : Vec F n) : Prog F n S (Except (SolverError EI EU) (Vec F n)) := do
  let errors ← evaluateErrors P
  let current ← ask P .getIteratives P.m.getIteratives
  setIteratives P proposed
  match ← evaluate P with
  | .ok () =>
    modify fun w => { w with valid := true }
    return .ok (← afterEvaluation P errors current proposed)
  | .error (.inaccurate _) =>
    modify fun w => { w with valid := false }
    return .ok (← afterEvaluation P errors current proposed)
  | .error (.unusable e) =>
    modify fun w => { w with valid := false }
    return .error (.modelEvaluation (.unusable e))

/-- The step computation selected in the loop (`rootfinder.rs` L423-428). -/
def computeStep : ResolutionMethod → Prog F n S (Except (SolverInternalError EI EU) (Vec F n))
  | .NewtonRaphson => newtonRaphson P
  | .QuasiNewton q => quasiNewton P q

/-- One pass of the `while` loop (`rootfinder.rs` L421-440). -/
def pass : Prog F n S (Except (SolverError EI EU) F) := do
  modify fun w => { w with iter := w.iter + 1 }
  match ← computeStep P P.c.params.method with
  | .ok value =>
    match ← updateModel P value with
    | .ok errors => return .ok (amax errors)
    | .error e => return .error e
  | .error e => return .error (.jacobian e)

/-- The `while` loop (`rootfinder.rs` L418-441), with fuel as in `loop`. -/
def whileLoop : (fuel : Nat) → F → Prog F n S (Except (SolverError EI EU) F)
  | 0, maxError => return .ok maxError
  | fuel + 1, maxError => do
    let w ← get
    if Scalar.lt P.c.params.tolerance maxError && decide (w.iter < P.c.params.maxIter) then
      match ← pass P with
      | .ok e => whileLoop fuel e
      | .error e => return .error e
    else return .ok maxError

/-- `rootfinder.rs` L408-449. -/
def fromFirstEvaluation : Prog F n S (Except (SolverError EI EU) Unit) := do
  let errors ← evaluateErrors P
  ifDebug (do parametersToLog P; iterationToLog P errors)
  let w ← get
  match ← whileLoop P (P.c.params.maxIter - w.iter) (amax errors) with
  | .error e => return .error e
  | .ok maxError =>
    if Scalar.lt P.c.params.tolerance maxError then return .error .nonConvergence
    else if (← get).valid then return .ok ()
    else return .error .finalEvaluation

/-- `rootfinder.rs` L390-450, `solve`. -/
def solve : Prog F n S (Except (SolverError EI EU) Unit) := do
  setIteratives P P.c.guess
  match ← evaluate P with
  | .error (.unusable e) => return .error (.modelInitialEvaluation (P.m.displayUnusable e))
  | _ => fromFirstEvaluation P

end
end Nrf.Program
