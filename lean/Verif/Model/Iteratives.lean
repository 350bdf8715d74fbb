import Verif.Model.Scalar

/-!
# Iterative variables: `iteratives/*.rs`
-/

namespace Nrf

/-- The assertion that failed in a constructor of `iteratives/*.rs` (the panic
message also prints the offending value, which is not kept). -/
inductive CtorPanic where
  | maxStepAbs | maxStepRel | minMax | dxAbs | dxRel
  deriving DecidableEq, Repr

/-- `iteratives/iterative_var.rs` L8-13. -/
structure IterativeParams (F : Type) where
  maxStepAbs : F
  maxStepRel : F
  minValue : F
  maxValue : F
  deriving DecidableEq

/-- `iteratives/iterative_var_fd.rs` L7-10. -/
inductive PerturbationMethod where
  | Max | Sum
  deriving DecidableEq, Repr

/-- `iteratives/iterative_var_fd.rs` L31-36. -/
structure IterativeParamsFD (F : Type) where
  iterativeParams : IterativeParams F
  perturbationMethod : PerturbationMethod
  dxAbs : F
  dxRel : F
  deriving DecidableEq

/-- The trait `Iterative` (`iteratives/iteratives_base.rs` L12-27), as a record.
`computePerturbation = none` is the default method body `unimplemented!()`. -/
structure Iterative (F : Type) where
  stepLimitation : F → F → F
  computePerturbation : Option (F → F)
  withFiniteDiff : Bool

section
variable {F : Type} [Scalar F]
open Scalar

/-- `iteratives/iterative_var.rs` L21-48, `IterativeParams::new`. -/
def IterativeParams.new (maxStepAbs maxStepRel minValue maxValue : F) :
    Except CtorPanic (IterativeParams F) :=
  if le maxStepAbs zero then .error .maxStepAbs
  else if le maxStepRel zero then .error .maxStepRel
  else if le maxValue minValue then .error .minMax
  else .ok { maxStepAbs, maxStepRel, minValue, maxValue }

/-- `iteratives/iterative_var.rs` L67-76, `Default for IterativeParams`. -/
def IterativeParams.default [HasSpecials F] : IterativeParams F :=
  { maxStepAbs := HasSpecials.inf, maxStepRel := HasSpecials.inf,
    minValue := HasSpecials.negInf, maxValue := HasSpecials.inf }

/-- `iteratives/iterative_var.rs` L107-121, `step_limitation`. -/
def IterativeParams.stepLimitation (p : IterativeParams F) (valueCurrent rawStep : F) : F :=
  let maxStep := Scalar.min p.maxStepAbs (p.maxStepRel *ᶠ Scalar.abs valueCurrent)
  let absStep := Scalar.abs rawStep
  let signStep := signum rawStep
  let stepLim := Scalar.min maxStep absStep *ᶠ signStep
  let valueNextLim := valueCurrent +ᶠ stepLim
  Scalar.min (Scalar.max valueNextLim p.minValue) p.maxValue

/-- `impl Iterative for IterativeParams` (`iterative_var.rs` L78-122): the
perturbation keeps the default body, `with_finite_diff` is `false`. -/
def IterativeParams.toIterative (p : IterativeParams F) : Iterative F :=
  { stepLimitation := p.stepLimitation
    computePerturbation := none
    withFiniteDiff := false }

/-- `iteratives/iterative_var_fd.rs` L50-83, `IterativeParamsFD::new`. -/
def IterativeParamsFD.new (maxStepAbs maxStepRel minValue maxValue dxAbs dxRel : F)
    (perturbationMethod : PerturbationMethod) : Except CtorPanic (IterativeParamsFD F) :=
  if le dxAbs zero then .error .dxAbs
  else if le dxRel zero then .error .dxRel
  else match IterativeParams.new maxStepAbs maxStepRel minValue maxValue with
    | .error e => .error e
    | .ok iterativeParams => .ok { iterativeParams, perturbationMethod, dxAbs, dxRel }

/-- `iteratives/iterative_var_fd.rs` L118-143, `IterativeParamsFD::extend`. -/
def IterativeParamsFD.extend (iterativeParams : IterativeParams F) (dxAbs dxRel : F)
    (perturbationMethod : PerturbationMethod) : Except CtorPanic (IterativeParamsFD F) :=
  if le dxAbs zero then .error .dxAbs
  else if le dxRel zero then .error .dxRel
  else .ok { iterativeParams, perturbationMethod, dxAbs, dxRel }

/-- `iteratives/iterative_var_fd.rs` L38-47, `Default for IterativeParamsFD`. -/
def IterativeParamsFD.default [HasSpecials F] : IterativeParamsFD F :=
  { iterativeParams := IterativeParams.default, perturbationMethod := .Max,
    dxAbs := dec 5 8, dxRel := dec 5 8 }

/-- `iteratives/iterative_var_fd.rs` L180-185, `compute_perturbation`. -/
def IterativeParamsFD.computePerturbation (p : IterativeParamsFD F) (x : F) : F :=
  match p.perturbationMethod with
  | .Max => Scalar.max p.dxAbs (Scalar.abs x *ᶠ p.dxRel)
  | .Sum => p.dxAbs +ᶠ Scalar.abs x *ᶠ p.dxRel

/-- `impl Iterative for IterativeParamsFD` (`iterative_var_fd.rs` L146-190). -/
def IterativeParamsFD.toIterative (p : IterativeParamsFD F) : Iterative F :=
  { stepLimitation := p.iterativeParams.stepLimitation
    computePerturbation := some p.computePerturbation
    withFiniteDiff := true }

/-- `iteratives/default.rs` L17-19, `default_vec_iteratives`. -/
def defaultVecIteratives [HasSpecials F] (size : Nat) : List (IterativeParams F) :=
  List.replicate size IterativeParams.default

/-- `iteratives/default.rs` L40-42, `default_vec_iteratives_fd`. -/
def defaultVecIterativesFd [HasSpecials F] (size : Nat) : List (IterativeParamsFD F) :=
  List.replicate size IterativeParamsFD.default

variable {n : Nat}

/-- `iteratives/iteratives_base.rs` L56-71, `Iteratives::step_limitations`. -/
def stepLimitations (iters : Fin n → Iterative F) (values rawStep : Vec F n) : Vec F n :=
  fun i => (iters i).stepLimitation (values i) (rawStep i)

/-- `iteratives/iteratives_base.rs` L74-89, `Iteratives::compute_perturbations`;
`none` is the panic of `unimplemented!()` in one of the calls. -/
def computePerturbations (iters : Fin n → Iterative F) (x : Vec F n) : Option (Vec F n) :=
  if h : ∀ i, (iters i).computePerturbation.isSome then
    some fun i => (iters i).computePerturbation.get (h i) (x i)
  else none

end
end Nrf
