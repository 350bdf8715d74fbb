import Verif.Model.Display
import Verif.Model.RootFinder

/-!
# `{:?}` and `{:#?}`: the `Debug` implementations

`debug_struct`, `debug_tuple` and `debug_list` of the Rust standard library (`core/src/fmt/builders.rs`), derived
`Debug` implementations, `Debug` of `f64` and of a nalgebra matrix of static dimension (`ArrayStorage`: the list of its
columns).  None of these sources is on this machine; this was written from memory.

A formatted value is a function of the mode: `none` is `{:?}`, `some d` is `{:#?}` inside `d` surrounding values.  The
standard library indents by inserting four spaces after every line end, here the depth is passed down; the two agree
because no number text has a line end.
-/

namespace Nrf

abbrev Fmt := Option Nat → List Char

/-- The indentation of depth `d`. -/
def indent (d : Nat) : List Char := List.replicate (4 * d) ' '

/-- The texts, with `, ` between them. -/
def commas : List (List Char) → List Char
  | [] => []
  | [t] => t
  | t :: u :: ts => t ++ (lit ", " ++ commas (u :: ts))

/-- `debug_struct(name).field(…)….finish()`, with at least one field. -/
def debugStruct (name : String) (fields : List (String × Fmt)) : Fmt
  | none => lit name ++ (lit " { " ++ (commas (fields.map fun f => lit f.1 ++ (lit ": " ++ f.2 none)) ++ lit " }"))
  | some d => lit name ++ (lit " {\n" ++
      ((fields.flatMap fun f => indent (d + 1) ++ (lit f.1 ++ (lit ": " ++ (f.2 (some (d + 1)) ++ lit ",\n")))) ++
        (indent d ++ lit "}")))

/-- `debug_tuple(name).field(value).finish()`: a variant with one field. -/
def debugTuple (name : String) (value : Fmt) : Fmt
  | none => lit name ++ (lit "(" ++ (value none ++ lit ")"))
  | some d => lit name ++ (lit "(\n" ++ (indent (d + 1) ++ (value (some (d + 1)) ++ (lit ",\n" ++ (indent d ++ lit ")")))))

/-- `debug_list().entries(…).finish()`, also for slices, vectors and arrays. -/
def debugList (entries : List Fmt) : Fmt
  | none => lit "[" ++ (commas (entries.map fun v => v none) ++ lit "]")
  | some d =>
    if entries = [] then lit "[]"
    else lit "[\n" ++ ((entries.flatMap fun v => indent (d + 1) ++ (v (some (d + 1)) ++ lit ",\n")) ++
      (indent d ++ lit "]"))

/-- A value without inner structure. -/
def debugLeaf (t : List Char) : Fmt := fun _ => t

/-- Derived for `Option`. -/
def debugOption {α : Type} (f : α → Fmt) : Option α → Fmt
  | none => debugLeaf (lit "None")
  | some a => debugTuple "Some" (f a)

def debugNat (k : Nat) : Fmt := debugLeaf (natText k)
def debugBool (b : Bool) : Fmt := debugLeaf (boolText b)

/-- Derived, `resolution_method.rs` L148. -/
def UpdateMethod.debug : UpdateMethod → Fmt
  | .BroydenFirst => debugLeaf (lit "BroydenFirst")
  | .BroydenSecond => debugLeaf (lit "BroydenSecond")
  | .GreenstadtFirst => debugLeaf (lit "GreenstadtFirst")
  | .GreenstadtSecond => debugLeaf (lit "GreenstadtSecond")

/-- Derived, `resolution_method.rs` L52. -/
def QuasiNewtonMethod.debug : QuasiNewtonMethod → Fmt
  | .StationaryNewton => debugLeaf (lit "StationaryNewton")
  | .JacobianUpdate m => debugTuple "JacobianUpdate" m.debug
  | .InverseJacobianUpdate m => debugTuple "InverseJacobianUpdate" m.debug

/-- Derived, `resolution_method.rs` L10. -/
def ResolutionMethod.debug : ResolutionMethod → Fmt
  | .NewtonRaphson => debugLeaf (lit "NewtonRaphson")
  | .QuasiNewton q => debugTuple "QuasiNewton" q.debug

/-- Derived, `residuals/mod.rs` L21. -/
def NormalizationMethod.debug : NormalizationMethod → Fmt
  | .Abs => debugLeaf (lit "Abs")
  | .Rel => debugLeaf (lit "Rel")
  | .Adapt => debugLeaf (lit "Adapt")

/-- Derived, `iterative_var_fd.rs` L6. -/
def PerturbationMethod.debug : PerturbationMethod → Fmt
  | .Max => debugLeaf (lit "Max")
  | .Sum => debugLeaf (lit "Sum")

/-- Derived, `residuals/config.rs` L9. -/
def ResidualConfig.debug (r : ResidualConfig) : Fmt :=
  debugStruct "ResidualConfig"
    [("stopping_critera", r.stoppingCriteria.debug), ("update_method", r.updateMethod.debug)]

/-- Derived, `residuals/config.rs` L51. -/
def ResidualsConfig.debug (r : ResidualsConfig) : Fmt :=
  debugStruct "ResidualsConfig"
    [("stopping_criterias", debugList (r.stoppingCriterias.map NormalizationMethod.debug)),
      ("update_methods", debugList (r.updateMethods.map NormalizationMethod.debug)), ("length", debugNat r.length)]

section
variable {F : Type} {n : Nat} (num : F → List Char)

def debugNum (x : F) : Fmt := debugLeaf (num x)

/-- A vector: the list of its only column. -/
def debugVec (v : Vec F n) : Fmt := debugList [debugList (List.ofFn fun i => debugNum num (v i))]

/-- A matrix: the list of its columns. -/
def debugMat (A : Mat F n) : Fmt := debugList (List.ofFn fun j => debugList (List.ofFn fun i => debugNum num (A i j)))

/-- Derived, `iterative_var.rs` L7. -/
def IterativeParams.debug (p : IterativeParams F) : Fmt :=
  debugStruct "IterativeParams"
    [("max_step_abs", debugNum num p.maxStepAbs), ("max_step_rel", debugNum num p.maxStepRel),
      ("min_value", debugNum num p.minValue), ("max_value", debugNum num p.maxValue)]

/-- Derived, `iterative_var_fd.rs` L30. -/
def IterativeParamsFD.debug (p : IterativeParamsFD F) : Fmt :=
  debugStruct "IterativeParamsFD"
    [("iterative_params", p.iterativeParams.debug num), ("perturbation_method", p.perturbationMethod.debug),
      ("dx_abs", debugNum num p.dxAbs), ("dx_rel", debugNum num p.dxRel)]

/-- `parameters.rs` L136-146. -/
def SolverParameters.debug (p : SolverParameters F) : Fmt :=
  debugStruct "Solver parameters"
    [("Problem size", debugNat p.problemSize), ("Max iteration", debugNat p.maxIter),
      ("Solver tolerance", debugNum num p.tolerance), ("Resolution method", p.method.debug),
      ("Damping activated", debugBool p.damping)]

/-- `jacobian_struct.rs` L166-186. -/
def JacobianMatrix.debugText (j : JacobianMatrix F n) : Fmt :=
  debugStruct "Jacobian matrix"
    [("Matrix", debugOption (debugMat num) j.matrix), ("Matrix Inverse", debugOption (debugMat num) j.inverse),
      ("Compute jacobian at next iteration: ", debugBool j.computeNext),
      ("Is current jacobian approximated: ", debugBool j.approximated)]

/-- Derived, `residuals/values.rs` L13 and L87. -/
def ResidualsValues.debug (v : ResidualsValues F n) : Fmt :=
  debugStruct "ResidualsValues"
    [("left", debugVec num v.left), ("right", debugVec num v.right), ("problem_size", debugNat n)]
def JacobianValues.debug (v : JacobianValues F n) : Fmt :=
  debugStruct "JacobianValues"
    [("left", debugMat num v.left), ("right", debugMat num v.right), ("problem_size", debugNat n)]

/-- The fields of a `RootFinder` (`rootfinder.rs` L33-48) whose iteratives are of type `α`. -/
structure RootFinderView (F : Type) (n : Nat) (α : Type) where
  params : SolverParameters F
  guess : Vec F n
  iters : List α
  res : ResidualsConfig
  st : Solver F n

/-- `rootfinder.rs` L500-530; `iteratives_base.rs` L158-167 for the list of the iteratives. -/
def RootFinderView.debugText {α : Type} (it : α → Fmt) (r : RootFinderView F n α) : Fmt :=
  debugStruct "Rootfinder"
    [("Solver parameters", r.params.debug num), ("Initial Guess", debugVec num r.guess),
      ("Iterative configuration", debugList (r.iters.map it)), ("Residual configuration", r.res.debug),
      ("Debug option activated", debugBool r.st.debug), ("Current iteration", debugNat r.st.iter),
      ("Status last model evaluation", debugBool r.st.valid), ("Placeholder jacobian", r.st.jac.debugText num),
      ("Placeholder iterative step", debugOption (debugVec num) r.st.itStep),
      ("Placeholder residual step", debugOption (debugVec num) r.st.resStep),
      ("Placeholder current residual", debugOption (debugVec num) r.st.resCur)]

end

/-! ## `Debug` of `f64` -/

/-- An integer. -/
def intText (e : ℤ) : List Char := if e < 0 then lit "-" ++ natText (-e).toNat else natText e.toNat

/-- The digits without the zeros at the end. -/
def stripZeros (ds : List Char) : List Char := (ds.reverse.dropWhile (· = '0')).reverse

/-- `m` units of `10 ^ -f` with one digit before the point and an exponent. -/
def exponentText (m : Nat) (f : ℤ) : List Char :=
  (match stripZeros (natText m) with
    | [] => lit "0"
    | [d] => [d]
    | d :: ds => d :: '.' :: ds) ++
  (lit "e" ++ intText (((natText m).length : ℤ) - 1 - f))

/-- A positive number: with an exponent below `1e-4` and from `1e16` on, otherwise with at least one decimal. -/
def positiveDebug (x : ℚ) : List Char :=
  match shortestDecimal x with
  | some (m, f) =>
    if x < Binary64.rnd (1 / 10 ^ 4) ∨ 10 ^ 16 ≤ x then exponentText m.toNat f
    else if f ≤ 0 then decimalText m.toNat f ++ lit ".0"
    else decimalText m.toNat f
  | none => lit "?"

/-- `Debug` of `f64`. -/
def f64Debug : F64 → List Char
  | .nan => lit "NaN"
  | .inf true => lit "-inf"
  | .inf false => lit "inf"
  | .zero true => lit "-0.0"
  | .zero false => lit "0.0"
  | .num x _ => if x < 0 then lit "-" ++ positiveDebug (-x) else positiveDebug x

end Nrf
