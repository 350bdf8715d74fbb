import Verif.Model.Log
import Verif.Model.Config

/-!
# Texts: the `Display` implementations and the contents of the log file

Texts are lists of characters.  Numbers are written by a parameter `num : F → List Char`
(`f64::to_string`), matrices by a parameter `mat` (`to_string` of a nalgebra matrix).  The feature
`additional_log_info` is off, as by default.
-/

namespace Nrf

/-- A string literal as a text. -/
abbrev lit (s : String) : List Char := s.toList

/-- `format!("{:width$}", text)`: padded on the right with spaces; never cut. -/
def pad (width : Nat) (t : List Char) : List Char := t ++ List.replicate (width - t.length) ' '

/-- `format!("{:width$}", x)` of a number with text `t`: padded on the left. -/
def padLeft (width : Nat) (t : List Char) : List Char := List.replicate (width - t.length) ' ' ++ t

/-- `usize::to_string`. -/
def natText (k : Nat) : List Char := Nat.toDigits 10 k

/-- `bool::to_string`. -/
def boolText (b : Bool) : List Char := if b then lit "true" else lit "false"

/-- `resolution_method.rs` L156-174. -/
def UpdateMethod.text : UpdateMethod → List Char
  | .BroydenFirst => lit "Broyden First Method"
  | .BroydenSecond => lit "Broyden Second Method"
  | .GreenstadtFirst => lit "Greenstadt First Method"
  | .GreenstadtSecond => lit "Greenstadt Second Method"

/-- `resolution_method.rs` L64-80. -/
def QuasiNewtonMethod.text (q : QuasiNewtonMethod) : List Char :=
  lit "Jacobian matrix behavior: " ++
    match q with
    | .StationaryNewton => lit "Frozen Jacobian matrix"
    | .JacobianUpdate m => lit "Jacobian matrix approximated" ++ m.text
    | .InverseJacobianUpdate m => lit "Jacobian matrix approximated" ++ m.text

/-- `resolution_method.rs` L28-40. -/
def ResolutionMethod.text : ResolutionMethod → List Char
  | .NewtonRaphson => lit "Newton-Raphson"
  | .QuasiNewton q => lit "Quasi Newton: " ++ q.text

/-- `residuals/mod.rs` L35-45. -/
def NormalizationMethod.text : NormalizationMethod → List Char
  | .Abs => lit "Absolute Normalization"
  | .Rel => lit "Relative Normalization"
  | .Adapt => lit "Adaptative Normalization"

/-- `iterative_var_fd.rs` L12-21. -/
def PerturbationMethod.text : PerturbationMethod → List Char
  | .Max => lit "Max"
  | .Sum => lit "Sum"

/-- `solver/log.rs` L10-12, without the line end. -/
def separationIter : List Char := lit "========================="
def separationLine : List Char :=
  lit "+-------+-------------------------------+----------------------------------------------------------------+---------------------------------+"
def titleLine : List Char :=
  lit "| Id    |           Iteratives          |        Left                    =                Right          |         Stopping criteria       |"

section
variable {F : Type} {n : Nat} (num : F → List Char) (mat : Mat F n → List Char)

/-- `iterative_var.rs` L124-149. -/
def IterativeParams.text (p : IterativeParams F) : List Char :=
  lit " " ++ pad 13 (num p.maxStepAbs) ++ lit "|" ++ (lit " " ++ pad 13 (num p.maxStepRel) ++ lit "|") ++
    (lit " " ++ pad 13 (num p.minValue) ++ lit "|") ++ (lit " " ++ pad 13 (num p.maxValue) ++ lit "|")

/-- `iterative_var_fd.rs` L192-216. -/
def IterativeParamsFD.text (p : IterativeParamsFD F) : List Char :=
  p.iterativeParams.text num ++ (lit " " ++ pad 16 p.perturbationMethod.text ++ lit "|") ++
    (lit " " ++ pad 13 (num p.dxAbs) ++ lit "|") ++ (lit " " ++ pad 13 (num p.dxRel) ++ lit "|")

/-- `parameters.rs` L97-98, without the line ends. -/
def parametersSeparation : List Char :=
  lit "+----------------+-----------------+-----------------+--------------------+---------------------+"
def parametersHeader : List Char :=
  lit "|  Problem size  |  Max iteration  |    Tolerance    |  Damping activated |  Resolution Method  |"

/-- The row of values, `parameters.rs` L103-128. -/
def SolverParameters.row (p : SolverParameters F) : List Char :=
  lit "| " ++ pad 15 (natText p.problemSize) ++ (lit "| " ++ pad 17 (natText p.maxIter)) ++
    (lit "| " ++ pad 15 (num p.tolerance)) ++ (lit "| " ++ pad 19 (boolText p.damping)) ++
    (lit "| " ++ pad 20 p.method.text) ++ lit "|"

/-- `parameters.rs` L93-134. -/
def SolverParameters.text (p : SolverParameters F) : List Char :=
  lit "Solver parameters\n" ++ lit "=================\n\n" ++ (parametersSeparation ++ lit "\n") ++
    (parametersHeader ++ lit "\n") ++ (parametersSeparation ++ lit "\n") ++
    (p.row num ++ lit "\n") ++ (parametersSeparation ++ lit "\n") ++ lit "\n"

/-- `iteratives_base.rs` L101-122: `column_float` and the separation line. -/
def columnFloat : List Char := lit "--------------+"
def iterativesSeparation (fd : Bool) : List Char :=
  if fd then lit "+-----------+" ++ columnFloat ++ columnFloat ++ columnFloat ++ columnFloat ++
    lit "-----------------+" ++ columnFloat ++ columnFloat
  else lit "+-----------+" ++ columnFloat ++ columnFloat ++ columnFloat ++ columnFloat

/-- `iteratives_base.rs` L124-141. -/
def iterativesHeader (fd : Bool) : List Char :=
  lit "| Iterative " ++ (lit "| " ++ pad 13 (lit "max_step_abs")) ++ (lit "| " ++ pad 13 (lit "max_step_rel")) ++
    (lit "| " ++ pad 13 (lit "min_value")) ++ (lit "| " ++ pad 13 (lit "max_value")) ++
    if fd then (lit "| " ++ pad 16 (lit "perturbation")) ++ (lit "| " ++ pad 13 (lit "dx_abs")) ++
      (lit "| " ++ pad 13 (lit "dx_rel") ++ lit "|")
    else lit "|"

/-- One row, `iteratives_base.rs` L147-148; `t` is the text of the parameters. -/
def iterativesRow (i : Nat) (t : List Char) : List Char := lit "| " ++ pad 10 (natText i) ++ lit "|" ++ t

/-- `iteratives_base.rs` L92-155; `ts` are the texts of the parameters. -/
def iterativesText (fd : Bool) (ts : List (List Char)) : List Char :=
  lit "Iteratives parameters\n" ++ lit "=====================\n\n" ++ (iterativesSeparation fd ++ lit "\n") ++
    (iterativesHeader fd ++ lit "\n") ++ (iterativesSeparation fd ++ lit "\n") ++
    (ts.zipIdx.flatMap fun p => iterativesRow p.2 p.1 ++ lit "\n" ++ (iterativesSeparation fd ++ lit "\n")) ++
    lit "\n"

/-- `residuals/config.rs` L148-150, without the line end. -/
def residualsSeparation : List Char :=
  lit "+-------------------+--------------------------+--------------------------+"

/-- `residuals/config.rs` L155-161. -/
def residualsHeader : List Char :=
  lit "| " ++ pad 18 (lit "Residual number") ++ lit "| " ++ pad 25 (lit "Stopping criteria") ++ lit "| " ++
    pad 25 (lit "Update method") ++ lit "|"

/-- One row, `residuals/config.rs` L166-179. -/
def residualsRow (i : Nat) (stop upd : NormalizationMethod) : List Char :=
  lit "| " ++ pad 18 (natText i) ++ lit "| " ++ pad 25 stop.text ++ lit "| " ++ (pad 25 upd.text ++ lit "|")

/-- `residuals/config.rs` L146-185. -/
def ResConf.text (res : ResConf n) : List Char :=
  lit "Residuals configuration\n" ++ lit "=======================\n\n" ++ (residualsSeparation ++ lit "\n") ++
    (residualsHeader ++ lit "\n") ++ (residualsSeparation ++ lit "\n") ++
    ((List.finRange n).flatMap fun (i : Fin n) => residualsRow i.val (res.stop i) (res.upd i) ++ lit "\n") ++
    (residualsSeparation ++ lit "\n") ++ lit "\n"

/-- `values.rs` L65-74, `get_values_str_eq` with `float_width = 30`.  The left side is a string (padded on
the right), the right side a number (padded on the left). -/
def equationText (l r : F) : List Char := pad 30 (num l) ++ lit " = " ++ padLeft 30 (num r)

/-- One row of an iteration table, `log.rs` L153-169. -/
def logRow (i : Nat) (x l r e : F) : List Char :=
  lit "| " ++ pad 6 (natText i) ++ (lit "| " ++ pad 30 (num x)) ++ (lit "| " ++ pad 30 (equationText num l r)) ++
    (lit "| " ++ pad 30 (num e) ++ lit "  |")

/-- `log.rs` L136-175, `add_iteration`. -/
def iterationTable [Scalar F] (x : Vec F n) (r : ResidualsValues F n) (e : Vec F n) : List Char :=
  lit "Max error: " ++ num (amax e) ++ lit "\n\n" ++ (separationLine ++ lit "\n") ++ (titleLine ++ lit "\n") ++
    (separationLine ++ lit "\n") ++
    ((List.finRange n).flatMap fun (i : Fin n) =>
      logRow num i.val (x i) (r.left i) (r.right i) (e i) ++ lit "\n" ++ (separationLine ++ lit "\n")) ++
    lit "\n"

/-- `jacobian_struct.rs` L131-163. -/
def JacobianMatrix.text (j : JacobianMatrix F n) : List Char :=
  lit "Jacobian matrix\n" ++ lit "=================\n\n" ++
    (match j.matrix with
      | some jac => lit "Jacobian up to date with its inverse\n\n" ++ lit "Jacobian:\n" ++ mat jac
      | none => lit "Jacobian not up to date with its inverse.\n" ++
          lit "The update of the inverse is more recent\n") ++
    lit "Inverse of the jacobian Matrix:\n" ++
    (match j.inverse with
      | some inv => mat inv
      | none => lit "Inverse jacobian matrix not yet computed") ++
    lit "\n"

/-- The text appended to the file by one entry.  Header: `log.rs` L59-87 with the version of `Cargo.toml`;
parameters: L94-103, `its` are the texts of the iteratives; iterations: L119-134; damping: L105-118; the
refusal: `rootfinder.rs` L474-478. -/
def LogEntry.text [Scalar F] (c : Config F n) (fd : Bool) (its : List (List Char)) : LogEntry F n → List Char
  | .header => lit "Runner informations\n" ++ lit "===================\n\n" ++
      lit "newton_rootfinder version: " ++ lit "0.11.0" ++ lit "\n" ++ lit "\n"
  | .parameters => c.params.text num ++ iterativesText fd its ++ c.res.text
  | .iteration k x r e => (separationIter ++ lit "\n\n") ++ (lit "Iteration: " ++ natText k ++ lit "\n\n") ++
      iterationTable num x r e
  | .damping x r e => lit "Damping activated !\n\n" ++ iterationTable num x r e
  | .refused => lit "Iteration refused, the jacobian will be recomputed at the next iteration\n\n"
  | .jacobian j => j.text mat

/-- The contents of the file. -/
def logText [Scalar F] (c : Config F n) (fd : Bool) (its : List (List Char)) (l : List (LogEntry F n)) : List Char :=
  l.flatMap (LogEntry.text num mat c fd its)

end
end Nrf
