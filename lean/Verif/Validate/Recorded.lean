import Verif.Model.RootFinder
import Verif.Model.TestCases
import Verif.Model.Display
import Verif.Model.Lu
import Verif.Model.ParseFloat
import Mathlib.Tactic.Common

/-!
# The model against outputs recorded in the repository

These are tests of the model, not proofs of properties.  The kernel runs the model in binary64 arithmetic, with the LU
inverse of `Model/Lu.lean` and the texts of `Model/Display.lean`, on inputs whose outputs are recorded in the
repository.
-/

namespace Nrf.Validate

open Lean Elab Term in
/-- The characters of a string, as a list of literals. -/
elab "chars!" s:str : term => return toExpr s.getString.toList

/-! ## `tests/log/broyden.rs` -/

/-- The tree of `tests/log/broyden_case10.xml`. -/
def broydenCase10Xml : Element :=
  .mk "nrf" []
    [ .mk "solver" [("problem_size", "2"), ("max_iter", "60"), ("tolerance", "1e-6"), ("damping", "false"),
        ("resolution_method", "NR")] [],
      .mk "iteratives" [("min_value", "-inf"), ("max_value", "inf"), ("max_step_abs", "inf"), ("max_step_rel", "inf"),
          ("dx_abs", "5e-8"), ("dx_rel", "5e-8"), ("perturbation_method", "Max")]
        [ .mk "iterative" [("id", "0"), ("min_value", "1"), ("max_value", "15"), ("max_step_abs", "5"),
            ("max_step_rel", "2")] [],
          .mk "iterative" [("id", "1"), ("min_value", "3"), ("max_value", "10"), ("max_step_abs", "5")] [] ],
      .mk "residuals" [("stopping_criteria", "Abs"), ("update_method", "Abs")]
        [ .mk "residual" [("id", "0"), ("stopping_criteria", "Abs"), ("update_method", "Abs")] [],
          .mk "residual" [("id", "1"), ("stopping_criteria", "Abs"), ("update_method", "Abs")] [] ] ]

/-- A finite-difference run from a configuration file, as in `tests/log/broyden.rs` L8-32: the text of the log when
everything succeeds. -/
def logOfFile {n : Nat} (root : Element) (guess : Vec F64 n) (f : Vec F64 n → Vec F64 n) : Option (List Char) :=
  match fromXmlFiniteDiff parseF64 root with
  | .error _ => none
  | .ok p =>
    match ResidualsConfig.new p.stoppingCriterias p.updateMethods with
    | none => none
    | some r =>
      if h : r.length = r.stoppingCriterias.length ∧ r.length = r.updateMethods.length then
        match Config.new p.params (List.ofFn guess) (p.iteratives.map IterativeParamsFD.toIterative) r h
            (nalgebraLinAlg F64) with
        | .error _ => none
        | .ok c =>
          if hn : n = p.params.problemSize then
            match solve c (fromFunction fun x i => f (fun j => x (j.cast hn)) (i.cast hn.symm))
                Solver.new.activateDebug AdapterState.new with
            | .ok (st, _, .ok ()) =>
              some (logText f64Text (matrixText f64Text) c true (p.iteratives.map (·.text f64Text)) (st.log.getD []))
            | _ => none
          else none
      else none

/-- `tests/log/log_ref_without_additional_infos.txt`, line by line; the version in the fourth line (ignored by the
test) is the one of this commit. -/
def referenceLines : List (List Char) := [
  chars! "Runner informations",
  chars! "===================",
  chars! "",
  chars! "newton_rootfinder version: 0.11.0",
  chars! "",
  chars! "Solver parameters",
  chars! "=================",
  chars! "",
  chars! "+----------------+-----------------+-----------------+--------------------+---------------------+",
  chars! "|  Problem size  |  Max iteration  |    Tolerance    |  Damping activated |  Resolution Method  |",
  chars! "+----------------+-----------------+-----------------+--------------------+---------------------+",
  chars! "| 2              | 60               | 0.000001       | false              | Newton-Raphson      |",
  chars! "+----------------+-----------------+-----------------+--------------------+---------------------+",
  chars! "",
  chars! "Iteratives parameters",
  chars! "=====================",
  chars! "",
  chars! "+-----------+--------------+--------------+--------------+--------------+-----------------+--------------+--------------+",
  chars! "| Iterative | max_step_abs | max_step_rel | min_value    | max_value    | perturbation    | dx_abs       | dx_rel       |",
  chars! "+-----------+--------------+--------------+--------------+--------------+-----------------+--------------+--------------+",
  chars! "| 0         | 5            | 2            | 1            | 15           | Max             | 0.00000005   | 0.00000005   |",
  chars! "+-----------+--------------+--------------+--------------+--------------+-----------------+--------------+--------------+",
  chars! "| 1         | 5            | inf          | 3            | 10           | Max             | 0.00000005   | 0.00000005   |",
  chars! "+-----------+--------------+--------------+--------------+--------------+-----------------+--------------+--------------+",
  chars! "",
  chars! "Residuals configuration",
  chars! "=======================",
  chars! "",
  chars! "+-------------------+--------------------------+--------------------------+",
  chars! "| Residual number   | Stopping criteria        | Update method            |",
  chars! "+-------------------+--------------------------+--------------------------+",
  chars! "| 0                 | Absolute Normalization   | Absolute Normalization   |",
  chars! "| 1                 | Absolute Normalization   | Absolute Normalization   |",
  chars! "+-------------------+--------------------------+--------------------------+",
  chars! "",
  chars! "=========================",
  chars! "",
  chars! "Iteration: 0",
  chars! "",
  chars! "Max error: 34",
  chars! "",
  chars! "+-------+-------------------------------+----------------------------------------------------------------+---------------------------------+",
  chars! "| Id    |           Iteratives          |        Left                    =                Right          |         Stopping criteria       |",
  chars! "+-------+-------------------------------+----------------------------------------------------------------+---------------------------------+",
  chars! "| 0     | 15                            | 34                             =                              0| 34                              |",
  chars! "+-------+-------------------------------+----------------------------------------------------------------+---------------------------------+",
  chars! "| 1     | -2                            | 10                             =                              0| 10                              |",
  chars! "+-------+-------------------------------+----------------------------------------------------------------+---------------------------------+",
  chars! "",
  chars! "Jacobian matrix",
  chars! "=================",
  chars! "",
  chars! "Jacobian up to date with its inverse",
  chars! "",
  chars! "Jacobian:",
  chars! "",
  chars! "  ┌                                       ┐",
  chars! "  │ 0.9999999974752427 -33.99999897624184 │",
  chars! "  │ 0.9999999998437185 -6.000000531969363 │",
  chars! "  └                                       ┘",
  chars! "",
  chars! "Inverse of the jacobian Matrix:",
  chars! "",
  chars! "  ┌                                           ┐",
  chars! "  │  -0.2142857451154321    1.214285744764183 │",
  chars! "  │ -0.03571428768050606  0.03571428759591764 │",
  chars! "  └                                           ┘",
  chars! "",
  chars! "",
  chars! "=========================",
  chars! "",
  chars! "Iteration: 1",
  chars! "",
  chars! "Max error: 24.85714211371714",
  chars! "",
  chars! "+-------+-------------------------------+----------------------------------------------------------------+---------------------------------+",
  chars! "| Id    |           Iteratives          |        Left                    =                Right          |         Stopping criteria       |",
  chars! "+-------+-------------------------------+----------------------------------------------------------------+---------------------------------+",
  chars! "| 0     | 10.142857886282862            | 9.142857886282862              =                              0| 9.142857886282862               |",
  chars! "+-------+-------------------------------+----------------------------------------------------------------+---------------------------------+",
  chars! "| 1     | 3                             | -24.85714211371714             =                              0| 24.85714211371714               |",
  chars! "+-------+-------------------------------+----------------------------------------------------------------+---------------------------------+",
  chars! "",
  chars! "Jacobian matrix",
  chars! "=================",
  chars! "",
  chars! "Jacobian up to date with its inverse",
  chars! "",
  chars! "Jacobian:",
  chars! "",
  chars! "  ┌                                       ┐",
  chars! "  │   1.00000000093838  0.999999407724772 │",
  chars! "  │ 0.9999999974357048 19.000001501012775 │",
  chars! "  └                                       ┘",
  chars! "",
  chars! "Inverse of the jacobian Matrix:",
  chars! "",
  chars! "  ┌                                             ┐",
  chars! "  │    1.0555555149946996 -0.055555516127672455 │",
  chars! "  │ -0.055555548889387095  0.055555549083980145 │",
  chars! "  └                                             ┘",
  chars! "",
  chars! "",
  chars! "=========================",
  chars! "",
  chars! "Iteration: 2",
  chars! "",
  chars! "Max error: 48.450113151230106",
  chars! "",
  chars! "+-------+-------------------------------+----------------------------------------------------------------+---------------------------------+",
  chars! "| Id    |           Iteratives          |        Left                    =                Right          |         Stopping criteria       |",
  chars! "+-------+-------------------------------+----------------------------------------------------------------+---------------------------------+",
  chars! "| 0     | 5.142857886282862             | -14.979221657487486            =                              0| 14.979221657487486              |",
  chars! "+-------+-------------------------------+----------------------------------------------------------------+---------------------------------+",
  chars! "| 1     | 4.888888667076188             | 48.450113151230106             =                              0| 48.450113151230106              |",
  chars! "+-------+-------------------------------+----------------------------------------------------------------+---------------------------------+",
  chars! "",
  chars! "Jacobian matrix",
  chars! "=================",
  chars! "",
  chars! "Jacobian up to date with its inverse",
  chars! "",
  chars! "Jacobian:",
  chars! "",
  chars! "  ┌                                         ┐",
  chars! "  │  1.0000000043053185 -24.814812916718388 │",
  chars! "  │  0.9999999973972652   67.48147842203488 │",
  chars! "  └                                         ┘",
  chars! "",
  chars! "Inverse of the jacobian Matrix:",
  chars! "",
  chars! "  ┌                                             ┐",
  chars! "  │    0.7311396512040027   0.26886034634798034 │",
  chars! "  │ -0.010834671474273737  0.010834671549120226 │",
  chars! "  └                                             ┘",
  chars! "",
  chars! "",
  chars! "=========================",
  chars! "",
  chars! "Iteration: 3",
  chars! "",
  chars! "Max error: 7.074687554008303",
  chars! "",
  chars! "+-------+-------------------------------+----------------------------------------------------------------+---------------------------------+",
  chars! "| Id    |           Iteratives          |        Left                    =                Right          |         Stopping criteria       |",
  chars! "+-------+-------------------------------+----------------------------------------------------------------+---------------------------------+",
  chars! "| 0     | 3.068446581807141             | -4.240926534284125             =                              0| 4.240926534284125               |",
  chars! "+-------+-------------------------------+----------------------------------------------------------------+---------------------------------+",
  chars! "| 1     | 4.201652658965696             | 7.074687554008303              =                              0| 7.074687554008303               |",
  chars! "+-------+-------------------------------+----------------------------------------------------------------+---------------------------------+",
  chars! "",
  chars! "Jacobian matrix",
  chars! "=================",
  chars! "",
  chars! "Jacobian up to date with its inverse",
  chars! "",
  chars! "Jacobian:",
  chars! "",
  chars! "  ┌                                         ┐",
  chars! "  │  0.9999999998239452 -12.945130217775892 │",
  chars! "  │   1.000000011402161   47.36496342632479 │",
  chars! "  └                                         ┘",
  chars! "",
  chars! "Inverse of the jacobian Matrix:",
  chars! "",
  chars! "  ┌                                             ┐",
  chars! "  │    0.7853571509349857   0.21464284675588785 │",
  chars! "  │ -0.016580972581375704  0.016580972389397628 │",
  chars! "  └                                             ┘",
  chars! "",
  chars! "",
  chars! "=========================",
  chars! "",
  chars! "Iteration: 4",
  chars! "",
  chars! "Max error: 0.4723272129726013",
  chars! "",
  chars! "+-------+-------------------------------+----------------------------------------------------------------+---------------------------------+",
  chars! "| Id    |           Iteratives          |        Left                    =                Right          |         Stopping criteria       |",
  chars! "+-------+-------------------------------+----------------------------------------------------------------+---------------------------------+",
  chars! "| 0     | 4.880557485596313             | -0.2611106545807056            =                              0| 0.2611106545807056              |",
  chars! "+-------+-------------------------------+----------------------------------------------------------------+---------------------------------+",
  chars! "| 1     | 4.014028773384476             | 0.4723272129726013             =                              0| 0.4723272129726013              |",
  chars! "+-------+-------------------------------+----------------------------------------------------------------+---------------------------------+",
  chars! "",
  chars! "Jacobian matrix",
  chars! "=================",
  chars! "",
  chars! "Jacobian up to date with its inverse",
  chars! "",
  chars! "Jacobian:",
  chars! "",
  chars! "  ┌                                         ┐",
  chars! "  │  0.9999999966564339 -10.196994653994318 │",
  chars! "  │  0.9999999966564339   42.36534118690014 │",
  chars! "  └                                         ┘",
  chars! "",
  chars! "Inverse of the jacobian Matrix:",
  chars! "",
  chars! "  ┌                                           ┐",
  chars! "  │   0.8060018766439684  0.19399812669959765 │",
  chars! "  │ -0.01902502969097469  0.01902502969097469 │",
  chars! "  └                                           ┘",
  chars! "",
  chars! "",
  chars! "=========================",
  chars! "",
  chars! "Iteration: 5",
  chars! "",
  chars! "Max error: 0.0025366814743996713",
  chars! "",
  chars! "+-------+-------------------------------+----------------------------------------------------------------+---------------------------------+",
  chars! "| Id    |           Iteratives          |        Left                    =                Right          |         Stopping criteria       |",
  chars! "+-------+-------------------------------+----------------------------------------------------------------+---------------------------------+",
  chars! "| 0     | 4.99938256869417              | -0.0013684325601968084         =                              0| 0.0013684325601968084           |",
  chars! "+-------+-------------------------------+----------------------------------------------------------------+---------------------------------+",
  chars! "| 1     | 4.000075096177789             | 0.0025366814743996713          =                              0| 0.0025366814743996713           |",
  chars! "+-------+-------------------------------+----------------------------------------------------------------+---------------------------------+",
  chars! "",
  chars! "Jacobian matrix",
  chars! "=================",
  chars! "",
  chars! "Jacobian up to date with its inverse",
  chars! "",
  chars! "Jacobian:",
  chars! "",
  chars! "  ┌                                         ┐",
  chars! "  │  0.9999999985141775 -10.001052768869158 │",
  chars! "  │  1.0000000056204823   42.00195513658344 │",
  chars! "  └                                         ┘",
  chars! "",
  chars! "Inverse of the jacobian Matrix:",
  chars! "",
  chars! "  ┌                                           ┐",
  chars! "  │    0.807683186671678  0.19231681344748253 │",
  chars! "  │ -0.01922965701441265 0.019229656877760844 │",
  chars! "  └                                           ┘",
  chars! "",
  chars! "",
  chars! "=========================",
  chars! "",
  chars! "Iteration: 6",
  chars! "",
  chars! "Max error: 0.00000007350246278292616",
  chars! "",
  chars! "+-------+-------------------------------+----------------------------------------------------------------+---------------------------------+",
  chars! "| Id    |           Iteratives          |        Left                    =                Right          |         Stopping criteria       |",
  chars! "+-------+-------------------------------+----------------------------------------------------------------+---------------------------------+",
  chars! "| 0     | 4.999999982167247             | -0.000000039579234112352424    =                              0| 0.000000039579234112352424      |",
  chars! "+-------+-------------------------------+----------------------------------------------------------------+---------------------------------+",
  chars! "| 1     | 4.000000002174648             | 0.00000007350246278292616      =                              0| 0.00000007350246278292616       |",
  chars! "+-------+-------------------------------+----------------------------------------------------------------+---------------------------------+",
  chars! ""]

/-- The reference log. -/
def referenceText : List Char := referenceLines.flatMap fun l => l ++ ['\n']

set_option maxRecDepth 1000000 in
/-- The run of `tests/log/broyden.rs`, from the attributes of the configuration file to the characters of the log. -/
theorem broyden_log : logOfFile broydenCase10Xml TestCases.initCase10 TestCases.broydenCase10 = some referenceText := by
  decide +kernel

/-! ## The documented square root of two -/

/-- `square2` of `solver/mod.rs` L26-30. -/
def square2 (x : Vec F64 1) : Vec F64 1 := fun _ => (x 0 *ᶠ x 0) -ᶠ Scalar.two

/-- `solver/mod.rs` L32-49: what is printed. -/
def squareRootDoc : Option (List Char) :=
  match ResidualsConfig.new [.Abs] [.Abs] with
  | none => none
  | some r =>
    if h : r.length = r.stoppingCriterias.length ∧ r.length = r.updateMethods.length then
      match defaultWithGuess [Scalar.one] ((defaultVecIterativesFd 1).map IterativeParamsFD.toIterative) r h .NewtonRaphson
          false (nalgebraLinAlg F64) with
      | .error _ => none
      | .ok c =>
        match solve c (fromFunction square2) Solver.new AdapterState.new with
        | .ok (_, s, .ok ()) => some (f64Text (s.inputs 0))
        | _ => none
    else none

set_option maxRecDepth 1000000 in
/-- `solver/mod.rs` L48 and `lib.rs` L273. -/
theorem square_root_doc : squareRootDoc = some (chars! "1.4142135623747443") := by decide +kernel

/-! ## `tests/jacobian/non_linear.rs` -/

/-- `tests/jacobian/non_linear.rs` L6-11. -/
def nonLinear (x : Vec F64 2) : Vec F64 2 := ![x 0 +ᶠ (Scalar.dec 4 0 *ᶠ x 1), x 0 *ᶠ x 1]

/-- `tests/jacobian/non_linear.rs` L14-26. -/
def nonLinearJacobian : Option (List (List (List Char))) :=
  let m := fromFunction nonLinear
  let s := (m.evaluate (m.setIteratives AdapterState.new ![Scalar.one, Scalar.two])).1
  match fdCompute ⟨fun _ => .Abs, fun _ => .Abs⟩ m (fun _ => Scalar.dec 1 4) s with
  | .ok (_, .ok J) => some ((List.finRange 2).map fun i => (List.finRange 2).map fun j => f64Text (J i j))
  | _ => none

set_option maxRecDepth 1000000 in
/-- `tests/jacobian/non_linear.rs` L28-31. -/
theorem non_linear_jacobian : nonLinearJacobian = some
    [[chars! "0.9999999999976694", chars! "4.000000000008441"],
      [chars! "1.9999999999997797", chars! "1.0000000000021103"]] := by decide +kernel

/-! ## Documented values of single functions -/

/-- A literal. -/
def f64 (t : List Char) : F64 := (parseF64Chars t).getD .nan

/-- `iteratives/iterative_var.rs` L104-105. -/
theorem step_limitation_doc :
    (let p : IterativeParams F64 := ⟨f64 (chars! "0.1"), f64 (chars! "0.5"), .inf true, .inf false⟩
     [f64Text (p.toIterative.stepLimitation (f64 (chars! "1.5")) (f64 (chars! "0.5"))),
      f64Text (p.toIterative.stepLimitation (f64 (chars! "0.1")) (f64 (chars! "3")))]) =
    [chars! "1.6", chars! "0.15000000000000002"] := by decide +kernel

/-- `residuals/mod.rs` L69-85, where two units in the last place are allowed: five of the six values are the
documented ones, the fourth differs from the documented 10 by one unit. -/
theorem normalization_doc :
    (let a := f64 (chars! "0.1"); let b := f64 (chars! "-0.15"); let c := f64 (chars! "101.1"); let d := f64 (chars! "101.25")
     [NormalizationMethod.Abs, .Rel, .Adapt].map fun m => (f64Text (normalization a b m), f64Text (normalization c d m))) =
    [(chars! "0.25", chars! "-0.15000000000000568"), (chars! "10.000000000000002", chars! "-0.0014825796886583217"),
      (chars! "0.24390243902439027", chars! "-0.0014680694886225172")] := by decide +kernel

end Nrf.Validate
