import Verif.Validate.Recorded

/-!
# The test suite of the repository, run on the model

Tests of the model, not proofs of properties: the kernel runs the model in binary64 arithmetic on the tests of
`tests/solver` with at most two unknowns, and on those of `tests/errors` without `cos`.  Each must pass, as it does for the
code.  (The directories `broyden2_jac` and `broyden2_inv_jac` test each other's method.)
-/

namespace Nrf.Validate
open TestCases

/-- `solver/default.rs` L63-95 with the default parameters of the unknowns and absolute residuals, as in
`tests/common/run_case_function.rs`. -/
def suiteConfig {n : Nat} (init : Vec F64 n) (it : Iterative F64) (method : ResolutionMethod) (damping : Bool) :
    Config F64 n where
  params := { problemSize := n, tolerance := Scalar.dec 1 6, maxIter := 50, method, damping }
  guess := init
  iters := fun _ => it
  res := ⟨fun _ => .Abs, fun _ => .Abs⟩
  la := nalgebraLinAlg F64 n

/-- Success within `1e-6` of the solution (`tests/common/run_case_function.rs` L30-39). -/
def passes {n : Nat} {S : Type} (m : UserModel F64 n Empty Empty S) (sol : Vec F64 n) :
    Except Panic (Solver F64 n × S × Except (SolverError Empty Empty) Unit) → Bool
  | .ok (_, s, .ok ()) =>
    (List.finRange n).all fun i => Scalar.le (Scalar.abs (m.getIteratives s i -ᶠ sol i)) (Scalar.dec 1 6)
  | _ => false

/-- `run_function_case_fd`. -/
def passesFd {n : Nat} (f : Vec F64 n → Vec F64 n) (init sol : Vec F64 n) (method : ResolutionMethod) (damping : Bool) :
    Bool :=
  passes (fromFunction f) sol
    (solve (suiteConfig init IterativeParamsFD.default.toIterative method damping) (fromFunction f) .new .new)

/-- `run_function_case_jac`. -/
def passesJac {n : Nat} (f : Vec F64 n → Vec F64 n) (J : Vec F64 n → Mat F64 n) (init sol : Vec F64 n)
    (method : ResolutionMethod) (damping : Bool) : Bool :=
  passes (fromFunctionAndJacobian f J) sol
    (solve (suiteConfig init IterativeParams.default.toIterative method damping) (fromFunctionAndJacobian f J) .new .new)

/-- Initial guesses and solutions of `polynom.rs`. -/
def one : Vec F64 1 := fun _ => Scalar.one
def high : Vec F64 1 := fun _ => Scalar.dec 15 2
def solHigh : Vec F64 1 := fun _ => Scalar.dec 1 1
def solSquare : Vec F64 1 :=
  ![f64 (chars! "1.4142135623730951")]

def sol9 : Vec F64 2 := solutionCase9

set_option maxRecDepth 1000000

/-! ## `tests/errors` -/

/-- The error, as text, and the last iterate. -/
def errorOf {n : Nat} {EI S : Type} (m : UserModel F64 n EI Empty S) (text : EI → String) :
    Except Panic (Solver F64 n × S × Except (SolverError EI Empty) Unit) → Option (String × Vec F64 n)
  | .ok (_, s, .error e) => some (e.display text (fun e => nomatch e), m.getIteratives s)
  | _ => none

/-- `inaccurate_values.rs` L9-69: every evaluation of `x² - 2` is reported as inaccurate. -/
def dummyModel : UserModel F64 1 Unit Empty (Vec F64 1 × Vec F64 1) where
  lenProblem _ := 1
  setIteratives s x := (x, s.2)
  getIteratives s := s.1
  evaluate s := ((s.1, fun _ => powi (s.1 0) 2 -ᶠ Scalar.two), .error (.inaccurate ()))
  getResiduals s := { left := s.2, right := fun _ => Scalar.zero }
  jacobianProvided _ := false
  getJacobian s := (s, .ok { left := mzero, right := mzero })
  getMemory _ := []
  setMemory s _ := s
  displayUnusable e := nomatch e

/-- `inaccurate_values.rs` L71-109. -/
theorem inaccurate_values :
    (errorOf dummyModel (fun _ => "Not a good value")
        (solve (suiteConfig one IterativeParamsFD.default.toIterative .NewtonRaphson false) dummyModel .new
          (fun _ => Scalar.zero, fun _ => Scalar.zero))).map (fun r =>
      (r.1, Scalar.le (Scalar.abs (r.2 0 -ᶠ solSquare 0)) (Scalar.dec 1 6))) =
    some ("Final model evaluation failed", true) := by
  decide +kernel

/-- `non_invertible_jacobian.rs` L17-45. -/
theorem non_invertible_jacobian :
    (errorOf (fromFunction fun (_ : Vec F64 5) _ => Scalar.dec 10 0) (fun e => nomatch e)
      (solve (suiteConfig (fun _ => Scalar.zero) IterativeParamsFD.default.toIterative .NewtonRaphson false)
        (fromFunction fun (_ : Vec F64 5) _ => Scalar.dec 10 0) .new .new)).map (·.1) =
    some "Jacobian error: Non invertible jacobian" := by
  decide +kernel

/-! ## `tests/solver` -/

/-- `broyden1_inv_jac/broyden.rs` L141-154. -/
theorem broyden1_inv_jac_broyden_case9_fd :
    passesFd broydenCase9 initCase9 sol9 (.QuasiNewton (.InverseJacobianUpdate .BroydenFirst)) true := by
  decide +kernel

/-- `broyden1_inv_jac/broyden.rs` L157-171. -/
theorem broyden1_inv_jac_broyden_case9_jac :
    passesJac broydenCase9 broydenCase9Jac initCase9 sol9 (.QuasiNewton (.InverseJacobianUpdate .BroydenFirst)) true := by
  decide +kernel

/-- `broyden1_inv_jac/polynom.rs` L10-23. -/
theorem broyden1_inv_jac_square :
    passesFd square2 one solSquare (.QuasiNewton (.InverseJacobianUpdate .BroydenFirst)) false := by
  decide +kernel

/-- `broyden1_inv_jac/polynom.rs` L26-39. -/
theorem broyden1_inv_jac_root_with_high_derivative :
    passesFd highDerivative high solHigh (.QuasiNewton (.InverseJacobianUpdate .BroydenFirst)) false := by
  decide +kernel

/-- `broyden1_inv_jac/polynom.rs` L42-56. -/
theorem broyden1_inv_jac_square_jac :
    passesJac square2 dsquare one solSquare (.QuasiNewton (.InverseJacobianUpdate .BroydenFirst)) false := by
  decide +kernel

/-- `broyden1_inv_jac/polynom.rs` L59-73. -/
theorem broyden1_inv_jac_root_with_high_derivative_jac :
    passesJac highDerivative highDerivativeJac high solHigh (.QuasiNewton (.InverseJacobianUpdate .BroydenFirst)) false := by
  decide +kernel

/-- `broyden1_jac/broyden.rs` L141-154. -/
theorem broyden1_jac_broyden_case9_fd :
    passesFd broydenCase9 initCase9 sol9 (.QuasiNewton (.JacobianUpdate .BroydenFirst)) true := by
  decide +kernel

/-- `broyden1_jac/broyden.rs` L157-171. -/
theorem broyden1_jac_broyden_case9_jac :
    passesJac broydenCase9 broydenCase9Jac initCase9 sol9 (.QuasiNewton (.JacobianUpdate .BroydenFirst)) true := by
  decide +kernel

/-- `broyden1_jac/polynom.rs` L10-23. -/
theorem broyden1_jac_square :
    passesFd square2 one solSquare (.QuasiNewton (.JacobianUpdate .BroydenFirst)) false := by
  decide +kernel

/-- `broyden1_jac/polynom.rs` L26-39. -/
theorem broyden1_jac_root_with_high_derivative :
    passesFd highDerivative high solHigh (.QuasiNewton (.JacobianUpdate .BroydenFirst)) false := by
  decide +kernel

/-- `broyden1_jac/polynom.rs` L42-56. -/
theorem broyden1_jac_square_jac :
    passesJac square2 dsquare one solSquare (.QuasiNewton (.JacobianUpdate .BroydenFirst)) false := by
  decide +kernel

/-- `broyden1_jac/polynom.rs` L59-73. -/
theorem broyden1_jac_root_with_high_derivative_jac :
    passesJac highDerivative highDerivativeJac high solHigh (.QuasiNewton (.JacobianUpdate .BroydenFirst)) false := by
  decide +kernel

/-- `broyden2_inv_jac/broyden.rs` L141-154. -/
theorem broyden2_inv_jac_broyden_case9_fd :
    passesFd broydenCase9 initCase9 sol9 (.QuasiNewton (.JacobianUpdate .BroydenSecond)) true := by
  decide +kernel

/-- `broyden2_inv_jac/broyden.rs` L157-171. -/
theorem broyden2_inv_jac_broyden_case9_jac :
    passesJac broydenCase9 broydenCase9Jac initCase9 sol9 (.QuasiNewton (.JacobianUpdate .BroydenSecond)) true := by
  decide +kernel

/-- `broyden2_inv_jac/polynom.rs` L9-22. -/
theorem broyden2_inv_jac_square :
    passesFd square2 one solSquare (.QuasiNewton (.JacobianUpdate .BroydenSecond)) false := by
  decide +kernel

/-- `broyden2_inv_jac/polynom.rs` L25-38. -/
theorem broyden2_inv_jac_root_with_high_derivative :
    passesFd highDerivative high solHigh (.QuasiNewton (.JacobianUpdate .BroydenSecond)) false := by
  decide +kernel

/-- `broyden2_inv_jac/polynom.rs` L41-55. -/
theorem broyden2_inv_jac_square_jac :
    passesJac square2 dsquare one solSquare (.QuasiNewton (.JacobianUpdate .BroydenSecond)) false := by
  decide +kernel

/-- `broyden2_inv_jac/polynom.rs` L58-72. -/
theorem broyden2_inv_jac_root_with_high_derivative_jac :
    passesJac highDerivative highDerivativeJac high solHigh (.QuasiNewton (.JacobianUpdate .BroydenSecond)) false := by
  decide +kernel

/-- `broyden2_jac/broyden.rs` L141-154. -/
theorem broyden2_jac_broyden_case9_fd :
    passesFd broydenCase9 initCase9 sol9 (.QuasiNewton (.InverseJacobianUpdate .BroydenSecond)) true := by
  decide +kernel

/-- `broyden2_jac/broyden.rs` L157-171. -/
theorem broyden2_jac_broyden_case9_jac :
    passesJac broydenCase9 broydenCase9Jac initCase9 sol9 (.QuasiNewton (.InverseJacobianUpdate .BroydenSecond)) true := by
  decide +kernel

/-- `broyden2_jac/polynom.rs` L9-22. -/
theorem broyden2_jac_square :
    passesFd square2 one solSquare (.QuasiNewton (.InverseJacobianUpdate .BroydenSecond)) false := by
  decide +kernel

/-- `broyden2_jac/polynom.rs` L25-38. -/
theorem broyden2_jac_root_with_high_derivative :
    passesFd highDerivative high solHigh (.QuasiNewton (.InverseJacobianUpdate .BroydenSecond)) false := by
  decide +kernel

/-- `broyden2_jac/polynom.rs` L41-55. -/
theorem broyden2_jac_square_jac :
    passesJac square2 dsquare one solSquare (.QuasiNewton (.InverseJacobianUpdate .BroydenSecond)) false := by
  decide +kernel

/-- `broyden2_jac/polynom.rs` L58-72. -/
theorem broyden2_jac_root_with_high_derivative_jac :
    passesJac highDerivative highDerivativeJac high solHigh (.QuasiNewton (.InverseJacobianUpdate .BroydenSecond)) false := by
  decide +kernel

/-- `greenstadt1_inv_jac/broyden.rs` L141-154. -/
theorem greenstadt1_inv_jac_broyden_case9_fd :
    passesFd broydenCase9 initCase9 sol9 (.QuasiNewton (.InverseJacobianUpdate .GreenstadtFirst)) true := by
  decide +kernel

/-- `greenstadt1_inv_jac/broyden.rs` L157-171. -/
theorem greenstadt1_inv_jac_broyden_case9_jac :
    passesJac broydenCase9 broydenCase9Jac initCase9 sol9 (.QuasiNewton (.InverseJacobianUpdate .GreenstadtFirst)) true := by
  decide +kernel

/-- `greenstadt1_inv_jac/polynom.rs` L10-23. -/
theorem greenstadt1_inv_jac_square :
    passesFd square2 one solSquare (.QuasiNewton (.InverseJacobianUpdate .GreenstadtFirst)) false := by
  decide +kernel

/-- `greenstadt1_inv_jac/polynom.rs` L26-39. -/
theorem greenstadt1_inv_jac_root_with_high_derivative :
    passesFd highDerivative high solHigh (.QuasiNewton (.InverseJacobianUpdate .GreenstadtFirst)) false := by
  decide +kernel

/-- `greenstadt1_inv_jac/polynom.rs` L42-56. -/
theorem greenstadt1_inv_jac_square_jac :
    passesJac square2 dsquare one solSquare (.QuasiNewton (.InverseJacobianUpdate .GreenstadtFirst)) false := by
  decide +kernel

/-- `greenstadt1_inv_jac/polynom.rs` L59-73. -/
theorem greenstadt1_inv_jac_root_with_high_derivative_jac :
    passesJac highDerivative highDerivativeJac high solHigh (.QuasiNewton (.InverseJacobianUpdate .GreenstadtFirst)) false := by
  decide +kernel

/-- `greenstadt1_jac/broyden.rs` L141-154. -/
theorem greenstadt1_jac_broyden_case9_fd :
    passesFd broydenCase9 initCase9 sol9 (.QuasiNewton (.JacobianUpdate .GreenstadtFirst)) true := by
  decide +kernel

/-- `greenstadt1_jac/broyden.rs` L157-171. -/
theorem greenstadt1_jac_broyden_case9_jac :
    passesJac broydenCase9 broydenCase9Jac initCase9 sol9 (.QuasiNewton (.JacobianUpdate .GreenstadtFirst)) true := by
  decide +kernel

/-- `greenstadt1_jac/polynom.rs` L10-23. -/
theorem greenstadt1_jac_square :
    passesFd square2 one solSquare (.QuasiNewton (.JacobianUpdate .GreenstadtFirst)) false := by
  decide +kernel

/-- `greenstadt1_jac/polynom.rs` L26-39. -/
theorem greenstadt1_jac_root_with_high_derivative :
    passesFd highDerivative high solHigh (.QuasiNewton (.JacobianUpdate .GreenstadtFirst)) false := by
  decide +kernel

/-- `greenstadt1_jac/polynom.rs` L42-56. -/
theorem greenstadt1_jac_square_jac :
    passesJac square2 dsquare one solSquare (.QuasiNewton (.JacobianUpdate .GreenstadtFirst)) false := by
  decide +kernel

/-- `greenstadt1_jac/polynom.rs` L59-73. -/
theorem greenstadt1_jac_root_with_high_derivative_jac :
    passesJac highDerivative highDerivativeJac high solHigh (.QuasiNewton (.JacobianUpdate .GreenstadtFirst)) false := by
  decide +kernel

/-- `greenstadt2_inv_jac/broyden.rs` L141-154. -/
theorem greenstadt2_inv_jac_broyden_case9_fd :
    passesFd broydenCase9 initCase9 sol9 (.QuasiNewton (.InverseJacobianUpdate .GreenstadtSecond)) true := by
  decide +kernel

/-- `greenstadt2_inv_jac/broyden.rs` L157-171. -/
theorem greenstadt2_inv_jac_broyden_case9_jac :
    passesJac broydenCase9 broydenCase9Jac initCase9 sol9 (.QuasiNewton (.InverseJacobianUpdate .GreenstadtSecond)) true := by
  decide +kernel

/-- `greenstadt2_inv_jac/polynom.rs` L10-23. -/
theorem greenstadt2_inv_jac_square :
    passesFd square2 one solSquare (.QuasiNewton (.InverseJacobianUpdate .GreenstadtSecond)) false := by
  decide +kernel

/-- `greenstadt2_inv_jac/polynom.rs` L26-39. -/
theorem greenstadt2_inv_jac_root_with_high_derivative :
    passesFd highDerivative high solHigh (.QuasiNewton (.InverseJacobianUpdate .GreenstadtSecond)) false := by
  decide +kernel

/-- `greenstadt2_inv_jac/polynom.rs` L42-56. -/
theorem greenstadt2_inv_jac_square_jac :
    passesJac square2 dsquare one solSquare (.QuasiNewton (.InverseJacobianUpdate .GreenstadtSecond)) false := by
  decide +kernel

/-- `greenstadt2_inv_jac/polynom.rs` L59-73. -/
theorem greenstadt2_inv_jac_root_with_high_derivative_jac :
    passesJac highDerivative highDerivativeJac high solHigh (.QuasiNewton (.InverseJacobianUpdate .GreenstadtSecond)) false := by
  decide +kernel

/-- `greenstadt2_jac/broyden.rs` L141-154. -/
theorem greenstadt2_jac_broyden_case9_fd :
    passesFd broydenCase9 initCase9 sol9 (.QuasiNewton (.JacobianUpdate .GreenstadtSecond)) true := by
  decide +kernel

/-- `greenstadt2_jac/broyden.rs` L157-171. -/
theorem greenstadt2_jac_broyden_case9_jac :
    passesJac broydenCase9 broydenCase9Jac initCase9 sol9 (.QuasiNewton (.JacobianUpdate .GreenstadtSecond)) true := by
  decide +kernel

/-- `greenstadt2_jac/polynom.rs` L10-23. -/
theorem greenstadt2_jac_square :
    passesFd square2 one solSquare (.QuasiNewton (.JacobianUpdate .GreenstadtSecond)) false := by
  decide +kernel

/-- `greenstadt2_jac/polynom.rs` L26-39. -/
theorem greenstadt2_jac_root_with_high_derivative :
    passesFd highDerivative high solHigh (.QuasiNewton (.JacobianUpdate .GreenstadtSecond)) false := by
  decide +kernel

/-- `greenstadt2_jac/polynom.rs` L42-56. -/
theorem greenstadt2_jac_square_jac :
    passesJac square2 dsquare one solSquare (.QuasiNewton (.JacobianUpdate .GreenstadtSecond)) false := by
  decide +kernel

/-- `greenstadt2_jac/polynom.rs` L59-73. -/
theorem greenstadt2_jac_root_with_high_derivative_jac :
    passesJac highDerivative highDerivativeJac high solHigh (.QuasiNewton (.JacobianUpdate .GreenstadtSecond)) false := by
  decide +kernel

/-- `newton_raphson/broyden.rs` L123-134. -/
theorem newton_raphson_broyden_case9_fd :
    passesFd broydenCase9 initCase9 sol9 .NewtonRaphson false := by
  decide +kernel

/-- `newton_raphson/broyden.rs` L137-149. -/
theorem newton_raphson_broyden_case9_jac :
    passesJac broydenCase9 broydenCase9Jac initCase9 sol9 .NewtonRaphson false := by
  decide +kernel

/-- `newton_raphson/polynom.rs` L8-19. -/
theorem newton_raphson_square :
    passesFd square2 one solSquare .NewtonRaphson false := by
  decide +kernel

/-- `newton_raphson/polynom.rs` L22-33. -/
theorem newton_raphson_root_with_high_derivative :
    passesFd highDerivative high solHigh .NewtonRaphson false := by
  decide +kernel

/-- `newton_raphson/polynom.rs` L36-48. -/
theorem newton_raphson_square_jac :
    passesJac square2 dsquare one solSquare .NewtonRaphson false := by
  decide +kernel

/-- `newton_raphson/polynom.rs` L51-63. -/
theorem newton_raphson_root_with_high_derivative_jac :
    passesJac highDerivative highDerivativeJac high solHigh .NewtonRaphson false := by
  decide +kernel

/-- `stationary_newton/broyden.rs` L125-136. -/
theorem stationary_newton_broyden_case9_fd :
    passesFd broydenCase9 initCase9 sol9 (.QuasiNewton .StationaryNewton) false := by
  decide +kernel

/-- `stationary_newton/broyden.rs` L139-151. -/
theorem stationary_newton_broyden_case9_jac :
    passesJac broydenCase9 broydenCase9Jac initCase9 sol9 (.QuasiNewton .StationaryNewton) false := by
  decide +kernel

/-- `stationary_newton/polynom.rs` L10-21. -/
theorem stationary_newton_square :
    passesFd square2 one solSquare (.QuasiNewton .StationaryNewton) false := by
  decide +kernel

/-- `stationary_newton/polynom.rs` L39-51. -/
theorem stationary_newton_square_jac :
    passesJac square2 dsquare one solSquare (.QuasiNewton .StationaryNewton) false := by
  decide +kernel

set_option maxRecDepth 1000000 in
/-- The first example of the documentation (`lib.rs` L236-275, `solver/mod.rs` L26-48): the root of `x² - 2` found from 1 prints as
documented. -/
example : (match solve (suiteConfig one IterativeParamsFD.default.toIterative .NewtonRaphson false) (fromFunction square2) .new .new with
    | .ok (st, s, .ok ()) => (st.iter, f64Text (s.inputs 0))
    | _ => (0, [])) = (4, chars! "1.4142135623747443") := by
  decide +kernel

end Nrf.Validate
