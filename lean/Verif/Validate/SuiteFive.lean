import Verif.Validate.Suite

/-!
# Tests of the repository with five unknowns, run on the model

Three tests of `tests/solver`, as in `Validate/Suite.lean`.
-/

namespace Nrf.Validate
open TestCases

/-- `broyden1965.rs` L59-81, in decimal. -/
def sol5 : Vec F64 5 :=
  ![Scalar.neg (f64 (chars! "0.822216860374942")),
    Scalar.neg (f64 (chars! "0.7671273188366534")),
    Scalar.neg (f64 (chars! "0.6801151944202548")),
    Scalar.neg (f64 (chars! "0.5433006255144477")),
    Scalar.neg (f64 (chars! "0.32970971675589134"))]

def sol6 : Vec F64 5 :=
  ![Scalar.neg (f64 (chars! "0.6955898448220816")),
    Scalar.neg (f64 (chars! "0.6643460752880244")),
    Scalar.neg (f64 (chars! "0.606858039869687")),
    Scalar.neg (f64 (chars! "0.5023562299431505")),
    Scalar.neg (f64 (chars! "0.3166247903553998"))]

set_option maxRecDepth 1000000

/-- `broyden1_jac/broyden.rs` L25-39. -/
theorem broyden1_jac_broyden_case5_jac :
    passesJac broydenCase5 broydenCase5Jac (broydenInit 5) sol5 (.QuasiNewton (.JacobianUpdate .BroydenFirst)) false := by
  decide +kernel

/-- `greenstadt2_inv_jac/broyden.rs` L58-72. -/
theorem greenstadt2_inv_jac_broyden_case6_jac :
    passesJac broydenCase6 broydenCase6Jac (broydenInit 5) sol6 (.QuasiNewton (.InverseJacobianUpdate .GreenstadtSecond)) true := by
  decide +kernel

/-- `newton_raphson/broyden.rs` L7-18. -/
theorem newton_raphson_broyden_case5_fd :
    passesFd broydenCase5 (broydenInit 5) sol5 .NewtonRaphson false := by
  decide +kernel

end Nrf.Validate
