import Verif.Model.UserModel

/-!
# Solver errors: `errors.rs`
-/

namespace Nrf

/-- `errors.rs` L135-144, `SolverInternalError`. -/
inductive SolverInternalError (EI EU : Type) where
  | invalidJacobian (e : ModelError EI EU)
  | invalidJacobianInverse

/-- `errors.rs` L183-195, `SolverError`. -/
inductive SolverError (EI EU : Type) where
  | nonConvergence
  | modelInitialEvaluation (msg : String)
  | modelEvaluation (e : ModelError EI EU)
  | jacobian (e : SolverInternalError EI EU)
  | finalEvaluation

section
variable {EI EU : Type} (showI : EI → String) (showU : EU → String)

/-- `errors.rs` L153-158, `Display for SolverInternalError`. -/
def SolverInternalError.display : SolverInternalError EI EU → String
  | .invalidJacobian e => "Invalid jacobian: " ++ e.display showI showU
  | .invalidJacobianInverse => "Non invertible jacobian"

/-- `errors.rs` L204-220, `Display for SolverError`. -/
def SolverError.display : SolverError EI EU → String
  | .nonConvergence => "Convergence not reached"
  | .modelInitialEvaluation msg => "Initial model evaluation failed: " ++ msg
  | .modelEvaluation e => "Model evaluation failed: " ++ e.display showI showU
  | .jacobian e => "Jacobian error: " ++ e.display showI showU
  | .finalEvaluation => "Final model evaluation failed"

end
end Nrf
