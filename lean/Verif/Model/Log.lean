import Verif.Model.Jacobian

/-!
# The simulation log: `solver/log.rs`

The file is modelled as the list of the entries written to it.  `SolverLog::new`
truncates the file and writes the header (L59-87), every other method appends
(L89-92).
-/

namespace Nrf

/-- One call of a `SolverLog` method. -/
inductive LogEntry (F : Type) (n : Nat) where
  /-- `SolverLog::new` (L59-87). -/
  | header
  /-- `add_parameters` (L94-103); the texts are functions of the configuration. -/
  | parameters
  /-- `add_new_iteration` (L119-134). -/
  | iteration (iter : Nat) (iteratives : Vec F n) (residuals : ResidualsValues F n)
      (errors : Vec F n)
  /-- `add_damping` (L105-118). -/
  | damping (iteratives : Vec F n) (residuals : ResidualsValues F n) (errors : Vec F n)
  /-- `add_content` with the text of `recompute_jacobian_to_log`
  (`rootfinder.rs` L474-478). -/
  | refused
  /-- `add_content` with the Jacobian (`rootfinder.rs` L492-497). -/
  | jacobian (j : JacobianMatrix F n)

end Nrf
