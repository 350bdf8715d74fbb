import Verif.Model.Residuals

/-!
# The user's model: `model/*.rs`
-/

namespace Nrf

/-- `model/error.rs` L32-41. -/
inductive ModelError (EI EU : Type) where
  | inaccurate (e : EI)
  | unusable (e : EU)

/-- `Display for ModelError` (`model/error.rs` L50-55). -/
def ModelError.display {EI EU : Type} (showI : EI → String) (showU : EU → String) :
    ModelError EI EU → String
  | .inaccurate e => "InaccurateValues Error: " ++ showI e
  | .unusable e => "UnusableValuesError Error: " ++ showU e

/-- The trait `Model` (`model/model_definition.rs` L40-124) for a model whose
state has type `S`.  `&mut self` methods return the new state; `&self` methods
are functions of the state.  `displayUnusable` is `Display` of
`UnusableValuesError`. -/
structure UserModel (F : Type) (n : Nat) (EI EU S : Type) where
  lenProblem : S → Nat
  setIteratives : S → Vec F n → S
  getIteratives : S → Vec F n
  evaluate : S → S × Except (ModelError EI EU) Unit
  getResiduals : S → ResidualsValues F n
  jacobianProvided : S → Bool
  getJacobian : S → S × Except (ModelError EI EU) (JacobianValues F n)
  getMemory : S → List F
  setMemory : S → List F → S
  displayUnusable : EU → String

/-- State of the four function adapters (`model/model_from_func.rs` L31-37 and
L118-125, `model/model_from_closure.rs` L30-36 and L118-125).  The fields are
public in Rust: the user may set a constant right side. -/
structure AdapterState (F : Type) (n : Nat) where
  inputs : Vec F n
  left : Vec F n
  right : Vec F n

section
variable {F : Type} [Scalar F] {n : Nat}

/-- `UserModelFromFunction` (`model/model_from_func.rs` L58-82) and
`UserModelFromClosure` (`model/model_from_closure.rs` L57-81).  Both error types
are `Infallible` (`Empty`).  The Jacobian and memory methods keep the default
bodies of the trait (`model/model_definition.rs` L90-123).  User functions are
assumed to return vectors of dimension `n`. -/
def fromFunction (f : Vec F n → Vec F n) : UserModel F n Empty Empty (AdapterState F n) where
  lenProblem _ := n
  setIteratives s x := { s with inputs := x }
  getIteratives s := s.inputs
  evaluate s := ({ s with left := f s.inputs }, .ok ())
  getResiduals s := { left := s.left, right := s.right }
  jacobianProvided _ := false
  getJacobian s := (s, .ok { left := mzero, right := mzero })
  getMemory _ := []
  setMemory s _ := s
  displayUnusable e := nomatch e

/-- `UserModelFromFunctionAndJacobian` (`model/model_from_func.rs` L148-184) and
`UserModelFromClosureAndJacobian` (`model/model_from_closure.rs` L148-184). -/
def fromFunctionAndJacobian (f : Vec F n → Vec F n) (jac : Vec F n → Mat F n) :
    UserModel F n Empty Empty (AdapterState F n) where
  lenProblem _ := n
  setIteratives s x := { s with inputs := x }
  getIteratives s := s.inputs
  evaluate s := ({ s with left := f s.inputs }, .ok ())
  getResiduals s := { left := s.left, right := s.right }
  jacobianProvided _ := true
  getJacobian s := (s, .ok { left := jac s.inputs, right := mzero })
  getMemory _ := []
  setMemory s _ := s
  displayUnusable e := nomatch e

/-- State built by `new` of the adapters: zero inputs, NaN left side, zero right
side (`model/model_from_func.rs` L39-56 and L127-146, `model_from_closure.rs`
L38-55 and L127-146). -/
def AdapterState.new [HasSpecials F] : AdapterState F n :=
  { inputs := fun _ => Scalar.zero, left := fun _ => HasSpecials.nan, right := fun _ => Scalar.zero }

end
end Nrf
