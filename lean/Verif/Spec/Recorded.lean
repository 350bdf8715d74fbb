import Verif.Model.UserModel

/-!
# Observing the calls made on a user model

`recorded m` behaves like `m` and keeps the list of the state-changing calls made
on it, in order.  `Proofs/Recorded.lean` shows that recording does not change a
solve.
-/

namespace Nrf

/-- A state-changing call on a user model, with its result. -/
inductive Call (F : Type) (n : Nat) (EI EU : Type) where
  | setIteratives (x : Vec F n)
  | evaluate (r : Except (ModelError EI EU) Unit)
  | getJacobian (r : Except (ModelError EI EU) (JacobianValues F n))
  | setMemory (l : List F)

/-- The model `m`, recording every `&mut self` call. -/
def recorded {F : Type} {n : Nat} {EI EU S : Type} (m : UserModel F n EI EU S) :
    UserModel F n EI EU (S × List (Call F n EI EU)) where
  lenProblem s := m.lenProblem s.1
  setIteratives s x := (m.setIteratives s.1 x, s.2 ++ [.setIteratives x])
  getIteratives s := m.getIteratives s.1
  evaluate s := (((m.evaluate s.1).1, s.2 ++ [.evaluate (m.evaluate s.1).2]), (m.evaluate s.1).2)
  getResiduals s := m.getResiduals s.1
  jacobianProvided s := m.jacobianProvided s.1
  getJacobian s :=
    (((m.getJacobian s.1).1, s.2 ++ [.getJacobian (m.getJacobian s.1).2]), (m.getJacobian s.1).2)
  getMemory s := m.getMemory s.1
  setMemory s l := (m.setMemory s.1 l, s.2 ++ [.setMemory l])
  displayUnusable := m.displayUnusable

/-- Number of `evaluate` calls. -/
def countEvaluate {F : Type} {n : Nat} {EI EU : Type} : List (Call F n EI EU) → Nat
  | [] => 0
  | .evaluate _ :: t => countEvaluate t + 1
  | _ :: t => countEvaluate t

/-- Number of `get_jacobian` calls. -/
def countGetJacobian {F : Type} {n : Nat} {EI EU : Type} : List (Call F n EI EU) → Nat
  | [] => 0
  | .getJacobian _ :: t => countGetJacobian t + 1
  | _ :: t => countGetJacobian t

/-- The points set on the model, in order. -/
def points {F : Type} {n : Nat} {EI EU : Type} : List (Call F n EI EU) → List (Vec F n)
  | [] => []
  | .setIteratives x :: t => x :: points t
  | _ :: t => points t

end Nrf
