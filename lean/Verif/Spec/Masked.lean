import Verif.Model.UserModel

/-!
# A model whose inaccuracies are not reported
-/

namespace Nrf

/-- The model `m`, reporting every inaccurate evaluation as a success. -/
def masked {F : Type} {n : Nat} {EI EU S : Type} (m : UserModel F n EI EU S) :
    UserModel F n EI EU S :=
  { m with
    evaluate := fun s => match m.evaluate s with
      | (s', .error (.inaccurate _)) => (s', .ok ())
      | (s', r) => (s', r) }

/-- A state-changing call on a user model, without its result. -/
inductive CallArgs (F : Type) (n : Nat) where
  | setIteratives (x : Vec F n)
  | evaluate
  | getJacobian
  | setMemory (l : List F)

/-- The model `m`, recording every `&mut self` call but not the results. -/
def recordedArgs {F : Type} {n : Nat} {EI EU S : Type} (m : UserModel F n EI EU S) :
    UserModel F n EI EU (S × List (CallArgs F n)) where
  lenProblem s := m.lenProblem s.1
  setIteratives s x := (m.setIteratives s.1 x, s.2 ++ [.setIteratives x])
  getIteratives s := m.getIteratives s.1
  evaluate s := (((m.evaluate s.1).1, s.2 ++ [.evaluate]), (m.evaluate s.1).2)
  getResiduals s := m.getResiduals s.1
  jacobianProvided s := m.jacobianProvided s.1
  getJacobian s := (((m.getJacobian s.1).1, s.2 ++ [.getJacobian]), (m.getJacobian s.1).2)
  getMemory s := m.getMemory s.1
  setMemory s l := (m.setMemory s.1 l, s.2 ++ [.setMemory l])
  displayUnusable := m.displayUnusable

end Nrf
