import Verif.Model.Log

/-!
# Reading a log

What a person reads in a log: the numbered states of the model.  A "Damping activated"
entry replaces the state of the iteration it follows; the other entries carry no state.
-/

namespace Nrf.Spec

/-- One numbered state: iteration number, iteratives, residuals, errors. -/
structure Logged (F : Type) (n : Nat) where
  iter : Nat
  iteratives : Vec F n
  residuals : ResidualsValues F n
  errors : Vec F n

/-- Read one more entry. -/
def readEntry {F : Type} {n : Nat} (acc : List (Logged F n)) : LogEntry F n → List (Logged F n)
  | .iteration k x r e => acc ++ [⟨k, x, r, e⟩]
  | .damping x r e =>
    match acc.getLast? with
    | some last => acc.dropLast ++ [⟨last.iter, x, r, e⟩]
    | none => acc
  | _ => acc

/-- The states read in a log, in order. -/
def readLog {F : Type} {n : Nat} (l : List (LogEntry F n)) : List (Logged F n) :=
  l.foldl readEntry []

end Nrf.Spec
