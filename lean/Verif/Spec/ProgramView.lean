import Verif.Model.Program

/-!
# How the state of the program and a solver correspond
-/

namespace Nrf.Spec
open Program

section
variable {F : Type} {n : Nat} {S : Type}

/-- The solver of a program state; what will be logged is counted from here. -/
def solverOf (w : World F n S) : Solver F n :=
  { debug := w.debug, iter := w.iter, log := w.log.map fun _ => [], jac := w.jac, itStep := w.itStep,
    resStep := w.resStep, resCur := w.resCur, valid := w.valid }

/-- The same values in the fields. -/
structure SameFields (w : World F n S) (st : Solver F n) : Prop where
  debug : w.debug = st.debug
  iter : w.iter = st.iter
  log : w.log.isSome = st.log.isSome
  jac : w.jac = st.jac
  itStep : w.itStep = st.itStep
  resStep : w.resStep = st.resStep
  resCur : w.resCur = st.resCur
  valid : w.valid = st.valid

/-- The log file of `w` is `t` longer, all other files are as before. -/
def Appended (w w' : World F n S) (t : List Char) : Prop :=
  ∀ q, w'.files q = if w.log = some q then (w.files q).map (· ++ t) else w.files q

end
end Nrf.Spec
