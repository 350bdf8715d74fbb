import Verif.Model.Program
import Verif.Props.C65

/-!
# Concrete runs of the program
-/

namespace Nrf.Demo
open scoped Exact
open Program

/-- Newton's method on `x² = 2` from 2. -/
def setup (env : Env (AdapterState ℚ 1)) : Setup ℚ 1 Empty Empty (AdapterState ℚ 1) :=
  { c := cfg .NewtonRaphson false 5 (1 / 1000) 2, m := sqrt2, env, num := ratText, mat := matText, fd := false,
    its := [lit "x"] }

/-- A new solver; there is one file. -/
def world : World ℚ 1 (AdapterState ℚ 1) :=
  { debug := false, iter := 0, log := none, jac := .new, itStep := none, resStep := none, resCur := none,
    valid := true, model := start, files := fun q => if q = "log.txt" then some (lit "old") else none, ops := 0 }

/-- The number of iterations, the panic, and whether `solve` returned a solution. -/
def outcome {E : Type} : EStateM.Result Abort (World ℚ 1 (AdapterState ℚ 1)) (Except E Unit) → Nat × Option Abort × Option Bool
  | .ok r w => (w.iter, none, some r.toBool)
  | .error x w => (w.iter, some x, none)

/-- What is in a file afterwards. -/
def fileAfter {A : Type} (r : EStateM.Result Abort (World ℚ 1 (AdapterState ℚ 1)) A) (path : String) : Option (List Char) :=
  match r with
  | .ok _ w => w.files path
  | .error _ w => w.files path

end Nrf.Demo
