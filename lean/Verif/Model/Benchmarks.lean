import Verif.Model.RootFinder
import Verif.Model.TestCases
import Verif.Model.Lu
import Verif.Model.Binary64

/-!
# The benchmarks: `benches/square2/static_types.rs`, `benches/square2/dynamic_types.rs`, `benches/broyden_case8.rs`

`criterion` calls the closure of a benchmark again and again; how often and how the time is taken is not modelled.  The
solver is built once, outside the closure.
-/

namespace Nrf.Benchmarks
open TestCases

/-- `static_types.rs` L20-23. -/
structure UserModelState (F : Type) where
  iteratives : Vec F 1
  output : Vec F 1

section
variable {F : Type} [Scalar F]

/-- `static_types.rs` L45-65 with L15-18.  The error type is never used for a value: `evaluate` always returns `Ok`. -/
def userModel : UserModel F 1 Unit Unit (UserModelState F) where
  lenProblem _ := 1
  setIteratives s x := { s with iteratives := x }
  getIteratives s := s.iteratives
  evaluate s := ({ s with output := square2 s.iteratives }, .ok ())
  getResiduals s := { left := s.output, right := fun _ => Scalar.zero }
  jacobianProvided _ := false
  getJacobian s := (s, .ok { left := mzero, right := mzero })
  getMemory _ := []
  setMemory s _ := s
  displayUnusable _ := "Not a good value"

/-- `static_types.rs` L67-68 and L79-80: `INITIALIZATION` and `UNRESOLVED_OUTPUT`, put into the model before every call. -/
def UserModelState.reset : UserModelState F := ⟨fun _ => Scalar.one, fun _ => Scalar.neg Scalar.one⟩

/-- `static_types.rs` L84-109: the solver that is built once. -/
def staticConfig [HasSpecials F] : Config F 1 where
  params := { problemSize := 1, tolerance := Scalar.dec 1 6, maxIter := 50, method := .NewtonRaphson, damping := false }
  guess := fun _ => Scalar.one
  iters := fun _ => IterativeParamsFD.default.toIterative
  res := ⟨fun _ => .Abs, fun _ => .Abs⟩
  la := nalgebraLinAlg F 1

/-- `benches/data/broyden_case8_*.xml`, with `broyden_case8.rs` L57-65: all ten files differ in the method only.  The
unknowns have the parameters written in the file, which are the default ones. -/
def case8Config [HasSpecials F] (method : ResolutionMethod) : Config F 20 where
  params := { problemSize := 20, tolerance := Scalar.dec 1 6, maxIter := 60, method, damping := true }
  guess := broydenInit 20
  iters := fun _ => IterativeParamsFD.default.toIterative
  res := ⟨fun _ => .Abs, fun _ => .Abs⟩
  la := nalgebraLinAlg F 20

/-- `benches/square2/dynamic_types.rs` L25-43 and L55-66, with `solver/default.rs` L63-90: the solvers with `it` the
default parameters with or without finite differences (L27, L57).  The vectors of the benchmark have dynamic dimensions,
all of length one; C94 shows that the fixed dimension is then the same. -/
def dynamicConfig (it : Iterative F) (method : ResolutionMethod) : Config F 1 where
  params := { problemSize := 1, tolerance := Scalar.dec 1 6, maxIter := 50, method, damping := false }
  guess := fun _ => Scalar.one
  iters := fun _ => it
  res := ⟨fun _ => .Abs, fun _ => .Abs⟩
  la := nalgebraLinAlg F 1

/-- `static_types.rs` L72-82, `solve_problem`, called `k` times in a row.  `true` when every `unwrap` (L81) met `Ok`. -/
def solveProblems [HasSpecials F] : Nat → Solver F 1 → Bool
  | 0, _ => true
  | k + 1, st =>
    match solve staticConfig userModel st .reset with
    | .ok (st, _, .ok ()) => solveProblems k st
    | _ => false

end
end Nrf.Benchmarks
