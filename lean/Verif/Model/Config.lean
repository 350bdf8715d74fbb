import Verif.Model.Residuals
import Verif.Model.Iteratives
import Verif.Model.Method

/-!
# Solver parameters and construction: `solver/parameters.rs`, `solver/default.rs`,
`RootFinder::new`
-/

namespace Nrf

/-- `solver/parameters.rs` L47-53. -/
structure SolverParameters (F : Type) where
  problemSize : Nat
  tolerance : F
  maxIter : Nat
  method : ResolutionMethod
  damping : Bool
  deriving DecidableEq

/-- The user inputs held by a `RootFinder` (`solver/rootfinder.rs` L33-37) once
the dimension checks of `RootFinder::new` have passed, with the linear algebra
the solver runs on. -/
structure Config (F : Type) (n : Nat) where
  params : SolverParameters F
  guess : Vec F n
  iters : Fin n → Iterative F
  res : ResConf n
  la : LinAlg F n

/-- Which dimension check of `RootFinder::new` failed, with both sizes printed by
the message (`solver/rootfinder.rs` L69-89). -/
inductive NewPanic where
  | residuals (len problemSize : Nat)
  | guess (len problemSize : Nat)
  | iteratives (len problemSize : Nat)
  deriving DecidableEq, Repr

/-- `solver/rootfinder.rs` L59-111, `RootFinder::new`: the dimension checks, then
the user inputs with entry `i` of every list.  `ResidualsConfig.length` is the
length of the stopping criteria; a configuration built by `ResidualsConfig::new`
has as many update methods (reading past the end of that slice would panic and is
excluded by `h`). -/
def Config.new {F : Type} (params : SolverParameters F) (guess : List F)
    (iters : List (Iterative F)) (res : ResidualsConfig)
    (h : res.length = res.stoppingCriterias.length ∧ res.length = res.updateMethods.length)
    (la : (n : Nat) → LinAlg F n) : Except NewPanic (Config F params.problemSize) :=
  if h1 : res.length ≠ params.problemSize then
    .error (.residuals res.length params.problemSize)
  else if h2 : guess.length ≠ params.problemSize then
    .error (.guess guess.length params.problemSize)
  else if h3 : iters.length ≠ params.problemSize then
    .error (.iteratives iters.length params.problemSize)
  else .ok
    { params := params
      guess := fun i => guess[i.val]'(by have := i.isLt; omega)
      iters := fun i => iters[i.val]'(by have := i.isLt; omega)
      res :=
        { stop := fun i => res.stoppingCriterias[i.val]'(by have := i.isLt; omega)
          upd := fun i => res.updateMethods[i.val]'(by have := i.isLt; omega) }
      la := la params.problemSize }

/-- `solver/default.rs` L78-87: the parameters chosen by `default_with_guess`. -/
def defaultParameters {F : Type} [Scalar F] (guess : List F) (method : ResolutionMethod)
    (damping : Bool) : SolverParameters F :=
  { problemSize := guess.length, tolerance := Scalar.dec 1 6, maxIter := 50, method, damping }

/-- `solver/default.rs` L63-90, `default_with_guess`. -/
def defaultWithGuess {F : Type} [Scalar F] (guess : List F) (iters : List (Iterative F))
    (res : ResidualsConfig)
    (h : res.length = res.stoppingCriterias.length ∧ res.length = res.updateMethods.length)
    (method : ResolutionMethod) (damping : Bool) (la : (n : Nat) → LinAlg F n) :
    Except NewPanic (Config F guess.length) :=
  Config.new (defaultParameters guess method damping) guess iters res h la

end Nrf
