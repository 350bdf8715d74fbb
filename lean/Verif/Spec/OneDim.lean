import Verif.Spec.Function
import Verif.Spec.Exact
import Verif.Spec.Demo
import Mathlib.Data.Real.Archimedean

/-!
# One equation with one unknown in exact arithmetic

Predicates and concrete configurations shared by the statements about scalar problems.
-/

namespace Nrf.Spec
open scoped Exact

section
variable {K : Type} [Field K] [LinearOrder K]

/-- `x² = a` with its derivative. -/
def square (a : K) : UserModel K 1 Empty Empty (AdapterState K 1) :=
  fromFunctionAndJacobian (fun x _ => x 0 * x 0 - a) (fun x _ _ => 2 * x 0)

/-- `x² = a` without derivative. -/
def squareFd (a : K) : UserModel K 1 Empty Empty (AdapterState K 1) :=
  fromFunction (fun x _ => x 0 * x 0 - a)

/-- The default configuration in exact arithmetic: no limits, absolute residuals, no damping. -/
structure Default (c : Config K 1) : Prop where
  exact : c.la.IsExact
  damping : c.params.damping = false
  free : ∀ i v d, (c.iters i).stepLimitation v d = v + d
  stop : ∀ i, c.res.stop i = .Abs
  update : ∀ i, c.res.upd i = .Abs

/-- One of the eight methods that update a matrix. -/
def Updating (meth : ResolutionMethod) : Prop :=
  ∃ u, meth = .QuasiNewton (.JacobianUpdate u) ∨ meth = .QuasiNewton (.InverseJacobianUpdate u)

end

/-- The default configuration over the reals. -/
noncomputable def realConfig (method : ResolutionMethod) (guess tol : ℝ) (maxIter : Nat) :
    Config ℝ 1 where
  params := { problemSize := 1, tolerance := tol, maxIter, method, damping := false }
  guess := fun _ => guess
  iters := fun _ =>
    { stepLimitation := fun v d => v + d, computePerturbation := none, withFiniteDiff := false }
  res := { stop := fun _ => .Abs, upd := fun _ => .Abs }
  la := exactLinAlg ℝ 1

theorem realConfig_default (method : ResolutionMethod) (guess tol : ℝ) (maxIter : Nat) :
    Default (realConfig method guess tol maxIter) :=
  ⟨exactLinAlg_isExact ℝ 1, rfl, fun _ _ _ => rfl, fun _ => rfl, fun _ => rfl⟩

end Nrf.Spec

namespace Nrf.Demo
open scoped Exact

/-- The default configuration over the rationals, with finite-difference parameters. -/
def plain (method : ResolutionMethod) (guess tol : ℚ) (maxIter : Nat) : Config ℚ 1 where
  params := { problemSize := 1, tolerance := tol, maxIter, method, damping := false }
  guess := fun _ => guess
  iters := fun _ =>
    { stepLimitation := fun v d => v + d, computePerturbation := some fun _ => 1 / 100,
      withFiniteDiff := true }
  res := { stop := fun _ => .Abs, upd := fun _ => .Abs }
  la := la1

theorem plain_default (method : ResolutionMethod) (guess tol : ℚ) (maxIter : Nat) :
    Spec.Default (plain method guess tol maxIter) :=
  ⟨la1_isExact, rfl, fun _ _ _ => rfl, fun _ => rfl, fun _ => rfl⟩

end Nrf.Demo
