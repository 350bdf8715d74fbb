import Verif.Proofs.Loop
import Verif.Proofs.Exact
import Verif.Spec.Demo

/-!
# C01: `Ok(())` means solved
-/

namespace Nrf

/-- With any arithmetic: when `solve` returns `Ok`, the stopping test holds on the
model exactly as it was left. -/
theorem C01_any_arithmetic {F : Type} [Scalar F] {n : Nat} {EI EU S : Type}
    (c : Config F n) (m : UserModel F n EI EU S) (st st' : Solver F n) (s s' : S)
    (h : solve c m st s = .ok (st', s', .ok ())) :
    Scalar.lt c.params.tolerance (amax (c.res.evaluateStopping (m.getResiduals s'))) = false := by
  generalize hr : (Except.ok () : Except (SolverError EI EU) Unit) = r at h
  cases solve_outcome h with
  | initFailed he => cases hr
  | failed he hu hl => cases hr
  | finished he hu hl =>
    cases hl with
    | exit hrun hc =>
      have := hrun.error_eq rfl
      rw [this] at hr
      unfold finalResult at hr
      split at hr
      · cases hr
      · rename_i hlt; simpa [evaluateErrors] using hlt

open scoped Exact in
/-- In exact arithmetic: every stopping residual of the model left by a successful
solve is within the tolerance, for every history of the solver object. -/
theorem C01_ok_means_solved {K : Type} [Field K] [LinearOrder K] [IsStrictOrderedRing K]
    {n : Nat} {EI EU S : Type} (c : Config K n) (m : UserModel K n EI EU S)
    (st st' : Solver K n) (s s' : S) (h : solve c m st s = .ok (st', s', .ok ())) (i : Fin n) :
    |Spec.residual (c.res.stop i) ((m.getResiduals s').left i) ((m.getResiduals s').right i)| ≤
      c.params.tolerance :=
  stopping_le _ _ (C01_any_arithmetic c m st st' s s' h) i

open scoped Exact in
/-- The hypothesis is met: Newton-Raphson solves `x² = 2` from 2. -/
example : ∃ st' s', solve (Demo.cfg .NewtonRaphson false 5 (1 / 1000) 2) Demo.sqrt2 .new Demo.start =
    .ok (st', s', .ok ()) := Demo.kind_ok Demo.sqrt2_ok

end Nrf
