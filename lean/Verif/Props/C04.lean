import Verif.Proofs.Loop
import Verif.Proofs.Exact
import Verif.Spec.Demo

/-!
# C04: non-convergence is reported exactly on an exhausted budget
-/

namespace Nrf

/-- With any arithmetic.  When the solve was not cut short by a model or Jacobian
error, non-convergence is reported exactly when the stopping test fails on the
model as it is left, and then the iteration budget is exhausted. -/
theorem C04_any_arithmetic {F : Type} [Scalar F] {n : Nat} {EI EU S : Type}
    (c : Config F n) (m : UserModel F n EI EU S) (st st' : Solver F n) (s s' : S)
    (r : Except (SolverError EI EU) Unit) (h : solve c m st s = .ok (st', s', r))
    (hr : r = .ok () ∨ r = .error .nonConvergence ∨ r = .error .finalEvaluation) :
    (r = .error .nonConvergence ↔
      Scalar.lt c.params.tolerance (amax (c.res.evaluateStopping (m.getResiduals s'))) = true) ∧
    (r = .error .nonConvergence →
      c.params.maxIter ≤ st'.iter ∧ (st.iter ≤ c.params.maxIter → st'.iter = c.params.maxIter)) := by
  cases solve_outcome h with
  | initFailed he => simp at hr
  | failed he hu hl =>
    exfalso
    cases hl with
    | failed hrun hc hi =>
      cases iterate_outcome hi with
      | evalFailed st1 s1 x st2 s2 e h1 h2 => cases h2; simp at hr
      | jacFailed st1 s1 e h1 => simp at hr
  | finished he hu hl =>
    cases hl with
    | exit hrun hc =>
      have he := hrun.error_eq rfl
      have hlt : Scalar.lt c.params.tolerance (amax (evaluateErrors c m s')) = true ↔
          finalResult c st' (amax (evaluateErrors c m s')) =
            (.error .nonConvergence : Except (SolverError EI EU) Unit) := by
        unfold finalResult
        split
        · simp_all
        · split <;> simp_all
      subst he
      refine ⟨hlt.symm, fun hn => ?_⟩
      have hlt := hlt.2 hn
      have : c.params.maxIter ≤ st'.iter := by
        simp [continues, hlt] at hc; exact hc
      exact ⟨this, fun h => le_antisymm (hrun.iter_le_max h) this⟩

open scoped Exact in
/-- In exact arithmetic: non-convergence is reported exactly when some stopping
residual of the final model exceeds the tolerance. -/
theorem C04_non_convergence_iff {K : Type} [Field K] [LinearOrder K] [IsStrictOrderedRing K]
    {n : Nat} {EI EU S : Type} (c : Config K n) (m : UserModel K n EI EU S)
    (st st' : Solver K n) (s s' : S) (r : Except (SolverError EI EU) Unit)
    (htol : 0 ≤ c.params.tolerance) (h : solve c m st s = .ok (st', s', r))
    (hr : r = .ok () ∨ r = .error .nonConvergence ∨ r = .error .finalEvaluation) :
    (r = .error .nonConvergence ↔ ∃ i, c.params.tolerance <
      |Spec.residual (c.res.stop i) ((m.getResiduals s').left i) ((m.getResiduals s').right i)|) ∧
    (r = .error .nonConvergence →
      c.params.maxIter ≤ st'.iter ∧ (st.iter ≤ c.params.maxIter → st'.iter = c.params.maxIter)) := by
  obtain ⟨h1, h2⟩ := C04_any_arithmetic c m st st' s s' r h hr
  refine ⟨h1.trans ?_, h2⟩
  have := stopping_iff c.res (m.getResiduals s') htol
  rw [← Bool.not_eq_false, not_iff_comm, not_exists]
  simp only [not_lt]
  exact this.symm

open scoped Exact in
/-- A budget of one iteration is not enough for `x² = 2` from 2. -/
example : ∃ st' s', solve (Demo.cfg .NewtonRaphson false 1 (1 / 1000) 2) Demo.sqrt2 .new Demo.start =
    .ok (st', s', .error .nonConvergence) := Demo.kind_nonConvergence (by decide +kernel)

end Nrf
