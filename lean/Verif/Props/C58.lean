import Verif.Proofs.Budget
import Verif.Spec.Demo

/-!
# C58: a larger budget only continues the resolution
-/

namespace Nrf

/-- A solve that ended for another reason than an exhausted budget ends in the same
way, with the same model state and the same solver object, under any larger budget;
a panic stays a panic. -/
theorem C58_same_outcome {F : Type} [Scalar F] {n : Nat} {EI EU S : Type}
    (c : Config F n) (m : UserModel F n EI EU S) (st : Solver F n) (s : S) (k K : Nat) (hk : k ≤ K)
    (hn : ∀ st' s', solve { c with params := { c.params with maxIter := k } } m st s ≠
      .ok (st', s', .error .nonConvergence)) :
    solve { c with params := { c.params with maxIter := K } } m st s =
      solve { c with params := { c.params with maxIter := k } } m st s := by
  have h := solve_more (c := c) (m := m) (st := st) (s := s) hk
  change ∀ st' s', solve (withMaxIter c k) m st s ≠ _ at hn
  change solve (withMaxIter c K) m st s = solve (withMaxIter c k) m st s
  rcases hr : solve (withMaxIter c k) m st s with p | ⟨st', s', err | u⟩
  · rw [hr] at h; exact h
  · match err, hr with
    | .nonConvergence, hr => exact absurd hr (hn st' s')
    | .modelInitialEvaluation msg, hr => rw [hr] at h; exact h
    | .modelEvaluation e, hr => rw [hr] at h; exact h
    | .jacobian e, hr => rw [hr] at h; exact h
    | .finalEvaluation, hr => rw [hr] at h; exact h
  · rw [hr] at h; exact h

/-- A solve stopped by its budget made the first calls of the solve with a larger
budget. -/
theorem C58_continues {F : Type} [Scalar F] {n : Nat} {EI EU S : Type}
    (c : Config F n) (m : UserModel F n EI EU S) (st st1 st2 : Solver F n) (s s1 s2 : S)
    (k K : Nat) (hk : k ≤ K) (calls1 calls2 : List (Call F n EI EU))
    (r : Except (SolverError EI EU) Unit)
    (h1 : solve { c with params := { c.params with maxIter := k } } (recorded m) st (s, []) =
      .ok (st1, (s1, calls1), .error .nonConvergence))
    (h2 : solve { c with params := { c.params with maxIter := K } } (recorded m) st (s, []) =
      .ok (st2, (s2, calls2), r)) :
    calls1 <+: calls2 ∧ st1.iter ≤ st2.iter := by
  have h := solve_more (c := c) (m := recorded m) (st := st) (s := (s, [])) hk
  change solve (withMaxIter c k) (recorded m) st (s, []) = _ at h1
  change solve (withMaxIter c K) (recorded m) st (s, []) = _ at h2
  rw [h1, h2] at h
  obtain ⟨e, h⟩ := h
  rcases hl : loop (withMaxIter c K) (recorded m) (K - st1.iter) st1 (s1, calls1) e with
    p | ⟨st3, ⟨s3, t3⟩, err | e3⟩
  · rw [hl] at h; cases h
  · rw [hl] at h; cases h
    refine ⟨loop_calls_prefix (by simp only [withMaxIter]; omega) hl, ?_⟩
    cases loop_outcome _ (by simp only [withMaxIter]; omega) hl with
    | failed hr hc hi => have := hr.iter_le; have := iterate_iter hi; omega
  · rw [hl] at h; cases h
    refine ⟨loop_calls_prefix (by simp only [withMaxIter]; omega) hl, ?_⟩
    cases loop_outcome _ (by simp only [withMaxIter]; omega) hl with
    | exit hr hc => exact hr.iter_le

open scoped Exact in
/-- `x² = 2` with budgets 2 (exhausted) and 5 (converged). -/
example :
    (∃ a b, solve (Demo.cfg .NewtonRaphson false 2 (1 / 1000) 2) (recorded Demo.sqrt2) .new
      (Demo.start, []) = .ok (a, b, .error .nonConvergence)) ∧
    (∃ a b, solve (Demo.cfg .NewtonRaphson false 5 (1 / 1000) 2) (recorded Demo.sqrt2) .new
      (Demo.start, []) = .ok (a, b, .ok ())) :=
  ⟨Demo.kind_nonConvergence (by decide +kernel), Demo.kind_ok (by decide +kernel)⟩

end Nrf
