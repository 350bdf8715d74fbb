import Verif.Props.C55
import Verif.Proofs.ConvexDamped
import Verif.Proofs.ChordScalar

/-!
# Runs of the one-dimensional solver that keep an invariant
-/

namespace Nrf
open scoped Exact

/-- If the points satisfy `I`, and `I N` puts the residual within the tolerance, at most `N` iterations are done, and the
result is within the tolerance. -/
theorem loop1d_run {f : ℝ → ℝ} {slope : ℝ → ℝ → ℝ} {tol guess : ℝ} {maxIter N : ℕ} (hN : N ≤ maxIter) (I : ℕ → ℝ → Prop)
    (h0 : I 0 guess) (hstep : ∀ k x, I k x → I (k + 1) (x - f x / slope x (f x))) (hend : ∀ x, I N x → |f x| ≤ tol) :
    (loop1d f slope tol maxIter guess (f guess)).2 ≤ N ∧
      |f (loop1d f slope tol maxIter guess (f guess)).1| ≤ tol ∧
      I (loop1d f slope tol maxIter guess (f guess)).2 (loop1d f slope tol maxIter guess (f guess)).1 := by
  obtain ⟨h1, h2, h3, h4⟩ := loop1d_spec f slope tol maxIter guess
  generalize (loop1d f slope tol maxIter guess (f guess)).2 = k at *
  generalize (loop1d f slope tol maxIter guess (f guess)).1 = x at *
  have hI : ∀ k, I k ((fun x => x - f x / slope x (f x))^[k] guess) := by
    intro k
    induction k with
    | zero => exact h0
    | succ k ih => rw [Function.iterate_succ_apply']; exact hstep _ _ ih
  have hk : k ≤ N := by
    by_contra hlt
    have := of_decide_eq_true (h3 N (not_le.1 hlt))
    exact absurd (hend _ (hI N)) (not_le.2 this)
  have hx : I k x := by rw [h1]; exact hI k
  refine ⟨hk, ?_, hx⟩
  by_contra hlt
  obtain rfl : k = maxIter := h4 (decide_eq_true (not_le.1 hlt))
  obtain rfl : k = N := by omega
  exact hlt (hend x hx)

end Nrf
