import Verif.Proofs.NewtonRun

/-!
# Runs of Newton-Raphson in exact arithmetic, to the end whatever it is
-/

set_option linter.unusedSectionVars false

namespace Nrf
open Spec
open scoped Exact
open Matrix

section
variable {K : Type} [Field K] [LinearOrder K] [IsStrictOrderedRing K] {n : Nat} {EI EU S : Type}
variable {c : Config K n} {m : UserModel K n EI EU S}
variable {inv : S → Prop} {D : Vec K n → Prop} {f : Vec K n → ResidualsValues K n}

/-- While the Jacobian stays invertible, the solve goes on until the errors are within the tolerance or the budget is
used up. -/
theorem newton_trace (hL : c.la.IsExact) (hm : c.params.method = .NewtonRaphson) (hdamp : c.params.damping = false)
    (hf : Computes m inv D f) (I : Nat → Vec K n → Prop)
    (hD : ∀ k x, I k x → D x) (h0 : I 0 c.guess)
    (hstep : ∀ k x, I k x → ¬ amax (errorsAt c f x) ≤ c.params.tolerance → ∃ pert J x', Source c m inv D f x pert J ∧
      J.det ≠ 0 ∧ x - J⁻¹ *ᵥ updateAt c f x = x' ∧
      (∀ z, Base x pert z → ∀ i, (c.iters i).stepLimitation (z i) (x' i - z i) = x' i) ∧ I (k + 1) x')
    (s : S) (hs : inv s) :
    ∃ st' s' x r, solve c m .new s = .ok (st', s', r) ∧ At m inv f s' x ∧ I st'.iter x ∧ st'.iter ≤ c.params.maxIter ∧
      (r = .ok () ∧ amax (errorsAt c f x) ≤ c.params.tolerance ∨
        r = .error .nonConvergence ∧ ¬ amax (errorsAt c f x) ≤ c.params.tolerance ∧ st'.iter = c.params.maxIter) := by
  obtain ⟨k, st', s', h1, h2, h3, h4⟩ := solve_follow (c := c) hf
    (fun k st s => st.debug = false ∧ st.valid = true ∧ st.iter = k ∧ k ≤ c.params.maxIter ∧
      ∃ x, At m inv f s x ∧ I k x)
    (by
      rintro k st s ⟨hd, hv, hi, hk, x, hat, hI⟩ hc
      rw [hat.errors] at hc
      simp only [continues, Bool.and_eq_true, decide_eq_true_eq] at hc
      obtain ⟨pert, J, x', hsrc, hdet, hx', hlim, hI'⟩ := hstep k x hI (not_le.2 ((ex_lt _ _).1 hc.1))
      obtain ⟨st', s', z, hs', -, hit, rfl⟩ := iterate_newton hL hf hsrc hdet hx' (hD _ _ hI') hlim
        (fun h => by rw [hdamp] at h; exact absurd h (by decide)) hd (.inl hm) hat
      refine ⟨_, s', hit, ?_⟩
      obtain ⟨g1, -, -, g4, g5⟩ := storeSteps_fields c.params.method
        { st with iter := st.iter + 1, jac := ⟨some J, some J⁻¹, false, false⟩, valid := true }
        x' z (errorsAt c f x') (errorsAt c f z)
      refine ⟨by rw [g5]; exact hd, by rw [g4], ?_, by omega, x', hs', hI'⟩
      rw [g1]
      change st.iter + 1 = _
      rw [hi])
    hs (hD _ _ h0) (fun s0 h => ⟨rfl, rfl, rfl, Nat.zero_le _, _, h, h0⟩)
  obtain ⟨-, hv, hi, hk, x, hat, hI⟩ := h2
  refine ⟨st', s', x, _, h1, hat, by rw [hi]; exact hI, by omega, ?_⟩
  rw [hat.errors] at h3 ⊢
  by_cases hle : amax (errorsAt c f x) ≤ c.params.tolerance
  · left
    have hlt : Scalar.lt c.params.tolerance (amax (errorsAt c f x)) = false := (ex_lt_false _ _).2 hle
    exact ⟨by simp only [finalResult, hlt, Bool.false_eq_true, if_false, hv, if_true], hle⟩
  · right
    have hlt : Scalar.lt c.params.tolerance (amax (errorsAt c f x)) = true := (ex_lt _ _).2 (not_le.1 hle)
    refine ⟨by simp only [finalResult, hlt, if_true], hle, ?_⟩
    rw [continues, hlt, Bool.true_and, decide_eq_false_iff_not] at h3
    omega

end
end Nrf
