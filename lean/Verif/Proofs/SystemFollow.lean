import Verif.Proofs.StepFloat

/-!
# Solves of systems in binary64, followed through sets of points
-/

set_option linter.unusedSectionVars false

namespace Nrf
open Spec Fl

section
variable {n : Nat} {A B : Matrix (Fin n) (Fin n) ℝ} {α β η ε M X : ℝ}
variable {c : Config F64 n} {EI EU S : Type} {m : UserModel F64 n EI EU S} {inv : S → Prop} {D : Vec F64 n → Prop}
variable {f : Vec F64 n → ResidualsValues F64 n} {g : Vec F64 n → JacobianValues F64 n}

/-- If each pass leads from the points `Q k` to points `Q (k + 1)`, and the points `Q N` are within the tolerance, the solve
succeeds after at most `N` iterations. -/
theorem system_reaches (hc : SystemDefault c) (hf : Computes m inv D f) {N : Nat} (Q : Nat → Vec F64 n → Prop)
    (h0 : Q 0 c.guess) (hD : D c.guess) (hfin : ∀ k x, Q k x → ∀ i, (differences f x i).IsFinite)
    (hpass : ∀ k (x : Vec F64 n) st s, k < N → Q k x → st.debug = false → At m inv f s x →
      ∃ st' s' y, iterate c m st s = .ok (st', s', .ok (amax (evaluateErrors c m s'))) ∧ At m inv f s' y ∧
        st'.debug = false ∧ st'.valid = true ∧ Q (k + 1) y)
    (ht : c.params.tolerance.IsFinite) (ht0 : (0 : ℝ) ≤ c.params.tolerance.val) (hNm : N ≤ c.params.maxIter)
    (hend : ∀ x, Q N x → ‖reals (differences f x)‖ ≤ c.params.tolerance.val) {s : S} (hs : inv s) :
    ∃ st' s' x k, solve c m .new s = .ok (st', s', .ok ()) ∧ st'.iter ≤ N ∧ At m inv f s' x ∧ k ≤ N ∧ Q k x ∧
      ‖reals (differences f x)‖ ≤ c.params.tolerance.val := by
  have hreach : ∀ {k x}, Q k x → (Fl.ltb c.params.tolerance (amax (errorsAt c f x)) = false ↔
      ‖reals (differences f x)‖ ≤ c.params.tolerance.val) := by
    intro k x hx
    rw [system_errors hc, ← reals_abs]
    exact amax_reaches (fun i => abs_finite (hfin k x hx i)) ht ht0
  obtain ⟨k, st', s', h1, ⟨x, hat, hd, hv, hx, hk⟩, h3, h4⟩ := solve_follow (c := c) hf
    (fun k st s => ∃ x, At m inv f s x ∧ st.debug = false ∧ st.valid = true ∧ Q k x ∧ k ≤ N)
    (by
      rintro k st s ⟨x, hat, hd, hv, hx, hk⟩ hgo
      have hkN : k < N := by
        rcases lt_or_eq_of_le hk with h | h
        · exact h
        exfalso
        subst h
        have hgo' := hgo
        unfold continues at hgo'
        rw [Bool.and_eq_true, hat.errors] at hgo'
        have := (hreach hx).2 (hend x hx)
        exact absurd (hgo'.1.symm.trans this) (by decide)
      obtain ⟨st', s', y, hi, hat', hd', hv', hy⟩ := hpass k x st s hkN hx hd hat
      exact ⟨st', s', hi, y, hat', hd', hv', hy, by omega⟩)
    hs hD (fun s0 hs0 => ⟨c.guess, hs0, rfl, rfl, h0, by omega⟩)
  have hle : Fl.ltb c.params.tolerance (amax (errorsAt c f x)) = false := by
    rw [hat.errors] at h3
    unfold continues at h3
    rw [Bool.and_eq_false_iff, decide_eq_false_iff_not] at h3
    rcases h3 with h | h
    · exact h
    · have : k = N := by omega
      subst this
      exact (hreach hx).2 (hend x hx)
  refine ⟨st', s', x, k, ?_, by omega, hat, hk, hx, (hreach hx).1 hle⟩
  refine h1.trans ?_
  rw [hat.errors]
  unfold finalResult
  have : Scalar.lt c.params.tolerance (amax (errorsAt c f x)) = false := hle
  rw [this, hv]
  rfl

/-- A Newton-Raphson pass with a Jacobian. -/
theorem system_newton_pass (hn : n ≤ 2 ^ 40) (hc : SystemDefault c) (hdot : AccurateDot c.la) (hla : c.la.inv = luInverse)
    (hmeth : c.params.method = .NewtonRaphson) (hf : Computes m inv D f) (hg : Differentiates m inv f g)
    (hw : WellPosed A B α β) (hβ0 : 0 ≤ β) {x : Vec F64 n} (hx : ∀ i, (x i).IsFinite) (hη0 : 0 ≤ η)
    (hJ : ∀ i j, (jacobianDifferences g x i j).IsFinite)
    (hη : ∀ i, ∑ j, |A i j - ((jacobianDifferences g x i j).val : ℝ)| ≤ η) (hβη : β * η ≤ 1 / 16)
    (hr : ∀ i, (differences f x i).IsFinite) {φ : Fin n → ℝ} (he : ‖reals (differences f x) - φ‖ ≤ ε)
    (hM : ‖φ‖ ≤ M) (hX : ‖reals x - B.mulVec φ‖ ≤ X) (hbig : M + ε ≤ 2 ^ 200) (hX0 : 2 ^ (-900 : ℤ) ≤ X) (hX1 : X ≤ 2 ^ 200)
    (hD : ∀ y : Vec F64 n, (∀ i, (y i).IsFinite) → ‖reals y - (reals x - B.mulVec φ)‖ ≤ stepError n α β η ε M X → D y)
    {st : Solver F64 n} {s : S} (hdb : st.debug = false) (hat : At m inv f s x) :
    ∃ st' s' y, iterate c m st s = .ok (st', s', .ok (amax (evaluateErrors c m s'))) ∧ At m inv f s' y ∧
      st'.debug = false ∧ st'.valid = true ∧ (∀ i, (y i).IsFinite) ∧
      ‖reals y - (reals x - B.mulVec φ)‖ ≤ stepError n α β η ε M X := by
  obtain ⟨C, hCi, hC, hCB⟩ := luInverse_accurate hw hJ hη hβη
  rw [← hla] at hCi
  obtain ⟨s1, J, hs1, hj⟩ := system_obtains_analytic hc hg hCi s st.jac hat
  have key := fun i => step_float hn hdot hw hη0 hC hCB hx hr he hM hX hbig hX0 hX1 i
  have hstep := computeStep_computed (st := { st with iter := st.iter + 1 }) hdb (.inl hmeth) hs1 hj
  rw [system_next hc hx fun i => (key i).1] at hstep
  have hE0 : 0 ≤ stepError n α β η ε M X := by
    have hM0 : 0 ≤ M := (norm_nonneg _).trans hM
    have hε0 : 0 ≤ ε := (norm_nonneg _).trans he
    have hX00 : 0 ≤ X := (norm_nonneg _).trans hX
    rcases Nat.eq_zero_or_pos n with rfl | h0
    · have e : ((0 : ℕ) : ℝ) ^ 4 = 0 := by norm_num
      unfold stepError
      rw [e]
      have : 2 * (2 : ℝ) ^ (-53 : ℤ) * X = 2 * ur * X := rfl
      rw [this]
      have hu := ur_pos
      have h1 : 48 * ((0 : ℝ) * 3 ^ 0 * 2 ^ (-53 : ℤ) * (α * β)) = 0 := by ring
      rw [h1]
      positivity
    · exact (_root_.abs_nonneg _).trans (key ⟨0, h0⟩).2.2
  set y : Vec F64 n := fun i => Fl.add (x i) (c.la.dot (mneg C i) (differences f x)) with hy
  have hyn : ‖reals y - (reals x - B.mulVec φ)‖ ≤ stepError n α β η ε M X :=
    (pi_norm_le_iff_of_nonneg hE0).2 fun i => (key i).2.2
  obtain ⟨s', hs', hi⟩ := iterate_at (c := c) hf hstep hdb hs1 (hD y (fun i => (key i).2.1) hyn)
    (fun h => by rw [hc.damping] at h; cases h)
  rw [← hs'.errors] at hi
  exact ⟨_, s', y, hi, hs', (storeSteps_fields ..).2.2.2.2.trans hdb, (storeSteps_fields ..).2.2.2.1,
    fun i => (key i).2.1, hyn⟩

end
end Nrf
