import Verif.Proofs.NewtonRun
import Mathlib.Analysis.Convex.Slope
import Mathlib.Topology.Order.MonotoneConvergence
import Mathlib.Topology.Instances.Matrix
import Mathlib.Topology.Instances.Real.Lemmas
import Mathlib.Analysis.Normed.Group.Constructions

/-!
# Monotone convergence of Newton's method
-/

set_option linter.unusedSectionVars false

namespace Nrf
open Spec
open scoped Exact Topology
open Matrix Filter

variable {n : Nat}

/-- Each equation is convex, and the inverse of the Jacobian has no negative entry. -/
structure Spec.OrderConvex (F : Vec ℝ n → Vec ℝ n) (jac : Vec ℝ n → Mat ℝ n) : Prop where
  tangent : ∀ x y i, F x i + (jac x *ᵥ (y - x)) i ≤ F y i
  invertible : ∀ x, (jac x).det ≠ 0
  inverse : ∀ x i k, 0 ≤ (jac x)⁻¹ i k
  continuous : Continuous jac

namespace Monotone
variable {F : Vec ℝ n → Vec ℝ n} {jac : Vec ℝ n → Mat ℝ n}

/-- The next Newton iterate. -/
noncomputable def next (F : Vec ℝ n → Vec ℝ n) (jac : Vec ℝ n → Mat ℝ n) (x : Vec ℝ n) : Vec ℝ n :=
  x - (jac x)⁻¹ *ᵥ F x

theorem inverse_mulVec (h : OrderConvex F jac) (x : Vec ℝ n) {v : Vec ℝ n} (hv : ∀ i, 0 ≤ v i) (i : Fin n) :
    0 ≤ ((jac x)⁻¹ *ᵥ v) i := by
  change 0 ≤ ∑ k, (jac x)⁻¹ i k * v k
  exact Finset.sum_nonneg fun k _ => mul_nonneg (h.inverse x i k) (hv k)

theorem mulVec_next (h : OrderConvex F jac) (x : Vec ℝ n) : jac x *ᵥ (next F jac x - x) = -F x := by
  rw [next, sub_sub_cancel_left, Matrix.mulVec_neg, Matrix.mulVec_mulVec, ex_mul_inv (h.invertible x), Matrix.one_mulVec]

/-- After a step the residuals are not negative. -/
theorem next_nonneg (h : OrderConvex F jac) (x : Vec ℝ n) (i : Fin n) : 0 ≤ F (next F jac x) i := by
  have := h.tangent x (next F jac x) i
  rw [mulVec_next h, Pi.neg_apply, add_neg_cancel] at this
  exact this

/-- Where the residuals are not negative, a step decreases every variable. -/
theorem next_le (h : OrderConvex F jac) {x : Vec ℝ n} (hx : ∀ i, 0 ≤ F x i) (i : Fin n) : next F jac x i ≤ x i := by
  have := inverse_mulVec h x hx i
  change x i - _ ≤ x i
  linarith

/-- A step never falls below the root. -/
theorem le_next (h : OrderConvex F jac) {r : Vec ℝ n} (hr : F r = 0) (x : Vec ℝ n) (i : Fin n) : r i ≤ next F jac x i := by
  have h1 : ∀ i, 0 ≤ (-(F x) - jac x *ᵥ (r - x)) i := by
    intro i
    have := h.tangent x r i
    rw [hr, Pi.zero_apply] at this
    rw [Pi.sub_apply, Pi.neg_apply]
    linarith
  have h2 := inverse_mulVec h x h1 i
  have e : (jac x)⁻¹ *ᵥ (-(F x) - jac x *ᵥ (r - x)) = next F jac x - r := by
    rw [Matrix.mulVec_sub, Matrix.mulVec_neg, Matrix.mulVec_mulVec, ex_inv_mul (h.invertible x), Matrix.one_mulVec, next]
    abel
  rw [e, Pi.sub_apply] at h2
  linarith

/-- The iterates from `x0`. -/
noncomputable def iterates (F : Vec ℝ n → Vec ℝ n) (jac : Vec ℝ n → Mat ℝ n) (x0 : Vec ℝ n) (k : Nat) : Vec ℝ n :=
  (next F jac)^[k] x0

theorem iterates_succ (x0 : Vec ℝ n) (k : Nat) : iterates F jac x0 (k + 1) = next F jac (iterates F jac x0 k) :=
  Function.iterate_succ_apply' _ _ _

theorem iterates_ge (h : OrderConvex F jac) {r : Vec ℝ n} (hr : F r = 0) (x0 : Vec ℝ n) (k : Nat) (i : Fin n) :
    r i ≤ iterates F jac x0 (k + 1) i := by
  rw [iterates_succ]
  exact le_next h hr _ i

theorem iterates_antitone (h : OrderConvex F jac) (x0 : Vec ℝ n) (i : Fin n) :
    Antitone fun k => iterates F jac x0 (k + 1) i := by
  refine antitone_nat_of_succ_le fun k => ?_
  rw [iterates_succ _ (k + 1)]
  refine next_le h (fun i => ?_) i
  rw [iterates_succ]
  exact next_nonneg h _ i

/-- The residuals tend to zero. -/
theorem residuals_tendsto (h : OrderConvex F jac) {r : Vec ℝ n} (hr : F r = 0) (x0 : Vec ℝ n) :
    Tendsto (fun k => F (iterates F jac x0 (k + 1))) atTop (𝓝 0) := by
  have hlim : ∃ L : Vec ℝ n, Tendsto (fun k => iterates F jac x0 (k + 1)) atTop (𝓝 L) := by
    have : ∀ i, ∃ l, Tendsto (fun k => iterates F jac x0 (k + 1) i) atTop (𝓝 l) := fun i =>
      ⟨_, tendsto_atTop_ciInf (iterates_antitone h x0 i) ⟨r i, by rintro _ ⟨k, rfl⟩; exact iterates_ge h hr x0 k i⟩⟩
    choose L hL using this
    exact ⟨L, tendsto_pi_nhds.2 hL⟩
  obtain ⟨L, hL⟩ := hlim
  have hL' := (tendsto_add_atTop_iff_nat 1).2 hL
  have hJ := (h.continuous.tendsto L).comp hL
  have hcont : Continuous fun p : Mat ℝ n × Vec ℝ n => p.1 *ᵥ p.2 := continuous_fst.matrix_mulVec continuous_snd
  have hd := (hcont.tendsto _).comp (hJ.prodMk_nhds (hL.sub hL'))
  rw [sub_self] at hd
  simp only [Matrix.mulVec_zero] at hd
  refine hd.congr fun k => ?_
  change jac (iterates F jac x0 (k + 1)) *ᵥ (iterates F jac x0 (k + 1) - iterates F jac x0 (k + 1 + 1)) = _
  rw [iterates_succ _ (k + 1), ← neg_sub (next F jac (iterates F jac x0 (k + 1))), Matrix.mulVec_neg, mulVec_next h, neg_neg]

/-- The iterates stay between the root and the larger of the guess and the first iterate. -/
theorem iterates_box (h : OrderConvex F jac) {r : Vec ℝ n} (hr : F r = 0) {x0 lo hi : Vec ℝ n}
    (h0 : ∀ i, lo i ≤ x0 i ∧ x0 i ≤ hi i) (hlo : ∀ i, lo i ≤ r i) (h1 : ∀ i, next F jac x0 i ≤ hi i) (k : Nat) (i : Fin n) :
    lo i ≤ iterates F jac x0 k i ∧ iterates F jac x0 k i ≤ hi i := by
  cases k with
  | zero => exact h0 i
  | succ k =>
    refine ⟨(hlo i).trans (iterates_ge h hr x0 k i), ?_⟩
    exact (iterates_antitone h x0 i (Nat.zero_le k)).trans (h1 i)

/-! ### Finite differences in one dimension -/

section
variable {f : ℝ → ℝ} {r x p : ℝ}

theorem slope_pos (hmono : StrictMono f) (hp : 0 < p) : 0 < (f (x + p) - f x) / p :=
  div_pos (sub_pos.2 (hmono (by linarith))) hp

theorem secant_ge (hf : ConvexOn ℝ Set.univ f) (hmono : StrictMono f) (hr : f r = 0) (hx : r ≤ x) (hp : 0 < p) :
    r ≤ x - f x / ((f (x + p) - f x) / p) := by
  have hs := slope_pos (x := x) hmono hp
  rcases hx.eq_or_lt with rfl | hx
  · rw [hr, zero_div, sub_zero]
  have h1 := hf.slope_mono_adjacent (Set.mem_univ r) (Set.mem_univ (x + p)) hx (by linarith)
  rw [hr, sub_zero, add_sub_cancel_left] at h1
  have h2 : f x / ((f (x + p) - f x) / p) ≤ x - r := by
    rw [div_le_iff₀ hs]
    rw [div_le_iff₀ (by linarith)] at h1
    linarith
  linarith

/-- Chords to the right are steeper. -/
theorem slope_le (hf : ConvexOn ℝ Set.univ f) {a b : ℝ} (hp : 0 < p) (hxa : x + p ≤ a) (hab : a < b) :
    (f (x + p) - f x) / p ≤ (f b - f a) / (b - a) := by
  have e : (f (x + p) - f x) / p = (f (x + p) - f x) / (x + p - x) := by rw [add_sub_cancel_left]
  rw [e]
  rcases hxa.eq_or_lt with h | h
  · rw [← h]
    exact hf.slope_mono_adjacent (Set.mem_univ _) (Set.mem_univ _) (by linarith) (by linarith)
  · exact (hf.slope_mono_adjacent (Set.mem_univ _) (Set.mem_univ _) (by linarith) h).trans
      (hf.slope_mono_adjacent (Set.mem_univ _) (Set.mem_univ _) h hab)

end
end Monotone
end Nrf
