import Mathlib.Analysis.Calculus.Deriv.MeanValue
import Mathlib.Analysis.Calculus.Deriv.Pow
import Mathlib.Analysis.Calculus.Deriv.Comp
import Mathlib.Analysis.Calculus.Deriv.Shift
import Mathlib.Tactic.Linarith
import Mathlib.Tactic.Ring
import Mathlib.Tactic.FieldSimp

/-!
# The error of a difference quotient
-/

namespace Nrf

private theorem upper {φ G : ℝ → ℝ} {p L : ℝ} (hp : 0 ≤ p) (hd : ∀ t, 0 ≤ t → t ≤ p → HasDerivAt φ (G t) t)
    (hG : ∀ t, 0 ≤ t → t ≤ p → G t ≤ G 0 + L * t) : φ p - φ 0 - p * G 0 ≤ L * p ^ 2 / 2 := by
  have hψ : ∀ t, 0 ≤ t → t ≤ p →
      HasDerivAt (fun t => φ t - t * G 0 - L * t ^ 2 / 2) (G t - G 0 - L * t) t := by
    intro t h1 h2
    have h3 := ((hd t h1 h2).sub ((hasDerivAt_id t).mul_const (G 0))).sub
      ((((hasDerivAt_pow 2 t).const_mul L)).div_const 2)
    refine h3.congr_deriv ?_
    simp
    ring
  have hanti : AntitoneOn (fun t => φ t - t * G 0 - L * t ^ 2 / 2) (Set.Icc 0 p) := by
    refine antitoneOn_of_deriv_nonpos (convex_Icc 0 p)
      (fun t ht => (hψ t ht.1 ht.2).continuousAt.continuousWithinAt) (fun t ht => ?_) (fun t ht => ?_)
    · rw [interior_Icc] at ht
      exact (hψ t ht.1.le ht.2.le).differentiableAt.differentiableWithinAt
    · rw [interior_Icc] at ht
      rw [(hψ t ht.1.le ht.2.le).deriv]
      have := hG t ht.1.le ht.2.le
      linarith
  have := hanti (Set.left_mem_Icc.2 hp) (Set.right_mem_Icc.2 hp) hp
  simp only at this
  nlinarith

private theorem both {φ G : ℝ → ℝ} {p L : ℝ} (hp : 0 ≤ p) (hd : ∀ t, |t| ≤ p → HasDerivAt φ (G t) t)
    (hG : ∀ t, |t| ≤ p → |G t - G 0| ≤ L * |t|) : |φ p - φ 0 - p * G 0| ≤ L * p ^ 2 / 2 := by
  have habs : ∀ t, 0 ≤ t → t ≤ p → |t| ≤ p := fun t h1 h2 => by rwa [abs_of_nonneg h1]
  refine abs_le.2 ⟨?_, ?_⟩
  · have h := upper (φ := fun t => - φ t) (G := fun t => - G t) (L := L) hp
      (fun t h1 h2 => (hd t (habs t h1 h2)).neg) (fun t h1 h2 => by
        have := (abs_le.1 (hG t (habs t h1 h2))).1
        rw [abs_of_nonneg h1] at this
        linarith)
    linarith
  · refine upper hp (fun t h1 h2 => hd t (habs t h1 h2)) fun t h1 h2 => ?_
    have := (abs_le.1 (hG t (habs t h1 h2))).2
    rw [abs_of_nonneg h1] at this
    linarith

/-- A difference quotient differs from the derivative by at most `L |p| / 2` when the derivative changes by at most
`L |t|` over a distance `t`. -/
theorem quotient_error {φ G : ℝ → ℝ} {p L : ℝ} (hp : p ≠ 0) (hd : ∀ t, |t| ≤ |p| → HasDerivAt φ (G t) t)
    (hG : ∀ t, |t| ≤ |p| → |G t - G 0| ≤ L * |t|) : |(φ p - φ 0) / p - G 0| ≤ L * |p| / 2 := by
  have key : |φ p - φ 0 - p * G 0| ≤ L * |p| ^ 2 / 2 := by
    rcases le_total 0 p with h | h
    · rw [abs_of_nonneg h] at hd hG ⊢
      exact both h hd hG
    · have e : |p| = -p := abs_of_nonpos h
      have := both (φ := fun t => φ (-t)) (G := fun t => - G (-t)) (p := -p) (L := L) (by linarith)
        (fun t ht => by
          have h1 := (hd (-t) (by rw [abs_neg, e]; exact ht)).comp t (hasDerivAt_neg t)
          refine h1.congr_deriv ?_
          ring)
        (fun t ht => by
          have h1 := hG (-t) (by rw [abs_neg, e]; exact ht)
          rw [abs_neg] at h1
          rw [show -G (-t) - -G (-0) = -(G (-t) - G 0) by simp; ring, abs_neg]
          exact h1)
      simp only [neg_neg, neg_zero] at this
      rw [e]
      convert this using 2
      ring
  have hpos := abs_pos.2 hp
  rw [show (φ p - φ 0) / p - G 0 = (φ p - φ 0 - p * G 0) / p by field_simp, abs_div, div_le_iff₀ hpos]
  calc _ ≤ _ := key
    _ = _ := by ring

end Nrf
