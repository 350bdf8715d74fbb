import Verif.Proofs.Spacing

/-!
# The relative error of rounding
-/

set_option linter.unusedSectionVars false

namespace Nrf

namespace Binary64

theorem roundEven_half (z : ℚ) : |(roundEven z : ℚ) - z| ≤ 1 / 2 := by
  have h1 := Int.floor_le z
  have h2 := Int.lt_floor_add_one z
  rcases le_total (z - ⌊z⌋) (1 / 2) with h | h
  · refine (roundEven_nearest z ⌊z⌋).trans ?_
    rw [abs_sub_comm, abs_of_nonneg (by linarith)]
    exact h
  · refine (roundEven_nearest z (⌊z⌋ + 1)).trans ?_
    push_cast
    rw [abs_of_nonneg (by linarith)]
    linarith

/-- Rounding moves a number by at most half a unit in the last place. -/
theorem rnd_half (x : ℚ) : |rnd x - x| ≤ 2 ^ ulpExp x / 2 := by
  by_cases hx : x = 0
  · subst hx
    simp only [rnd, if_true, sub_self, abs_zero]
    exact (div_pos (two_zpow_pos _) two_pos).le
  unfold rnd
  rw [if_neg hx]
  have hp := two_zpow_pos (ulpExp x)
  have e : (2 : ℚ) ^ ulpExp x * roundEven (x / 2 ^ ulpExp x) - x =
      2 ^ ulpExp x * (roundEven (x / 2 ^ ulpExp x) - x / 2 ^ ulpExp x) := by
    field_simp
  rw [e, abs_mul, abs_of_pos hp]
  have := mul_le_mul_of_nonneg_left (roundEven_half (x / 2 ^ ulpExp x)) hp.le
  linarith

/-- The relative error is at most `2⁻⁵³`, except for subnormal numbers. -/
theorem rnd_error (x : ℚ) : |rnd x - x| ≤ |x| * 2 ^ (-53 : ℤ) ∨
    |x| < 2 ^ (-1021 : ℤ) ∧ |rnd x - x| ≤ 2 ^ (-1075 : ℤ) := by
  by_cases hx : x = 0
  · left
    subst hx
    simp [rnd]
  have h := rnd_half x
  rcases ulp_le hx with h1 | h1
  · left
    have e : (2 : ℚ) ^ (-52 : ℤ) = 2 * 2 ^ (-53 : ℤ) := by norm_num
    rw [e] at h1
    linarith
  · right
    have hlt := lt_of_ulpExp (x := x)
    rw [h1] at h hlt
    refine ⟨by simpa using hlt, h.trans (le_of_eq ?_)⟩
    rw [show (-1074 : ℤ) = -1075 + 1 by norm_num, zpow_add_one₀ (by norm_num)]
    ring

/-- The relative error in the normal range. -/
theorem rnd_error_normal {x : ℚ} (hx : 2 ^ (-1022 : ℤ) ≤ |x|) : |rnd x - x| ≤ |x| * 2 ^ (-53 : ℤ) := by
  rcases rnd_error x with h | ⟨-, h⟩
  · exact h
  · refine h.trans ?_
    calc (2 : ℚ) ^ (-1075 : ℤ) = 2 ^ (-1022 : ℤ) * 2 ^ (-53 : ℤ) := by rw [← zpow_add₀ (by norm_num)]; norm_num
      _ ≤ _ := mul_le_mul_of_nonneg_right hx (two_zpow_pos _).le

/-- No underflow in sums: numbers on the grid of the smallest number are rounded with a relative error. -/
theorem rnd_error_grid {x : ℚ} (hx : ∃ k : ℤ, x = 2 ^ (-1074 : ℤ) * k) : |rnd x - x| ≤ |x| * 2 ^ (-53 : ℤ) := by
  by_cases h0 : x = 0
  · subst h0
    simp [rnd]
  by_cases he : ulpExp x = -1074
  · obtain ⟨k, hk⟩ := hx
    have h := rnd_nearest_multiple h0 k
    rw [he, ← hk, sub_self, abs_zero] at h
    exact h.trans (mul_nonneg (abs_nonneg _) (two_zpow_pos _).le)
  · refine rnd_error_normal ?_
    have h := le_of_ulpExp h0 he
    refine le_trans (zpow_le_zpow_right₀ (by norm_num) ?_) h
    have := ulpExp_ge x
    omega

theorem grid_of_fixed {x : ℚ} (h : rnd x = x) : ∃ k : ℤ, x = 2 ^ (-1074 : ℤ) * k :=
  multiple_lower (ulpExp_ge x) (multiple_of_fixed h)

/-- Sums of numbers of the format are rounded with a relative error of at most `2⁻⁵³`. -/
theorem rnd_add_error {x y : ℚ} (hx : rnd x = x) (hy : rnd y = y) :
    |rnd (x + y) - (x + y)| ≤ |x + y| * 2 ^ (-53 : ℤ) := by
  obtain ⟨k, hk⟩ := grid_of_fixed hx
  obtain ⟨l, hl⟩ := grid_of_fixed hy
  refine rnd_error_grid ⟨k + l, ?_⟩
  push_cast
  rw [mul_add, ← hk, ← hl]

end Binary64

namespace Fl
variable {K : Type} [Field K] [LinearOrder K] [Rounding K] [IsStrictOrderedRing K]

theorem val_ofExact {z : Bool} {x : K} (h : (ofExact z x : Fl K).IsFinite) : (ofExact z x : Fl K).val = Rounding.rnd x := by
  unfold ofExact at h ⊢
  split_ifs with h1 h2 h3
  · subst h1
    exact rnd_zero.symm
  · exact h2.symm
  · rfl
  · rw [dif_neg h1, dif_neg h2, dif_neg h3] at h
    exact h.elim

theorem val_fixed (a : Fl K) : Rounding.rnd a.val = a.val := by
  rcases a with _ | s | s | ⟨x, hx⟩
  · exact rnd_zero
  · exact rnd_zero
  · exact rnd_zero
  · exact hx.2.1

theorem finite_of_add {a b : Fl K} (h : (add a b).IsFinite) : a.IsFinite ∧ b.IsFinite := by
  rcases a with _ | s | s | ⟨x, hx⟩ <;> rcases b with _ | t | t | ⟨y, hy⟩ <;>
    first
      | exact ⟨trivial, trivial⟩
      | exact h.elim
      | skip
  change Fl.IsFinite (if s = t then Fl.inf s else .nan) at h
  split_ifs at h <;> exact h.elim

theorem val_add {a b : Fl K} (h : (add a b).IsFinite) : (add a b).val = Rounding.rnd (a.val + b.val) := by
  obtain ⟨ha, hb⟩ := finite_of_add h
  obtain ⟨z, hz⟩ := add_finite ha hb
  rw [hz] at h ⊢
  exact val_ofExact h

theorem neg_finite {a : Fl K} (h : (neg a).IsFinite) : a.IsFinite := by
  rcases a with _ | s | s | ⟨x, hx⟩ <;> first | exact h.elim | trivial

theorem val_neg (a : Fl K) : (neg a).val = -a.val := by
  rcases a with _ | s | s | ⟨x, hx⟩ <;> simp [neg, val]

theorem finite_of_sub {a b : Fl K} (h : (sub a b).IsFinite) : a.IsFinite ∧ b.IsFinite :=
  ⟨(finite_of_add h).1, neg_finite (finite_of_add h).2⟩

theorem val_sub {a b : Fl K} (h : (sub a b).IsFinite) : (sub a b).val = Rounding.rnd (a.val - b.val) := by
  have := val_add (a := a) (b := neg b) h
  rw [val_neg, ← sub_eq_add_neg] at this
  exact this

theorem val_div {a b : Fl K} (hb : b.IsFinite) (h : (div a b).IsFinite) :
    a.IsFinite ∧ (div a b).val = Rounding.rnd (a.val / b.val) := by
  rcases a with _ | s | s | ⟨x, hx⟩ <;> rcases b with _ | t | t | ⟨y, hy⟩ <;>
    first
      | exact h.elim
      | exact hb.elim
      | exact ⟨trivial, val_ofExact h⟩
      | exact ⟨trivial, by simp [div, val, rnd_zero]⟩

theorem val_mul {a b : Fl K} (h : (mul a b).IsFinite) :
    a.IsFinite ∧ b.IsFinite ∧ (mul a b).val = Rounding.rnd (a.val * b.val) := by
  rcases a with _ | s | s | ⟨x, hx⟩ <;> rcases b with _ | t | t | ⟨y, hy⟩ <;>
    first
      | exact h.elim
      | exact ⟨trivial, trivial, val_ofExact h⟩
      | exact ⟨trivial, trivial, by simp [mul, val, rnd_zero]⟩

theorem mul_finite {a b : Fl K} (ha : a.IsFinite) (hb : b.IsFinite) : ∃ z, mul a b = ofExact z (a.val * b.val) := by
  rcases a with _ | s | s | ⟨x, hx⟩ <;> rcases b with _ | t | t | ⟨y, hy⟩ <;>
    first
      | exact ha.elim
      | exact hb.elim
      | exact ⟨false, rfl⟩
      | exact ⟨_, by simp only [val, zero_mul, mul_zero, ofExact_zero]; rfl⟩

theorem abs_finite {a : Fl K} (h : a.IsFinite) : (abs a).IsFinite := by
  rcases a with _ | s | s | ⟨x, hx⟩
  · exact h
  · exact h
  · trivial
  · simp only [abs]
    split_ifs <;> trivial

theorem val_abs (a : Fl K) : (abs a).val = |a.val| := by
  rcases a with _ | s | s | ⟨x, hx⟩
  · simp [abs, val]
  · simp [abs, val]
  · simp [abs, val]
  · simp only [abs]
    split_ifs with h
    · exact (abs_of_neg h).symm
    · exact (abs_of_nonneg (not_lt.1 h)).symm

end Fl
end Nrf
