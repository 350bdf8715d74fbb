import Verif.Proofs.Nearest
import Verif.Proofs.FloatArith

/-!
# The distance between neighbouring doubles
-/

set_option linter.unusedSectionVars false

namespace Nrf.Binary64

theorem ulpExp_le {y : ℚ} {e : ℤ} (h0 : y ≠ 0) (he : -1074 ≤ e) (hlt : |y| < 2 ^ (e + 53)) :
    ulpExp y ≤ e := by
  by_contra h
  have h1 : ulpExp y ≠ -1074 := by omega
  have h2 := le_of_ulpExp h0 h1
  have h3 : (2 : ℚ) ^ (e + 53) ≤ 2 ^ (ulpExp y + 52) := zpow_le_zpow_right₀ (by norm_num) (by omega)
  linarith

/-- A power of two in range is a number of the format. -/
theorem rnd_zpow {e : ℤ} (he : -1074 ≤ e) : rnd ((2 : ℚ) ^ e) = 2 ^ e := by
  refine rnd_of_multiple e 1 (ulpExp_le (two_zpow_pos e).ne' he ?_) (by simp)
  rw [abs_of_pos (two_zpow_pos e)]
  exact zpow_lt_zpow_right₀ (by norm_num) (by omega)

/-- The next number of the format above a positive one. -/
theorem rnd_succ {x : ℚ} (hx : 0 < x) (hf : rnd x = x) : rnd (x + 2 ^ ulpExp x) = x + 2 ^ ulpExp x := by
  obtain ⟨k, hk⟩ := multiple_of_fixed hf
  set e := ulpExp x with he
  have hpos := two_zpow_pos e
  have hge := ulpExp_ge x
  have hy : x + 2 ^ e = 2 ^ e * ((k + 1 : ℤ) : ℚ) := by push_cast; rw [mul_add, mul_one, ← hk]
  have hlt := lt_of_ulpExp (x := x)
  rw [abs_of_pos hx, ← he] at hlt
  have e53 : (2 : ℚ) ^ (e + 53) = 2 ^ e * 2 ^ 53 := by rw [zpow_add₀ (by norm_num)]; norm_num
  have hk53 : (k : ℚ) < 2 ^ 53 := by
    have h1 : (2 : ℚ) ^ e * k < 2 ^ e * 2 ^ 53 := by rw [← hk, ← e53]; exact hlt
    exact lt_of_mul_lt_mul_left h1 hpos.le
  have hk53' : k + 1 ≤ 2 ^ 53 := by
    have : k < 2 ^ 53 := by exact_mod_cast hk53
    omega
  rcases hk53'.lt_or_eq with h | h
  · refine rnd_of_multiple e (k + 1) (ulpExp_le (by positivity) hge ?_) hy
    rw [abs_of_pos (by positivity), hy, e53]
    refine mul_lt_mul_of_pos_left ?_ hpos
    exact_mod_cast h
  · rw [hy, h]
    have : (2 : ℚ) ^ e * ((2 ^ 53 : ℤ) : ℚ) = 2 ^ (e + 53) := by rw [e53]; norm_num
    rw [this]
    exact rnd_zpow (by omega)

/-- The last number of the format below a positive one, or lower. -/
theorem rnd_pred {x : ℚ} (hx : 0 < x) (hf : rnd x = x) : rnd (x - 2 ^ ulpExp x) = x - 2 ^ ulpExp x := by
  obtain ⟨k, hk⟩ := multiple_of_fixed hf
  set e := ulpExp x with he
  have hpos := two_zpow_pos e
  have hy : x - 2 ^ e = 2 ^ e * ((k - 1 : ℤ) : ℚ) := by push_cast; rw [mul_sub, mul_one, ← hk]
  have hk0 : 0 < k := by
    have : (0 : ℚ) < 2 ^ e * k := hk ▸ hx
    have := (mul_pos_iff_of_pos_left hpos).1 this
    exact_mod_cast this
  have hk1 : (0 : ℚ) ≤ ((k - 1 : ℤ) : ℚ) := by exact_mod_cast (by omega : 0 ≤ k - 1)
  by_cases h0 : x - 2 ^ e = 0
  · rw [h0]; simp [rnd]
  refine rnd_of_multiple e (k - 1) (ulpExp_le h0 (ulpExp_ge x) ?_) hy
  have hlt := lt_of_ulpExp (x := x)
  rw [abs_of_pos hx, ← he] at hlt
  rw [abs_of_nonneg (by rw [hy]; positivity)]
  linarith

/-- Adding a unit in the last place to a number of the format changes it. -/
theorem lt_rnd_add {x p : ℚ} (hf : rnd x = x) (hp : 2 ^ ulpExp x ≤ p) : x < rnd (x + p) := by
  have hpos := two_zpow_pos (ulpExp x)
  have hmono := rnd_mono _ _ (show x + 2 ^ ulpExp x ≤ x + p by linarith)
  refine lt_of_lt_of_le ?_ hmono
  rcases lt_trichotomy x 0 with h | h | h
  · have h1 : rnd (-x) = -x := by rw [rnd_neg, hf]
    have h2 := rnd_pred (neg_pos.2 h) h1
    rw [ulpExp_neg] at h2
    have h3 : rnd (x + 2 ^ ulpExp x) = x + 2 ^ ulpExp x := by
      have e : x + 2 ^ ulpExp x = -(-x - 2 ^ ulpExp x) := by ring
      rw [e, rnd_neg, h2]
    rw [h3]
    linarith
  · subst h
    rw [zero_add, rnd_zpow (ulpExp_ge 0)]
    exact two_zpow_pos _
  · rw [rnd_succ h hf]
    linarith

/-- The last place is at most `2⁻⁵²` times the number, or the smallest. -/
theorem ulp_le {x : ℚ} (hx : x ≠ 0) : 2 ^ ulpExp x ≤ |x| * 2 ^ (-52 : ℤ) ∨ ulpExp x = -1074 := by
  by_cases h : ulpExp x = -1074
  · exact .inr h
  left
  have := le_of_ulpExp hx h
  have e : (2 : ℚ) ^ (ulpExp x + 52) * 2 ^ (-52 : ℤ) = 2 ^ ulpExp x := by
    rw [← zpow_add₀ (by norm_num)]; congr 1; omega
  rw [← e]
  exact mul_le_mul_of_nonneg_right this (two_zpow_pos _).le

/-- The smallest positive number of the format. -/
theorem smallest {x : ℚ} (hx : 0 < x) (hf : rnd x = x) : 2 ^ (-1074 : ℤ) ≤ x := by
  obtain ⟨k, hk⟩ := multiple_lower (ulpExp_ge x) (multiple_of_fixed hf)
  have hpos := two_zpow_pos (-1074)
  have hk0 : 0 < k := by
    have : (0 : ℚ) < 2 ^ (-1074 : ℤ) * k := hk ▸ hx
    have := (mul_pos_iff_of_pos_left hpos).1 this
    exact_mod_cast this
  have hk1 : (1 : ℚ) ≤ k := by exact_mod_cast hk0
  rw [hk]
  nlinarith

end Nrf.Binary64
