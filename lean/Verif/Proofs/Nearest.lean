import Verif.Model.Binary64

/-!
# Rounding to nearest, and numbers close to one of the format
-/

namespace Nrf.Binary64

theorem roundEven_nearest (z : ℚ) (k : ℤ) : |(roundEven z : ℚ) - z| ≤ |(k : ℚ) - z| := by
  have h1 := Int.floor_le z
  have h2 := Int.lt_floor_add_one z
  have key : |(roundEven z : ℚ) - z| ≤ z - ⌊z⌋ ∧ |(roundEven z : ℚ) - z| ≤ ⌊z⌋ + 1 - z := by
    unfold roundEven
    constructor
    all_goals
      rw [abs_le]
      split_ifs <;> push_cast <;> constructor <;> linarith
  rcases le_or_gt k ⌊z⌋ with h | h
  · have hk : (k : ℚ) ≤ ⌊z⌋ := by exact_mod_cast h
    refine key.1.trans ?_
    rw [abs_sub_comm]
    exact le_trans (by linarith) (le_abs_self _)
  · have hk : (⌊z⌋ : ℚ) + 1 ≤ k := by exact_mod_cast h
    refine key.2.trans ?_
    exact le_trans (by linarith) (le_abs_self _)

theorem roundEven_close {z : ℚ} {k : ℤ} (h : |z - k| < 1 / 2) : roundEven z = k := by
  have h1 := roundEven_nearest z k
  rw [abs_sub_comm (k : ℚ)] at h1
  have h2 : |(roundEven z : ℚ) - k| < 1 := by
    have := abs_add_le ((roundEven z : ℚ) - z) (z - k)
    rw [sub_add_sub_cancel] at this
    linarith
  have h3 : |roundEven z - k| < 1 := by exact_mod_cast h2
  have := Int.abs_lt_one_iff.1 h3
  omega

/-- A number of the format is a multiple of its last place. -/
theorem multiple_of_fixed {y : ℚ} (h : rnd y = y) : ∃ k : ℤ, y = 2 ^ ulpExp y * k := by
  by_cases h0 : y = 0
  · exact ⟨0, by simp [h0]⟩
  · refine ⟨roundEven (y / 2 ^ ulpExp y), ?_⟩
    conv_lhs => rw [← h]
    unfold rnd
    rw [if_neg h0]

theorem multiple_lower {y : ℚ} {e f : ℤ} (hef : f ≤ e) (h : ∃ k : ℤ, y = 2 ^ e * k) : ∃ k : ℤ, y = 2 ^ f * k := by
  obtain ⟨k, hk⟩ := h
  refine ⟨2 ^ (e - f).toNat * k, ?_⟩
  have : (2 : ℚ) ^ e = 2 ^ f * 2 ^ (e - f).toNat := by
    rw [← zpow_natCast, ← zpow_add₀ (by norm_num)]
    congr 1
    omega
  rw [hk, this]
  push_cast
  ring

theorem rnd_nearest_multiple {x : ℚ} (hx : x ≠ 0) (k : ℤ) : |rnd x - x| ≤ |2 ^ ulpExp x * k - x| := by
  unfold rnd
  rw [if_neg hx]
  have hp := two_zpow_pos (ulpExp x)
  have h := roundEven_nearest (x / 2 ^ ulpExp x) k
  have e : ∀ m : ℚ, 2 ^ ulpExp x * m - x = 2 ^ ulpExp x * (m - x / 2 ^ ulpExp x) := by
    intro m
    field_simp
  rw [e, e, abs_mul, abs_mul]
  exact mul_le_mul_of_nonneg_left h (abs_nonneg _)

theorem rnd_nearest_pos {x y : ℚ} (hx : 0 < x) (hy : rnd y = y) : |rnd x - x| ≤ |y - x| := by
  rcases le_or_gt y 0 with h0 | h0
  · refine (rnd_nearest_multiple hx.ne' 0).trans ?_
    rw [Int.cast_zero, mul_zero, zero_sub, abs_neg, abs_of_pos hx, abs_sub_comm]
    exact le_trans (by linarith) (le_abs_self _)
  rcases le_or_gt (ulpExp x) (ulpExp y) with h1 | h1
  · obtain ⟨k, hk⟩ := multiple_lower h1 (multiple_of_fixed hy)
    conv_rhs => rw [hk]
    exact rnd_nearest_multiple hx.ne' k
  · -- `y` is in a lower binade: the start of the binade of `x` is between
    have hne : ulpExp x ≠ -1074 := by have := ulpExp_ge y; omega
    have hp := le_of_ulpExp hx.ne' hne
    rw [abs_of_pos hx] at hp
    have hyl := lt_of_ulpExp (x := y)
    rw [abs_of_pos h0] at hyl
    have hyp : y < 2 ^ (ulpExp x + 52) :=
      lt_of_lt_of_le hyl (zpow_le_zpow_right₀ (by norm_num) (by omega))
    refine (rnd_nearest_multiple hx.ne' (2 ^ 52)).trans ?_
    have e : (2 : ℚ) ^ ulpExp x * ((2 ^ 52 : ℤ) : ℚ) = 2 ^ (ulpExp x + 52) := by
      rw [zpow_add₀ (by norm_num)]
      push_cast
      rfl
    rw [e, abs_sub_comm, abs_of_nonneg (by linarith), abs_sub_comm]
    exact le_trans (by linarith) (le_abs_self _)

/-- `rnd x` is nearest to `x` among the numbers of the format (without bound on the exponent). -/
theorem rnd_nearest {x y : ℚ} (hy : rnd y = y) : |rnd x - x| ≤ |y - x| := by
  rcases lt_trichotomy x 0 with hx | rfl | hx
  · have := rnd_nearest_pos (x := -x) (y := -y) (by linarith) (by rw [rnd_neg, hy])
    rw [rnd_neg] at this
    rw [abs_sub_comm, abs_sub_comm y]
    calc |x - rnd x| = |-rnd x - -x| := by congr 1; ring
      _ ≤ |-y - -x| := this
      _ = |x - y| := by congr 1; ring
  · simp [rnd]
  · exact rnd_nearest_pos hx hy

theorem ulpExp_eq {y : ℚ} {e : ℤ} (hy : 0 < y) (he : -1074 ≤ e) (hlt : y < 2 ^ (e + 53))
    (hge : e = -1074 ∨ 2 ^ (e + 52) ≤ y) : ulpExp y = e := by
  unfold ulpExp
  rw [abs_of_pos hy]
  have h1 : Int.log 2 y < e + 53 := by
    rw [← Int.lt_zpow_iff_log_lt (b := 2) (by norm_num) hy]
    exact_mod_cast hlt
  rcases hge with rfl | hge
  · rw [max_eq_right (by omega)]
    norm_num
  · have h2 : e + 52 ≤ Int.log 2 y := by
      rw [← Int.zpow_le_iff_le_log (b := 2) (by norm_num) hy]
      exact_mod_cast hge
    rw [max_eq_left (by omega)]
    omega

/-- A number at less than half a last place (a quarter below, where the last place may be halved) is rounded to a
number of the format. -/
theorem rnd_of_close {x y : ℚ} (hx : 0 < x) (hf : rnd x = x) (hu : y - x < 2 ^ ulpExp x / 2)
    (hl : x - y < 2 ^ ulpExp x / 2) (hq : x = 2 ^ (ulpExp x + 52) → x - y < 2 ^ ulpExp x / 4) : rnd y = x := by
  obtain ⟨M, hM⟩ := multiple_of_fixed hf
  set e := ulpExp x with he
  have hp := two_zpow_pos e
  have hge := ulpExp_ge x
  have hlt := lt_of_ulpExp (x := x)
  rw [abs_of_pos hx, ← he] at hlt
  have hM1 : 1 ≤ M := by
    by_contra h
    have : (M : ℚ) ≤ 0 := by exact_mod_cast (by omega : M ≤ 0)
    have := mul_nonpos_of_nonneg_of_nonpos hp.le this
    linarith
  have hM1' : (1 : ℚ) ≤ M := by exact_mod_cast hM1
  have hxe : (2 : ℚ) ^ e ≤ x := by rw [hM]; exact le_mul_of_one_le_right hp.le hM1'
  have hy : 0 < y := by linarith
  have p53 : (2 : ℚ) ^ (e + 53) = 2 ^ e * 2 ^ 53 := by rw [zpow_add₀ (by norm_num)]; rfl
  have p52 : (2 : ℚ) ^ (e + 52) = 2 ^ e * 2 ^ 52 := by rw [zpow_add₀ (by norm_num)]; rfl
  have hMlt : M + 1 ≤ 2 ^ 53 := by
    rw [p53] at hlt
    have h1 : (2 : ℚ) ^ e * M < 2 ^ e * 2 ^ 53 := by rw [← hM]; exact hlt
    have h2 : (M : ℚ) < 2 ^ 53 := lt_of_mul_lt_mul_left h1 hp.le
    have h3 : M < 2 ^ 53 := by exact_mod_cast h2
    omega
  have hylt : y < 2 ^ (e + 53) := by
    have h1 : ((M : ℚ) + 1) ≤ 2 ^ 53 := by exact_mod_cast hMlt
    have h2 := mul_le_mul_of_nonneg_left h1 hp.le
    rw [p53]
    have : x + 2 ^ e = 2 ^ e * (M + 1) := by rw [hM]; ring
    linarith
  have close : ulpExp y = e → rnd y = x := by
    intro hye
    unfold rnd
    rw [if_neg hy.ne', hye]
    have : roundEven (y / 2 ^ e) = M := by
      apply roundEven_close
      have e1 : y / 2 ^ e - M = (y - x) / 2 ^ e := by
        rw [sub_div]; congr 1; rw [hM]; field_simp
      rw [e1, abs_div, abs_of_pos hp, div_lt_iff₀ hp, abs_lt]
      constructor <;> linarith
    rw [this]
    exact hM.symm
  by_cases hb : e = -1074 ∨ 2 ^ (e + 52) ≤ y
  · exact close (ulpExp_eq hy hge hylt hb)
  · have hb1 : e ≠ -1074 := fun h => hb (.inl h)
    have hb2 : y < 2 ^ (e + 52) := not_le.1 fun h => hb (.inr h)
    have hxge := le_of_ulpExp hx.ne' (he ▸ hb1)
    rw [abs_of_pos hx, ← he] at hxge
    have hM52 : M = 2 ^ 52 := by
      rw [p52] at hb2 hxge
      have h1 : (2 : ℚ) ^ e * 2 ^ 52 ≤ 2 ^ e * M := by rw [← hM]; exact hxge
      have h2 : (2 : ℚ) ^ 52 ≤ M := le_of_mul_le_mul_left h1 hp
      have h3 : (2 : ℚ) ^ e * M < 2 ^ e * (2 ^ 52 + 1) := by rw [← hM]; linarith
      have h4 : (M : ℚ) < 2 ^ 52 + 1 := lt_of_mul_lt_mul_left h3 hp.le
      have h5 : (2 : ℤ) ^ 52 ≤ M := by exact_mod_cast h2
      have h6 : M < 2 ^ 52 + 1 := by exact_mod_cast h4
      omega
    have hx52 : x = 2 ^ (e + 52) := by rw [p52, hM, hM52]; push_cast; rfl
    have hq := hq hx52
    have hhalf : (2 : ℚ) ^ (e - 1) = 2 ^ e / 2 := by rw [zpow_sub₀ (by norm_num), zpow_one]
    have hye : ulpExp y = e - 1 := by
      refine ulpExp_eq hy (by omega) ?_ (.inr ?_)
      · rw [show e - 1 + 53 = e + 52 by ring]; exact hb2
      · rw [show e - 1 + 52 = (e - 1) + 52 by ring, zpow_add₀ (by norm_num), hhalf]
        have : (2 : ℚ) ^ e / 2 * 2 ^ (52 : ℤ) = 2 ^ (e + 52) / 2 := by rw [p52]; norm_cast; ring
        rw [this, ← hx52]
        have : (2 : ℚ) ^ e ≤ x := hxe
        linarith
    unfold rnd
    rw [if_neg hy.ne', hye]
    have : roundEven (y / 2 ^ (e - 1)) = 2 ^ 53 := by
      apply roundEven_close
      have hp1 := two_zpow_pos (e - 1)
      have e1 : y / 2 ^ (e - 1) - ((2 ^ 53 : ℤ) : ℚ) = (y - x) / 2 ^ (e - 1) := by
        rw [sub_div]; congr 1
        rw [hx52, p52, hhalf]
        push_cast
        field_simp
        norm_num
      rw [e1, abs_div, abs_of_pos hp1, div_lt_iff₀ hp1, abs_lt, hhalf]
      constructor <;> linarith
    rw [this, hx52, hhalf, p52]
    push_cast
    ring

theorem rnd_two_mul {x : ℚ} (h : rnd x = x) : rnd (2 * x) = 2 * x := by
  by_cases h0 : x = 0
  · simp [h0, rnd]
  obtain ⟨k, hk⟩ := multiple_of_fixed h
  refine rnd_of_multiple (ulpExp x + 1) k ?_ ?_
  · unfold ulpExp
    rw [abs_mul, abs_two]
    have hp := abs_pos.2 h0
    have : Int.log 2 (2 * |x|) < Int.log 2 |x| + 2 := by
      rw [← Int.lt_zpow_iff_log_lt (b := 2) (by norm_num) (by positivity)]
      have := Int.lt_zpow_succ_log_self (b := 2) (by norm_num) |x|
      rw [show Int.log 2 |x| + 2 = (Int.log 2 |x| + 1) + 1 by ring, zpow_add₀ (by norm_num), zpow_one]
      push_cast at this ⊢
      linarith
    omega
  · rw [zpow_add₀ (by norm_num), zpow_one]
    nth_rewrite 1 [hk]
    ring

end Nrf.Binary64
