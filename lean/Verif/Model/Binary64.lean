import Verif.Model.Float
import Mathlib.Data.Int.Log
import Mathlib.Algebra.Order.Floor.Ring
import Mathlib.Algebra.Order.Round
import Mathlib.Data.Rat.Floor
import Mathlib.Tactic.Linarith
import Mathlib.Tactic.Positivity
import Mathlib.Tactic.FieldSimp
import Mathlib.Tactic.Ring

/-!
# `f64`: rounding to nearest, ties to even, in the format binary64

The format has 53 significant bits and exponents from -1022 to 1023, with
subnormal numbers.
-/

namespace Nrf.Binary64

/-- Nearest integer, ties to even. -/
def roundEven (z : ℚ) : ℤ :=
  if z - ⌊z⌋ < 1 / 2 then ⌊z⌋
  else if 1 / 2 < z - ⌊z⌋ then ⌊z⌋ + 1
  else if ⌊z⌋ % 2 = 0 then ⌊z⌋ else ⌊z⌋ + 1

/-- Exponent of the last place of the numbers of magnitude `|x|`. -/
def ulpExp (x : ℚ) : ℤ := max (Int.log 2 |x|) (-1022) - 52

/-- Rounding with unbounded exponents above. -/
def rnd (x : ℚ) : ℚ := if x = 0 then 0 else (2 : ℚ) ^ ulpExp x * roundEven (x / 2 ^ ulpExp x)

theorem roundEven_int (k : ℤ) : roundEven k = k := by
  simp [roundEven]

theorem roundEven_mono {y z : ℚ} (h : y ≤ z) : roundEven y ≤ roundEven z := by
  have h0 : ⌊y⌋ ≤ ⌊z⌋ := Int.floor_mono h
  have y1 := Int.floor_le y
  have z1 := Int.floor_le z
  rcases eq_or_lt_of_le h0 with he | hl
  · unfold roundEven
    rw [← he] at z1 ⊢
    split_ifs <;> first | omega | (exfalso; linarith)
  · have a : roundEven y ≤ ⌊y⌋ + 1 := by unfold roundEven; split_ifs <;> omega
    have b : ⌊z⌋ ≤ roundEven z := by unfold roundEven; split_ifs <;> omega
    omega

theorem roundEven_neg (z : ℚ) : roundEven (-z) = -roundEven z := by
  by_cases hz : ∃ k : ℤ, z = k
  · obtain ⟨k, rfl⟩ := hz
    rw [roundEven_int, ← Int.cast_neg, roundEven_int]
  · have h1 := Int.floor_le z
    have h2 := Int.lt_floor_add_one z
    have h3 : (⌊z⌋ : ℚ) < z := lt_of_le_of_ne h1 (fun h => hz ⟨_, h.symm⟩)
    have hf : ⌊-z⌋ = -⌊z⌋ - 1 := by
      rw [Int.floor_eq_iff]
      push_cast
      constructor <;> linarith
    unfold roundEven
    rw [hf]
    push_cast
    have e : -z - (-(⌊z⌋ : ℚ) - 1) = 1 - (z - ⌊z⌋) := by ring
    rw [e]
    split_ifs <;> first | omega | (exfalso; linarith)

theorem two_zpow_pos (e : ℤ) : (0 : ℚ) < 2 ^ e := zpow_pos (by norm_num) e

theorem ulpExp_neg (x : ℚ) : ulpExp (-x) = ulpExp x := by simp [ulpExp]

theorem rnd_neg (x : ℚ) : rnd (-x) = -rnd x := by
  unfold rnd
  by_cases h : x = 0
  · simp [h]
  · rw [if_neg (by simpa using h), if_neg h, ulpExp_neg, neg_div, roundEven_neg]
    push_cast; ring

/-- Bounds of a positive number in its binade. -/
theorem lt_of_ulpExp {x : ℚ} : |x| < 2 ^ (ulpExp x + 53) := by
  have h := Int.lt_zpow_succ_log_self (b := 2) (by norm_num) |x|
  refine lt_of_lt_of_le (by exact_mod_cast h) ?_
  apply zpow_le_zpow_right₀ (by norm_num)
  unfold ulpExp
  have := le_max_left (Int.log 2 |x|) (-1022)
  omega

theorem le_of_ulpExp {x : ℚ} (hx : x ≠ 0) (h : ulpExp x ≠ -1074) : 2 ^ (ulpExp x + 52) ≤ |x| := by
  have h' := Int.zpow_log_le_self (b := 2) (r := |x|) (by norm_num) (abs_pos.2 hx)
  have e : ulpExp x + 52 = Int.log 2 |x| := by
    unfold ulpExp at *
    rcases le_total (Int.log 2 |x|) (-1022) with h1 | h1
    · rw [max_eq_right h1] at h; omega
    · rw [max_eq_left h1]; omega
  rw [e]
  exact_mod_cast h'

theorem ulpExp_ge (x : ℚ) : -1074 ≤ ulpExp x := by
  unfold ulpExp
  have := le_max_right (Int.log 2 |x|) (-1022)
  omega

theorem ulpExp_mono {x y : ℚ} (hx : 0 < x) (h : x ≤ y) : ulpExp x ≤ ulpExp y := by
  unfold ulpExp
  rw [abs_of_pos hx, abs_of_pos (lt_of_lt_of_le hx h)]
  have := Int.log_mono_right (b := 2) hx h
  have := max_le_max_right (-1022) this
  omega

theorem rnd_nonneg {x : ℚ} (hx : 0 ≤ x) : 0 ≤ rnd x := by
  unfold rnd
  split_ifs
  · exact le_refl _
  · have : roundEven 0 ≤ roundEven (x / 2 ^ ulpExp x) :=
      roundEven_mono (div_nonneg hx (two_zpow_pos _).le)
    rw [show roundEven 0 = 0 from by simpa using roundEven_int 0] at this
    exact mul_nonneg (two_zpow_pos _).le (by exact_mod_cast this)

theorem rnd_le_of_exp {x : ℚ} (hx : 0 < x) : rnd x ≤ 2 ^ (ulpExp x + 53) := by
  unfold rnd
  rw [if_neg hx.ne']
  have h1 : x / 2 ^ ulpExp x ≤ ((2 ^ 53 : ℤ) : ℚ) := by
    rw [div_le_iff₀ (two_zpow_pos _)]
    have := lt_of_ulpExp (x := x)
    rw [abs_of_pos hx, zpow_add₀ (by norm_num)] at this
    push_cast
    rw [mul_comm]
    exact_mod_cast this.le
  have h2 := roundEven_mono h1
  rw [roundEven_int] at h2
  rw [zpow_add₀ (by norm_num)]
  exact mul_le_mul_of_nonneg_left (by exact_mod_cast h2) (two_zpow_pos _).le

theorem le_rnd_of_exp {x : ℚ} (hx : 0 < x) (h : ulpExp x ≠ -1074) : 2 ^ (ulpExp x + 52) ≤ rnd x := by
  unfold rnd
  rw [if_neg hx.ne']
  have h1 : ((2 ^ 52 : ℤ) : ℚ) ≤ x / 2 ^ ulpExp x := by
    rw [le_div_iff₀ (two_zpow_pos _)]
    have := le_of_ulpExp hx.ne' h
    rw [abs_of_pos hx, zpow_add₀ (by norm_num)] at this
    push_cast
    rw [mul_comm]
    exact_mod_cast this
  have h2 := roundEven_mono h1
  rw [roundEven_int] at h2
  rw [zpow_add₀ (by norm_num)]
  exact mul_le_mul_of_nonneg_left (by exact_mod_cast h2) (two_zpow_pos _).le

theorem rnd_mono_pos {x y : ℚ} (hx : 0 < x) (h : x ≤ y) : rnd x ≤ rnd y := by
  have hy := lt_of_lt_of_le hx h
  rcases eq_or_lt_of_le (ulpExp_mono hx h) with he | hl
  · unfold rnd
    rw [if_neg hx.ne', if_neg hy.ne', ← he]
    refine mul_le_mul_of_nonneg_left ?_ (two_zpow_pos _).le
    have := roundEven_mono (div_le_div_of_nonneg_right h (two_zpow_pos (ulpExp x)).le)
    exact_mod_cast this
  · have g := ulpExp_ge x
    refine (rnd_le_of_exp hx).trans (le_trans ?_ (le_rnd_of_exp hy (by omega)))
    exact zpow_le_zpow_right₀ (by norm_num) (by omega)

theorem rnd_mono (x y : ℚ) (h : x ≤ y) : rnd x ≤ rnd y := by
  rcases lt_trichotomy x 0 with hx | rfl | hx
  · rcases lt_or_ge y 0 with hy | hy
    · have := rnd_mono_pos (x := -y) (y := -x) (by linarith) (by linarith)
      rw [rnd_neg, rnd_neg] at this
      linarith
    · have h1 := rnd_nonneg (x := -x) (by linarith)
      rw [rnd_neg] at h1
      have := rnd_nonneg hy
      linarith
  · rw [show rnd 0 = 0 from by simp [rnd]]
    exact rnd_nonneg h
  · exact rnd_mono_pos hx h

/-- A multiple of the last place of a larger exponent is unchanged. -/
theorem rnd_of_multiple {y : ℚ} (e k : ℤ) (he : ulpExp y ≤ e) (hy : y = 2 ^ e * k) : rnd y = y := by
  by_cases h0 : y = 0
  · simp [rnd, h0]
  unfold rnd
  rw [if_neg h0]
  have hz : y / 2 ^ ulpExp y = ((2 ^ (e - ulpExp y).toNat * k : ℤ) : ℚ) := by
    rw [div_eq_iff (two_zpow_pos _).ne']
    have : (2 : ℚ) ^ e = 2 ^ (e - ulpExp y).toNat * 2 ^ ulpExp y := by
      rw [← zpow_natCast, ← zpow_add₀ (by norm_num)]
      congr 1
      omega
    calc y = 2 ^ e * k := hy
      _ = (2 ^ (e - ulpExp y).toNat * 2 ^ ulpExp y) * k := by rw [← this]
      _ = _ := by push_cast; ring
  rw [hz, roundEven_int, ← hz]
  field_simp

theorem rnd_idem_pos {x : ℚ} (hx : 0 < x) : rnd (rnd x) = rnd x := by
  have h1 := rnd_le_of_exp hx
  have h0 := rnd_nonneg hx.le
  have hdef : rnd x = 2 ^ ulpExp x * roundEven (x / 2 ^ ulpExp x) := by
    unfold rnd; rw [if_neg hx.ne']
  rcases eq_or_lt_of_le h1 with he | hl
  · -- the next power of two
    refine rnd_of_multiple (ulpExp x + 1) (2 ^ 52) ?_ ?_
    · rw [he]
      unfold ulpExp
      rw [abs_of_pos (two_zpow_pos _)]
      have := Int.log_zpow (R := ℚ) (b := 2) (by norm_num) (max (Int.log 2 |x|) (-1022) - 52 + 53)
      rw [show ((2 : ℕ) : ℚ) = 2 by norm_num] at this
      rw [this]
      have := le_max_right (Int.log 2 |x|) (-1022)
      omega
    · rw [he, show ulpExp x + 53 = (ulpExp x + 1) + 52 by ring, zpow_add₀ (by norm_num)]
      push_cast
      rfl
  · by_cases hz : rnd x = 0
    · rw [hz]; simp [rnd]
    · refine rnd_of_multiple (ulpExp x) _ ?_ hdef
      have hp : 0 < rnd x := lt_of_le_of_ne h0 (Ne.symm hz)
      unfold ulpExp
      rw [abs_of_pos hp]
      have h2 : Int.log 2 (rnd x) < ulpExp x + 53 := by
        rw [← Int.lt_zpow_iff_log_lt (b := 2) (by norm_num) hp]
        exact_mod_cast hl
      unfold ulpExp at h2
      have := max_le (a := Int.log 2 (rnd x)) (b := -1022) (c := max (Int.log 2 |x|) (-1022))
        (by omega) (le_max_right _ _)
      omega

theorem rnd_idem (x : ℚ) : rnd (rnd x) = rnd x := by
  rcases lt_trichotomy x 0 with hx | rfl | hx
  · have := rnd_idem_pos (x := -x) (by linarith)
    rw [rnd_neg, rnd_neg] at this
    linarith
  · simp [rnd]
  · exact rnd_idem_pos hx

theorem rnd_natCast_pow (k : ℕ) : rnd (2 ^ k) = 2 ^ k := by
  have h2 : (0 : ℚ) < 2 ^ k := by positivity
  refine rnd_of_multiple k 1 ?_ (by simp)
  unfold ulpExp
  rw [abs_of_pos h2]
  have := Int.log_zpow (R := ℚ) (b := 2) (by norm_num) k
  rw [show ((2 : ℕ) : ℚ) = 2 by norm_num, zpow_natCast] at this
  rw [this]
  omega

theorem two_lt_pow (k : ℕ) (hk : 1 < k) : (2 : ℚ) < 2 ^ k := by
  simpa using pow_lt_pow_right₀ (a := (2 : ℚ)) (by norm_num) hk

/-- The rounding of `f64`. -/
instance rounding : Rounding ℚ where
  rnd := rnd
  big := 2 ^ 1024
  mono := rnd_mono
  odd := rnd_neg
  idem := rnd_idem
  one := by simpa using rnd_natCast_pow 0
  two := by simpa using rnd_natCast_pow 1
  two_lt_big := two_lt_pow _ (by norm_num)

end Nrf.Binary64

namespace Nrf

/-- `f64`. -/
abbrev F64 := @Fl ℚ _ _ Binary64.rounding

end Nrf
