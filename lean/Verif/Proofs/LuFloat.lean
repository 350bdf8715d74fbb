import Verif.Proofs.Lu
import Verif.Proofs.DotFloat
import Verif.Proofs.NewtonFloat
import Verif.Spec.NearSystem

/-!
# The LU factorization in binary64
-/

set_option linter.unusedSectionVars false

namespace Nrf
open Fl

/-- The value as a real number. -/
noncomputable def rv (a : F64) : ℝ := (a.val : ℝ)

/-- The unit roundoff and half of the smallest positive double. -/
noncomputable def ur : ℝ := 2 ^ (-53 : ℤ)
noncomputable def tr : ℝ := 2 ^ (-1075 : ℤ)

theorem ur_pos : 0 < ur := by unfold ur; positivity
theorem ur_small : ur ≤ 1 / 1000 := by unfold ur; norm_num
theorem tr_nonneg : 0 ≤ tr := zpow_nonneg (by norm_num) _

theorem tr_le : tr ≤ ur * 2 ^ (-1000 : ℤ) := by
  unfold tr ur
  rw [← zpow_add₀ (by norm_num)]
  exact zpow_le_zpow_right₀ (by norm_num) (by norm_num)

theorem rv_neg (a : F64) : rv (Fl.neg a) = -rv a := by unfold rv; rw [val_neg]; push_cast; rfl

theorem rv_abs (a : F64) : rv (Fl.abs a) = |rv a| := by unfold rv; rw [val_abs]; push_cast; rfl

theorem rv_mul {a b : F64} (ha : a.IsFinite) (hb : b.IsFinite) (h : |rv a * rv b| ≤ 2 ^ 1000) :
    (Fl.mul a b).IsFinite ∧ |rv (Fl.mul a b) - rv a * rv b| ≤ |rv a * rv b| * ur + tr := by
  have h' : |a.val * b.val| ≤ 2 ^ 1000 := by
    unfold rv at h
    refine (Rat.cast_le (K := ℝ)).1 ?_
    push_cast
    exact h
  obtain ⟨f, e⟩ := product_error ha hb h'
  refine ⟨f, ?_⟩
  have := (Rat.cast_le (K := ℝ)).2 e
  push_cast at this
  exact this

theorem rv_add {a b : F64} (ha : a.IsFinite) (hb : b.IsFinite) (h : |rv a + rv b| ≤ 2 ^ 1000) :
    (Fl.add a b).IsFinite ∧ |rv (Fl.add a b) - (rv a + rv b)| ≤ |rv a + rv b| * ur := by
  have h' : |a.val + b.val| ≤ 2 ^ 1023 := by
    refine le_trans ?_ (pow_le_pow_right₀ (by norm_num) (by norm_num : 1000 ≤ 1023))
    unfold rv at h
    refine (Rat.cast_le (K := ℝ)).1 ?_
    push_cast
    exact h
  obtain ⟨f, v⟩ := f64_add ha hb h'
  refine ⟨f, ?_⟩
  have e := Binary64.rnd_add_error (Fl.val_fixed a) (Fl.val_fixed b)
  change (Fl.add a b).val = Binary64.rnd (a.val + b.val) at v
  rw [← v] at e
  have := (Rat.cast_le (K := ℝ)).2 e
  push_cast at this
  exact this

theorem rv_ne {a : F64} (h : rv a ≠ 0) : a.val ≠ 0 := fun e => h (by unfold rv; rw [e]; exact Rat.cast_zero)

theorem rv_div {a b : F64} (ha : a.IsFinite) (hb : b.IsFinite) (h0 : rv b ≠ 0) (h : |rv a / rv b| ≤ 2 ^ 1000) :
    (Fl.div a b).IsFinite ∧ |rv (Fl.div a b) - rv a / rv b| ≤ |rv a / rv b| * ur + tr := by
  have h' : |a.val / b.val| ≤ 2 ^ 1023 := by
    refine le_trans ?_ (pow_le_pow_right₀ (by norm_num) (by norm_num : 1000 ≤ 1023))
    unfold rv at h
    refine (Rat.cast_le (K := ℝ)).1 ?_
    push_cast
    exact h
  obtain ⟨f, v⟩ := f64_div ha hb (rv_ne h0) h'
  refine ⟨f, ?_⟩
  have e : |(Fl.div a b).val - a.val / b.val| ≤ |a.val / b.val| * 2 ^ (-53 : ℤ) + 2 ^ (-1075 : ℤ) := by
    rw [v]
    rcases Binary64.rnd_error (a.val / b.val) with h | ⟨-, h⟩
    · exact h.trans (le_add_of_nonneg_right (Binary64.two_zpow_pos _).le)
    · exact h.trans (le_add_of_nonneg_left (_root_.mul_nonneg (_root_.abs_nonneg _) (Binary64.two_zpow_pos _).le))
  have := (Rat.cast_le (K := ℝ)).2 e
  push_cast at this
  exact this

theorem rv_one : rv Fl.one = 1 := by
  have : (Fl.one : F64).val = 1 := by decide +kernel
  unfold rv
  rw [this, Rat.cast_one]

theorem one_finite : (Fl.one : F64).IsFinite := trivial

theorem rv_zero : rv (.zero false) = 0 := Rat.cast_zero

/-- Division by one is exact. -/
theorem rv_div_one {a : F64} (ha : a.IsFinite) (h : |rv a| ≤ 2 ^ 1000) :
    (Fl.div a Fl.one).IsFinite ∧ rv (Fl.div a Fl.one) = rv a := by
  have h1 : (Fl.one : F64).val = 1 := by decide +kernel
  have h' : |a.val / (Fl.one : F64).val| ≤ 2 ^ 1023 := by
    rw [h1, div_one]
    refine le_trans ?_ (pow_le_pow_right₀ (by norm_num) (by norm_num : 1000 ≤ 1023))
    unfold rv at h
    refine (Rat.cast_le (K := ℝ)).1 ?_
    push_cast
    exact h
  obtain ⟨f, v⟩ := f64_div ha one_finite (by rw [h1]; norm_num) h'
  refine ⟨f, ?_⟩
  rw [h1, div_one] at v
  have e : (Fl.div a Fl.one).val = a.val := v.trans (Fl.val_fixed a)
  unfold rv
  rw [e]

/-- One elimination, as numbers. -/
theorem elim_arith {u τ G a l c t s : ℝ} (hu : 0 < u) (hu1 : u ≤ 1 / 1000) (hτ : τ ≤ u * G) (ha : |a| ≤ G)
    (hl : |l| ≤ 1 + 3 * u) (hc : |c| ≤ G) (ht : |t - -a * l| ≤ |-a * l| * u + τ) (hs : |s - (t + c)| ≤ |t + c| * u) :
    |s - (c - a * l)| ≤ 5 * u * G ∧ |s| ≤ 3 * G := by
  have hG : 0 ≤ G := (_root_.abs_nonneg _).trans ha
  have hal : |-a * l| ≤ G + 3 * (u * G) := by
    rw [abs_mul, _root_.abs_neg]
    calc |a| * |l| ≤ G * (1 + 3 * u) := mul_le_mul ha hl (_root_.abs_nonneg _) hG
      _ = _ := by ring
  have huG : 0 ≤ u * G := by positivity
  have huu : u * (u * G) ≤ 1 / 1000 * (u * G) := mul_le_mul_of_nonneg_right hu1 huG
  have huG1 : u * G ≤ 1 / 1000 * G := mul_le_mul_of_nonneg_right hu1 hG
  have h1 : |t - -a * l| ≤ 2.003 * (u * G) := by
    have := mul_le_mul_of_nonneg_right hal hu.le
    have e : (G + 3 * (u * G)) * u = u * G + 3 * (u * (u * G)) := by ring
    rw [e] at this
    linarith
  have h2 : |t + c| ≤ 2.006 * G := by
    have e : t + c = (t - -a * l) + (-a * l) + c := by ring
    rw [e]
    refine (abs_add_le _ _).trans ?_
    have := abs_add_le (t - -a * l) (-a * l)
    linarith
  have h3 : |s - (t + c)| ≤ 2.006 * (u * G) := by
    have := mul_le_mul_of_nonneg_right h2 hu.le
    linarith
  have h4 : |s - (c - a * l)| ≤ 4.1 * (u * G) := by
    have e : s - (c - a * l) = (s - (t + c)) + (t - -a * l) := by ring
    rw [e]
    refine (abs_add_le _ _).trans ?_
    linarith
  refine ⟨by linarith, ?_⟩
  have e : s = (s - (c - a * l)) + c + -a * l := by ring
  rw [e]
  refine (abs_add_le _ _).trans ?_
  have := abs_add_le (s - (c - a * l)) c
  linarith

/-- One elimination in binary64. -/
theorem elim_step {a l c : F64} {G : ℝ} (hG : 2 ^ (-900 : ℤ) ≤ G) (hG2 : G ≤ 2 ^ 900) (fa : a.IsFinite) (fl : l.IsFinite)
    (fc : c.IsFinite) (ha : |rv a| ≤ G) (hl : |rv l| ≤ 1 + 3 * ur) (hc : |rv c| ≤ G) :
    (Fl.add (Fl.mul (Fl.neg a) l) c).IsFinite ∧
    |rv (Fl.add (Fl.mul (Fl.neg a) l) c) - (rv c - rv a * rv l)| ≤ 5 * ur * G ∧
    |rv (Fl.add (Fl.mul (Fl.neg a) l) c)| ≤ 3 * G := by
  have hG0 : 0 ≤ G := (_root_.abs_nonneg _).trans ha
  have hu := ur_pos
  have hu1 := ur_small
  have hτ0 := tr_nonneg
  have hbig : 8 * G ≤ 2 ^ 1000 := by
    have : (8 : ℝ) * 2 ^ 900 ≤ 2 ^ 1000 := by
      calc (8 : ℝ) * 2 ^ 900 = 2 ^ 903 := by rw [pow_add 2 900 3]; ring
        _ ≤ _ := pow_le_pow_right₀ (by norm_num) (by norm_num)
    exact (mul_le_mul_of_nonneg_left hG2 (by norm_num)).trans this
  have hτ : tr ≤ ur * G :=
    tr_le.trans (mul_le_mul_of_nonneg_left
      ((zpow_le_zpow_right₀ (by norm_num) (by norm_num : (-1000 : ℤ) ≤ -900)).trans hG) hu.le)
  have huG1 : ur * G ≤ 1 / 1000 * G := mul_le_mul_of_nonneg_right hu1 hG0
  have hal : |rv (Fl.neg a) * rv l| ≤ G + 3 * (ur * G) := by
    rw [rv_neg, abs_mul, _root_.abs_neg]
    calc |rv a| * |rv l| ≤ G * (1 + 3 * ur) := mul_le_mul ha hl (_root_.abs_nonneg _) hG0
      _ = _ := by ring
  obtain ⟨ft, et⟩ := rv_mul (fl_neg_finite fa) fl (le_trans (by linarith) hbig)
  have h1 : |rv (Fl.mul (Fl.neg a) l) + rv c| ≤ 8 * G := by
    have e : rv (Fl.mul (Fl.neg a) l) + rv c =
      (rv (Fl.mul (Fl.neg a) l) - rv (Fl.neg a) * rv l) + rv (Fl.neg a) * rv l + rv c := by ring
    rw [e]
    refine (abs_add_le _ _).trans ?_
    have h2 := abs_add_le (rv (Fl.mul (Fl.neg a) l) - rv (Fl.neg a) * rv l) (rv (Fl.neg a) * rv l)
    have h3 := mul_le_mul_of_nonneg_right hal hu.le
    have h4 : (G + 3 * (ur * G)) * ur ≤ G + 3 * (ur * G) := by
      have : (G + 3 * (ur * G)) * ur ≤ (G + 3 * (ur * G)) * 1 :=
        mul_le_mul_of_nonneg_left (by linarith) (by positivity)
      linarith
    linarith
  obtain ⟨fs, es⟩ := rv_add ft fc (h1.trans hbig)
  rw [rv_neg] at et
  exact ⟨fs, elim_arith hu hu1 hτ ha hl hc et es⟩

/-- A multiplier, as numbers. -/
theorem multiplier_arith {u τ p m h l : ℝ} (hu : 0 < u) (hu1 : u ≤ 1 / 1000) (hτ : τ ≤ u / 8) (hp : p ≠ 0) (hm : |m| ≤ |p|)
    (hh : |h - 1 / p| ≤ |1 / p| * u) (hl : |l - m * h| ≤ |m * h| * u + τ) :
    |l| ≤ 1 + 3 * u ∧ |m - l * p| ≤ 3 * u * |p| := by
  have hp0 : 0 < |p| := abs_pos.2 hp
  have h1 : |m * h - m / p| ≤ u := by
    have e : m * h - m / p = m * (h - 1 / p) := by field_simp
    rw [e, abs_mul]
    calc |m| * |h - 1 / p| ≤ |p| * (|1 / p| * u) := mul_le_mul hm hh (_root_.abs_nonneg _) hp0.le
      _ = u := by rw [abs_div, abs_one]; field_simp
  have h2 : |m / p| ≤ 1 := by rw [abs_div, div_le_one hp0]; exact hm
  have h3 : |m * h| ≤ 1 + u := by
    have e : m * h = (m * h - m / p) + m / p := by ring
    rw [e]
    exact (abs_add_le _ _).trans (by linarith)
  have huu : u * u ≤ 1 / 1000 * u := mul_le_mul_of_nonneg_right hu1 hu.le
  have h4 : |l - m * h| ≤ 3 / 2 * u := by
    have := mul_le_mul_of_nonneg_right h3 hu.le
    linarith
  have h5 : |l - m / p| ≤ 3 * u := by
    have e : l - m / p = (l - m * h) + (m * h - m / p) := by ring
    rw [e]
    exact (abs_add_le _ _).trans (by linarith)
  constructor
  · have e : l = (l - m / p) + m / p := by ring
    rw [e]
    exact (abs_add_le _ _).trans (by linarith)
  · have e : m - l * p = -(l - m / p) * p := by field_simp; ring
    rw [e, abs_mul, _root_.abs_neg]
    exact mul_le_mul_of_nonneg_right h5 hp0.le

/-- A multiplier in binary64. -/
theorem multiplier_step {p m : F64} (fp : p.IsFinite) (fm : m.IsFinite) (hp0 : 2 ^ (-900 : ℤ) ≤ |rv p|) (hp1 : |rv p| ≤ 2 ^ 900)
    (hm : |rv m| ≤ |rv p|) :
    (Fl.mul m (Fl.div Fl.one p)).IsFinite ∧ |rv (Fl.mul m (Fl.div Fl.one p))| ≤ 1 + 3 * ur ∧
    |rv m - rv (Fl.mul m (Fl.div Fl.one p)) * rv p| ≤ 3 * ur * |rv p| := by
  have hpp : 0 < |rv p| := lt_of_lt_of_le (zpow_pos (by norm_num) _) hp0
  have hne : rv p ≠ 0 := abs_pos.1 hpp
  have hv : p.val ≠ 0 := rv_ne hne
  have hone : (Fl.one : F64).val = 1 := by decide +kernel
  have hq0 : (2 : ℚ) ^ (-900 : ℤ) ≤ |p.val| := by
    refine (Rat.cast_le (K := ℝ)).1 ?_
    push_cast
    exact hp0
  have hq1 : |p.val| ≤ (2 : ℚ) ^ (900 : ℤ) := by
    refine (Rat.cast_le (K := ℝ)).1 ?_
    push_cast
    rw [show (900 : ℤ) = ((900 : ℕ) : ℤ) from rfl, zpow_natCast]
    exact hp1
  have hqp : 0 < |p.val| := abs_pos.2 hv
  have hi0 : (2 : ℚ) ^ (-900 : ℤ) ≤ |1 / p.val| := by
    rw [abs_div, abs_one, le_div_iff₀ hqp]
    calc (2 : ℚ) ^ (-900 : ℤ) * |p.val| ≤ 2 ^ (-900 : ℤ) * 2 ^ (900 : ℤ) :=
          mul_le_mul_of_nonneg_left hq1 (Binary64.two_zpow_pos _).le
      _ = 1 := by rw [← zpow_add₀ (by norm_num)]; norm_num
  have hi1 : |1 / p.val| ≤ (2 : ℚ) ^ (900 : ℤ) := by
    rw [abs_div, abs_one, div_le_iff₀ hqp]
    calc (1 : ℚ) = 2 ^ (900 : ℤ) * 2 ^ (-900 : ℤ) := by rw [← zpow_add₀ (by norm_num)]; norm_num
      _ ≤ _ := mul_le_mul_of_nonneg_left hq0 (Binary64.two_zpow_pos _).le
  obtain ⟨fd, vd⟩ := f64_div (a := Fl.one) one_finite fp hv (by
    rw [hone]
    refine hi1.trans ?_
    rw [← zpow_natCast]
    exact zpow_le_zpow_right₀ (by norm_num) (by norm_num))
  have ed : |(Fl.div Fl.one p).val - 1 / p.val| ≤ |1 / p.val| * 2 ^ (-53 : ℤ) := by
    rw [vd, hone]
    exact Binary64.rnd_error_normal (hi0.trans' (zpow_le_zpow_right₀ (by norm_num) (by norm_num)))
  have ed' : |rv (Fl.div Fl.one p) - 1 / rv p| ≤ |1 / rv p| * ur := by
    have := (Rat.cast_le (K := ℝ)).2 ed
    push_cast at this
    exact this
  have hu := ur_pos
  have hu1 := ur_small
  have hmh : |rv m * rv (Fl.div Fl.one p)| ≤ 2 := by
    have e : rv m * rv (Fl.div Fl.one p) = rv m * (rv (Fl.div Fl.one p) - 1 / rv p) + rv m / rv p := by ring
    rw [e]
    refine (abs_add_le _ _).trans ?_
    have h1 : |rv m * (rv (Fl.div Fl.one p) - 1 / rv p)| ≤ ur := by
      rw [abs_mul]
      calc |rv m| * |rv (Fl.div Fl.one p) - 1 / rv p| ≤ |rv p| * (|1 / rv p| * ur) :=
            mul_le_mul hm ed' (_root_.abs_nonneg _) hpp.le
        _ = ur := by rw [abs_div, abs_one]; field_simp
    have h2 : |rv m / rv p| ≤ 1 := by rw [abs_div, div_le_one hpp]; exact hm
    linarith
  obtain ⟨fl, el⟩ := rv_mul fm fd (hmh.trans (by
    calc (2 : ℝ) = 2 ^ 1 := by norm_num
      _ ≤ _ := pow_le_pow_right₀ (by norm_num) (by norm_num)))
  refine ⟨fl, multiplier_arith hu hu1 ?_ hne hm ed' el⟩
  refine tr_le.trans ?_
  have : (2 : ℝ) ^ (-1000 : ℤ) ≤ 2 ^ (-3 : ℤ) := zpow_le_zpow_right₀ (by norm_num) (by norm_num)
  calc ur * 2 ^ (-1000 : ℤ) ≤ ur * 2 ^ (-3 : ℤ) := mul_le_mul_of_nonneg_left this hu.le
    _ = ur / 8 := by norm_num [div_eq_mul_inv]

end Nrf
