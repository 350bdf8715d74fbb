import Verif.Proofs.SqrtFloat
import Mathlib.Data.Real.Basic
import Mathlib.Tactic.FieldSimp

/-!
# Newton-Raphson in binary64 with evaluations of limited accuracy: the errors of one pass
-/

set_option linter.unusedSectionVars false

namespace Nrf

/-- One pass reduces the distance to the root, up to the errors of the evaluations and of the arithmetic. -/
theorem newton_step_arith {u X ρ σ F D R J H T Y ε τ q η : ℝ} (hq0 : 0 ≤ q) (hq : q ≤ 1 / 4) (hη0 : 0 ≤ η)
    (hη : η ≤ 1 / 8) (hu : 0 < u) (hu1 : u ≤ 1 / 1000) (hD : 0 < |D|)
    (hF : |F - D * (X - ρ)| ≤ q * (|D| * |X - ρ|)) (hR : |R - F| ≤ ε) (hJ : |J - D| ≤ η * |D|)
    (hH : |H - 1 / J| ≤ |1 / J| * u) (hρ : |ρ| ≤ σ) (hτ : τ ≤ u * σ) (hT : |T - -H * R| ≤ |-H * R| * u + τ)
    (hY : |Y - (X + T)| ≤ |X + T| * u) :
    |Y - ρ| ≤ (5 / 4 * (q + η) + 4 * u) * |X - ρ| + 2 * (ε / |D|) + 4 * u * σ := by
  have hD0 : D ≠ 0 := abs_pos.1 hD
  set E := X - ρ with hE
  have hε : 0 ≤ ε := (abs_nonneg _).trans hR
  set e := ε / |D| with he
  have he0 : 0 ≤ e := by positivity
  have hJD : |J / D - 1| ≤ η := by
    have : J / D - 1 = (J - D) / D := by field_simp
    rw [this, abs_div, div_le_iff₀ hD]
    exact hJ
  obtain ⟨hj1, hj2⟩ := abs_le.1 hJD
  have hJ0 : J ≠ 0 := by
    intro h
    rw [h, zero_div] at hj1
    linarith
  have hHJ : |H * J - 1| ≤ u := by
    have : H * J - 1 = (H - 1 / J) * J := by field_simp
    rw [this, abs_mul]
    have h1 := mul_le_mul_of_nonneg_right hH (abs_nonneg J)
    rw [abs_div, abs_one] at h1
    have h2 : 1 / |J| * u * |J| = u := by
      have : |J| ≠ 0 := abs_ne_zero.2 hJ0
      field_simp
    linarith
  set κ := H * D with hκ
  have hκ1 : |κ - 1| ≤ 1146 / 1000 * (u + η) := by
    have h1 : κ - 1 = ((H * J - 1) - (J / D - 1)) / (J / D) := by
      rw [hκ]; field_simp; ring
    have h2 : 0 < J / D := by linarith
    rw [h1, abs_div, abs_of_pos h2, div_le_iff₀ h2]
    refine (abs_sub _ _).trans ?_
    have h3 := mul_le_mul_of_nonneg_left (by linarith : 7 / 8 ≤ J / D) (by positivity : 0 ≤ 1146 / 1000 * (u + η))
    linarith
  have hκa : |κ| ≤ 1146 / 1000 := by
    have : κ = (κ - 1) + 1 := by ring
    rw [this]
    refine (abs_add_le _ _).trans ?_
    rw [abs_one]
    linarith
  set w := R / D with hw
  have hqE : q * |E| ≤ 1 / 4 * |E| := mul_le_mul_of_nonneg_right hq (abs_nonneg E)
  have hwE : |w - E| ≤ q * |E| + e := by
    have h1 : w - E = ((R - F) + (F - D * E)) / D := by
      rw [hw]; field_simp; ring
    rw [h1, abs_div, div_le_iff₀ hD]
    refine (abs_add_le _ _).trans ?_
    have h2 : e * |D| = ε := by rw [he]; field_simp
    nlinarith
  have hwa : |w| ≤ 5 / 4 * |E| + e := by
    have : w = (w - E) + E := by ring
    rw [this]
    refine (abs_add_le _ _).trans ?_
    linarith
  have hHR : -H * R = -(κ * w) := by rw [hκ, hw]; field_simp
  have hκw : |κ * w| ≤ 1146 / 1000 * (5 / 4 * |E| + e) := by
    rw [abs_mul]
    exact mul_le_mul hκa hwa (abs_nonneg _) (by norm_num)
  have hS : |(X + T) - ρ| ≤ (1146 / 1000 * (q + η) + 3 * u) * |E| + 115 / 100 * e + τ := by
    have h1 : (X + T) - ρ = (T - -H * R) + (1 - κ) * E - κ * (w - E) := by
      rw [hHR, hE]; ring
    rw [h1]
    refine (abs_sub _ _).trans ((add_le_add_left (abs_add_le _ _) _).trans ?_)
    rw [abs_mul, abs_mul, abs_sub_comm 1 κ]
    have h2 := mul_le_mul_of_nonneg_right hκ1 (abs_nonneg E)
    have h3 := mul_le_mul hκa hwE (abs_nonneg _) (by norm_num)
    rw [hHR, abs_neg (κ * w)] at hT
    rw [hHR]
    have h4 := mul_le_mul_of_nonneg_right hκw hu.le
    have h5 := mul_nonneg hu.le (abs_nonneg E)
    have h6 := mul_le_mul_of_nonneg_right hu1 he0
    linarith
  have h1 : Y - ρ = (Y - (X + T)) + ((X + T) - ρ) := by ring
  have h2 : |X + T| ≤ |(X + T) - ρ| + σ := by
    have : X + T = (X + T - ρ) + ρ := by ring
    calc |X + T| = |(X + T - ρ) + ρ| := by rw [← this]
      _ ≤ |X + T - ρ| + |ρ| := abs_add_le _ _
      _ ≤ _ := by linarith
  rw [h1]
  refine (abs_add_le _ _).trans ?_
  have h3 := mul_le_mul_of_nonneg_right h2 hu.le
  have h4 := mul_le_mul_of_nonneg_right hS hu.le
  have h5 : 0 ≤ u * σ := mul_nonneg hu.le ((abs_nonneg _).trans hρ)
  have h6 := mul_nonneg hu.le (abs_nonneg E)
  have h7 := mul_le_mul_of_nonneg_right hu1 h6
  have h8 := mul_le_mul_of_nonneg_right hu1 he0
  have h9 := mul_le_mul_of_nonneg_right hu1 h5
  have h10 := mul_le_mul_of_nonneg_left hτ hu.le
  have h11 := mul_le_mul_of_nonneg_right hq h6
  have h12 := mul_le_mul_of_nonneg_right hη h6
  have h13 := mul_nonneg hq0 (abs_nonneg E)
  have h14 := mul_nonneg hη0 (abs_nonneg E)
  linarith

section
open Fl

theorem u_real : (((2 : ℚ) ^ (-53 : ℤ) : ℚ) : ℝ) = 2 ^ (-53 : ℤ) := by push_cast; rfl

/-- All roundings of a pass. -/
theorem accurate_pass {x r d : F64} (hx : x.IsFinite) (hr : r.IsFinite) (hd : d.IsFinite) {ρ σ F D ε q η : ℝ}
    (hq0 : 0 ≤ q) (hq : q ≤ 1 / 4) (hη0 : 0 ≤ η) (hη : η ≤ 1 / 8)
    (hD0 : 2 ^ (-200 : ℤ) ≤ |D|) (hD1 : |D| ≤ 2 ^ 200) (hρ0 : 2 ^ (-1022 : ℤ) ≤ σ) (hρ1 : σ ≤ 2 ^ 200)
    (hρ : |ρ| ≤ σ) (hX : |(x.val : ℝ) - ρ| ≤ σ) (hF : |F - D * (x.val - ρ)| ≤ q * (|D| * |(x.val : ℝ) - ρ|))
    (hR : |(r.val : ℝ) - F| ≤ ε) (hε : ε ≤ |D| * σ) (hJ : |(d.val : ℝ) - D| ≤ η * |D|) :
    d.val ≠ 0 ∧ Fl.mul (Fl.neg (Fl.div Fl.one d)) r ≠ .nan ∧ (Fl.newtonNext r d x).IsFinite ∧
    |((Fl.newtonNext r d x).val : ℝ) - ρ| ≤ (5 / 4 * (q + η) + 4 * 2 ^ (-53 : ℤ)) * |(x.val : ℝ) - ρ| + 2 * (ε / |D|) +
      4 * 2 ^ (-53 : ℤ) * σ := by
  have hu : (0 : ℚ) < 2 ^ (-53 : ℤ) := Binary64.two_zpow_pos _
  have hu1 : (2 : ℚ) ^ (-53 : ℤ) ≤ 1 := by norm_num
  have hDp : 0 < |D| := lt_of_lt_of_le (by positivity) hD0
  set J := d.val with hJd
  -- bounds on the slope
  have hηD : η * |D| ≤ 1 / 8 * |D| := mul_le_mul_of_nonneg_right hη hDp.le
  have hJ0 : 1 / 2 * |D| ≤ |(J : ℝ)| := by
    have h := abs_sub_abs_le_abs_sub D (J : ℝ)
    rw [abs_sub_comm] at h
    linarith
  have hJ1 : |(J : ℝ)| ≤ 2 * |D| := by
    have h := abs_sub_abs_le_abs_sub (J : ℝ) D
    linarith
  have hJl : (2 : ℚ) ^ (-201 : ℤ) ≤ |J| := by
    have h : ((2 ^ (-201 : ℤ) : ℚ) : ℝ) ≤ ((|J| : ℚ) : ℝ) := by
      push_cast
      refine le_trans ?_ hJ0
      have e : (2 : ℝ) ^ (-201 : ℤ) = 1 / 2 * 2 ^ (-200 : ℤ) := by
        rw [show (-201 : ℤ) = -200 - 1 by norm_num, zpow_sub_one₀ (by norm_num)]; ring
      rw [e]
      exact mul_le_mul_of_nonneg_left hD0 (by norm_num)
    exact (Rat.cast_le (K := ℝ)).1 h
  have hJu : |J| ≤ 2 ^ 201 := by
    have h : ((|J| : ℚ) : ℝ) ≤ ((2 ^ 201 : ℚ) : ℝ) := by
      push_cast
      refine hJ1.trans ?_
      have e : (2 : ℝ) ^ 201 = 2 * 2 ^ 200 := by rw [pow_succ]; ring
      rw [e]
      linarith
    exact (Rat.cast_le (K := ℝ)).1 h
  have hJp : 0 < |J| := (Binary64.two_zpow_pos _).trans_le hJl
  have hJne : J ≠ 0 := abs_pos.1 hJp
  -- the inverse
  have hIa : |1 / J| = 1 / |J| := by rw [abs_div, abs_one]
  have hIu : |1 / J| ≤ 2 ^ 201 := by
    rw [hIa, div_le_iff₀ hJp]
    have h1 := mul_le_mul_of_nonneg_left hJl (by positivity : (0 : ℚ) ≤ 2 ^ 201)
    have h2 : (2 : ℚ) ^ 201 * 2 ^ (-201 : ℤ) = 1 := by
      rw [← zpow_natCast, ← zpow_add₀ (by norm_num)]; norm_num
    rwa [h2] at h1
  have hIl : (2 : ℚ) ^ (-201 : ℤ) ≤ |1 / J| := by
    rw [hIa, le_div_iff₀ hJp]
    have h1 := mul_le_mul_of_nonneg_left hJu (Binary64.two_zpow_pos (-201)).le
    have h2 : (2 : ℚ) ^ (-201 : ℤ) * 2 ^ 201 = 1 := by
      rw [← zpow_natCast, ← zpow_add₀ (by norm_num)]; norm_num
    rwa [h2] at h1
  obtain ⟨fh, vh⟩ := f64_div (a := Fl.one) trivial hd hJne (by
    change |1 / J| ≤ _
    exact hIu.trans (pow_le_pow_right₀ (by norm_num) (by norm_num)))
  have eh := Binary64.rnd_error_normal (x := 1 / J)
    ((zpow_le_zpow_right₀ (by norm_num) (by norm_num)).trans hIl)
  change (Fl.div Fl.one d).val = Binary64.rnd (1 / J) at vh
  rw [← vh] at eh
  set H := (Fl.div Fl.one d).val with hH
  have hHb : |H| ≤ 2 ^ 202 := rounded_le hIu eh
  -- the residual
  have hRb : |r.val| ≤ 2 ^ 402 := by
    have h : ((|r.val| : ℚ) : ℝ) ≤ ((2 ^ 402 : ℚ) : ℝ) := by
      push_cast
      have h1 : |(r.val : ℝ)| ≤ |(r.val : ℝ) - F| + (|F - D * (x.val - ρ)| + |D * (x.val - ρ)|) := by
        have h2 := abs_add_le ((r.val : ℝ) - F) F
        have h3 := abs_add_le (F - D * (x.val - ρ)) (D * (x.val - ρ))
        rw [sub_add_cancel] at h2 h3
        linarith
      rw [abs_mul] at h1
      have h2 : |D| * |(x.val : ℝ) - ρ| ≤ |D| * σ := mul_le_mul_of_nonneg_left hX hDp.le
      have h3 : |D| * σ ≤ 2 ^ 200 * 2 ^ 200 := mul_le_mul hD1 hρ1 ((_root_.abs_nonneg _).trans hρ) (by positivity)
      have e : (2 : ℝ) ^ 402 = 4 * (2 ^ 200 * 2 ^ 200) := by rw [← pow_add, pow_add 2 400 2]; ring
      rw [e]
      have hp : (0 : ℝ) ≤ 2 ^ 200 * 2 ^ 200 := by positivity
      clear e
      generalize (2 : ℝ) ^ 200 * 2 ^ 200 = p at *
      have h4 := mul_le_mul_of_nonneg_right hq (_root_.mul_nonneg hDp.le (_root_.abs_nonneg ((x.val : ℝ) - ρ)))
      clear * - h1 h2 h3 h4 hp hF hR hε
      linarith
    exact (Rat.cast_le (K := ℝ)).1 h
  -- the step
  have hHR : |-H * r.val| ≤ 2 ^ 604 := by
    rw [abs_mul, _root_.abs_neg]
    have := mul_le_mul hHb hRb (_root_.abs_nonneg _) (by positivity)
    rwa [← pow_add] at this
  have vneg : (Fl.neg (Fl.div Fl.one d)).val = -H := val_neg _
  obtain ⟨ft, vt⟩ := f64_mul (fl_neg_finite fh) hr (by
    rw [vneg]
    exact hHR.trans (pow_le_pow_right₀ (by norm_num) (by norm_num)))
  rw [vneg] at vt
  have et : |(Fl.mul (Fl.neg (Fl.div Fl.one d)) r).val - -H * r.val| ≤
      |-H * r.val| * 2 ^ (-53 : ℤ) + 2 ^ (-1075 : ℤ) := by
    rw [vt]
    rcases Binary64.rnd_error (-H * r.val) with h | ⟨-, h⟩
    · exact h.trans (le_add_of_nonneg_right (Binary64.two_zpow_pos _).le)
    · exact h.trans (le_add_of_nonneg_left (_root_.mul_nonneg (_root_.abs_nonneg _) hu.le))
  set T := (Fl.mul (Fl.neg (Fl.div Fl.one d)) r).val with hT
  have hTb : |T| ≤ 2 ^ 606 := by
    have h1 : T = (T - -H * r.val) + -H * r.val := by ring
    rw [h1]
    refine (abs_add_le _ _).trans (double_le (et.trans (double_le ?_ ?_)) ?_)
    · have h2 : |-H * r.val| * 2 ^ (-53 : ℤ) ≤ |-H * r.val| * 1 :=
        mul_le_mul_of_nonneg_left hu1 (_root_.abs_nonneg _)
      rw [_root_.mul_one] at h2
      exact h2.trans hHR
    · rw [← zpow_natCast]
      exact zpow_le_zpow_right₀ (by norm_num) (by norm_num)
    · exact hHR.trans (pow_le_pow_right₀ (by norm_num) (by norm_num))
  have hXb : |x.val| ≤ 2 ^ 201 := by
    have h : ((|x.val| : ℚ) : ℝ) ≤ ((2 ^ 201 : ℚ) : ℝ) := by
      push_cast
      have h2 := abs_add_le ((x.val : ℝ) - ρ) ρ
      rw [sub_add_cancel] at h2
      have e : (2 : ℝ) ^ 201 = 2 * 2 ^ 200 := by rw [pow_succ]; ring
      rw [e]
      linarith
    exact (Rat.cast_le (K := ℝ)).1 h
  -- the next value
  obtain ⟨fn, vn⟩ := f64_add hx ft ((abs_add_le _ _).trans ((double_le (k := 606)
    (hXb.trans (pow_le_pow_right₀ (by norm_num) (by norm_num))) hTb).trans
      (pow_le_pow_right₀ (by norm_num) (by norm_num))))
  have en := Binary64.rnd_add_error (Fl.val_fixed x) (Fl.val_fixed (Fl.mul (Fl.neg (Fl.div Fl.one d)) r))
  rw [← vn] at en
  change (Fl.newtonNext r d x).IsFinite at fn
  change |(Fl.newtonNext r d x).val - (x.val + T)| ≤ |x.val + T| * 2 ^ (-53 : ℤ) at en
  refine ⟨hJne, ft.not_nan, fn, ?_⟩
  have eh' := (Rat.cast_le (K := ℝ)).2 eh
  have et' := (Rat.cast_le (K := ℝ)).2 et
  have en' := (Rat.cast_le (K := ℝ)).2 en
  push_cast at eh' et' en'
  refine newton_step_arith (u := 2 ^ (-53 : ℤ)) hq0 hq hη0 hη (by positivity) (by norm_num) hDp hF hR hJ eh' hρ ?_ et' en'
  have e : (2 : ℝ) ^ (-1075 : ℤ) = 2 ^ (-53 : ℤ) * 2 ^ (-1022 : ℤ) := by rw [← zpow_add₀ (by norm_num)]; norm_num
  rw [e]
  exact mul_le_mul_of_nonneg_left hρ0 (by positivity)

end
end Nrf
