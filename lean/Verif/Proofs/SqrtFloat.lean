import Verif.Proofs.NewtonFloat
import Mathlib.Tactic.Linarith
import Mathlib.Tactic.Positivity
import Mathlib.Tactic.FieldSimp
import Mathlib.Tactic.Ring

/-!
# Newton's method for square roots in binary64: the rounding errors of one pass
-/

namespace Nrf

/-- The errors of a pass: the next value differs from the exact one by at most eight roundings. -/
theorem newton_arith {u X A s R J H T Y η : ℚ} (hu : 0 < u) (hu1 : u ≤ 1 / 1000) (hX : 0 < X) (hA : 0 < A)
    (hs : |s - X * X| ≤ |X * X| * u) (hR : |R - (s - A)| ≤ |s - A| * u) (hJ : |J - 2 * X| ≤ |2 * X| * u)
    (hH : |H - 1 / J| ≤ |1 / J| * u) (hη : η ≤ u * u * X) (hT : |T - -H * R| ≤ |-H * R| * u + η)
    (hY : |Y - (X + T)| ≤ |X + T| * u) :
    |Y - (X + A / X) / 2| ≤ 8 * u * ((X + A / X) / 2) := by
  have hP : 0 < X * X + A := by positivity
  set P := X * X + A with hPd
  have hN : (X + A / X) / 2 = P / (2 * X) := by rw [hPd]; field_simp
  rw [hN]
  set N := P / (2 * X) with hNd
  have hN0 : 0 < N := by positivity
  have huu : u * u ≤ u / 1000 := by nlinarith
  have huuu : u * u * u ≤ u / 1000000 := by nlinarith
  -- the slope
  have hJ1 : |J / (2 * X) - 1| ≤ u := by
    have : J / (2 * X) - 1 = (J - 2 * X) / (2 * X) := by field_simp
    rw [this, abs_div, div_le_iff₀ (by positivity)]
    linarith
  obtain ⟨hj1, hj2⟩ := abs_le.1 hJ1
  have hJ0 : 0 < J := by
    have h : 0 < J / (2 * X) := by linarith
    have h2 : J = J / (2 * X) * (2 * X) := by field_simp
    rw [h2]; positivity
  have hH1 : |H * J - 1| ≤ u := by
    have : H * J - 1 = (H - 1 / J) * J := by field_simp
    rw [this, abs_mul, abs_of_pos hJ0]
    have := mul_le_mul_of_nonneg_right hH hJ0.le
    rw [abs_of_pos (by positivity : 0 < 1 / J)] at this
    have e : 1 / J * u * J = u := by field_simp
    linarith
  set q := H * (2 * X) with hq
  have hq1 : |q - 1| ≤ 3 * u := by
    have e : q - 1 = (H * J - J / (2 * X)) / (J / (2 * X)) := by
      rw [hq]; field_simp
    rw [e, abs_div, abs_of_pos (by linarith : 0 < J / (2 * X)), div_le_iff₀ (by linarith)]
    have h1 : |H * J - J / (2 * X)| ≤ 2 * u := by
      have e2 : H * J - J / (2 * X) = (H * J - 1) - (J / (2 * X) - 1) := by ring
      rw [e2]
      refine (abs_sub _ _).trans ?_
      linarith
    have h2 := mul_le_mul_of_nonneg_left hj1 hu.le
    nlinarith
  -- the residual
  set e := (X * X - A) / P with he
  have he1 : |e| ≤ 1 := by
    rw [he, abs_div, abs_of_pos hP, div_le_one hP]
    refine (abs_sub _ _).trans ?_
    rw [abs_of_pos hA, abs_of_pos (by positivity : 0 < X * X)]
  have hsA : |s - A| ≤ P * (1 + u) := by
    have e2 : s - A = (s - X * X) + (X * X - A) := by ring
    have e3 : |X * X - A| ≤ P := by
      refine (abs_sub _ _).trans ?_
      rw [abs_of_pos hA, abs_of_pos (by positivity : 0 < X * X)]
    have e4 : |X * X| ≤ P := by rw [abs_of_pos (by positivity : 0 < X * X)]; linarith
    rw [e2]
    refine (abs_add_le _ _).trans ?_
    have := mul_le_mul_of_nonneg_right e4 hu.le
    linarith
  set ρ := R / P with hρ
  have hρe : |ρ - e| ≤ 2 * u + u * u := by
    have e2 : ρ - e = ((R - (s - A)) + (s - X * X)) / P := by
      rw [hρ, he]; field_simp; ring
    rw [e2, abs_div, abs_of_pos hP, div_le_iff₀ hP]
    refine (abs_add_le _ _).trans ?_
    have h1 := mul_le_mul_of_nonneg_right hsA hu.le
    have e4 : |X * X| ≤ P := by rw [abs_of_pos (by positivity : 0 < X * X)]; linarith
    have h2 := mul_le_mul_of_nonneg_right e4 hu.le
    nlinarith
  have hqρ : |q * ρ - e| ≤ 51 / 10 * u := by
    have e2 : q * ρ - e = q * (ρ - e) + (q - 1) * e := by ring
    have hqa : |q| ≤ 1 + 3 * u := by
      have : q = (q - 1) + 1 := by ring
      rw [this]
      refine (abs_add_le _ _).trans ?_
      rw [abs_one]; linarith
    rw [e2]
    refine (abs_add_le _ _).trans ?_
    rw [abs_mul q, abs_mul (q - 1)]
    have h1 := mul_le_mul hqa hρe (abs_nonneg _) (by positivity)
    have h2 := mul_le_mul hq1 he1 (abs_nonneg _) (by positivity)
    linarith
  have hHR : H * R = q * ρ * N := by
    rw [hq, hρ, hNd]; field_simp
  have hqρa : |q * ρ| ≤ 1 + 51 / 10 * u := by
    have : q * ρ = (q * ρ - e) + e := by ring
    rw [this]
    refine (abs_add_le _ _).trans ?_
    linarith
  have hXN : X ≤ 2 * N := by
    rw [hNd]
    have : 2 * (P / (2 * X)) = P / X := by field_simp
    rw [this, le_div_iff₀ hX]
    linarith
  have hXe : X = N + e * N := by
    rw [he, hNd, hPd]; field_simp; ring
  have hT2 : |(X + T) - N| ≤ 63 / 10 * u * N := by
    have e2 : (X + T) - N = (T - -H * R) + (e - q * ρ) * N := by
      have : -H * R = -(q * ρ * N) := by rw [← hHR]; ring
      rw [this]
      nth_rewrite 1 [hXe]
      ring
    rw [e2]
    refine (abs_add_le _ _).trans ?_
    rw [abs_mul, abs_of_pos hN0, abs_sub_comm e]
    have h1 := mul_le_mul_of_nonneg_right hqρ hN0.le
    have h2 : |-H * R| ≤ (1 + 51 / 10 * u) * N := by
      rw [neg_mul, abs_neg, hHR, abs_mul, abs_of_pos hN0]
      exact mul_le_mul_of_nonneg_right hqρa hN0.le
    have h3 := mul_le_mul_of_nonneg_right h2 hu.le
    have h4 : u * u * X ≤ u / 1000 * (2 * N) := mul_le_mul huu hXN hX.le (by positivity)
    have h5 := mul_le_mul_of_nonneg_right huu hN0.le
    have h6 : 0 < u * N := mul_pos hu hN0
    linarith
  have hYT : |X + T| ≤ (1 + 63 / 10 * u) * N := by
    have : X + T = ((X + T) - N) + N := by ring
    rw [this]
    refine (abs_add_le _ _).trans ?_
    rw [abs_of_pos hN0]; linarith
  have e3 : Y - N = (Y - (X + T)) + ((X + T) - N) := by ring
  rw [e3]
  refine (abs_add_le _ _).trans ?_
  have h1 := mul_le_mul_of_nonneg_right hYT hu.le
  have h5 := mul_le_mul_of_nonneg_right huu hN0.le
  have h6 : 0 < u * N := mul_pos hu hN0
  linarith

/-- After any pass from a positive value: close to the exact pass, so above `√(A / 2)`. -/
theorem sqrt_first {u X A Y : ℚ} (hu : 0 < u) (hu1 : u ≤ 1 / 1000) (hX : 0 < X) (hA : 0 < A)
    (hY : |Y - (X + A / X) / 2| ≤ 8 * u * ((X + A / X) / 2)) :
    0 < Y ∧ A ≤ 2 * (Y * Y) ∧
      |Y * Y - A| ≤ ((X + A / X) * (X + A / X) / 4 - A) + 17 * u * ((X + A / X) * (X + A / X) / 4) ∧
      A ≤ (X + A / X) * (X + A / X) / 4 := by
  set N := (X + A / X) / 2 with hN
  have hN0 : 0 < N := by positivity
  have e : (X + A / X) * (X + A / X) / 4 = N * N := by rw [hN]; ring
  have hNA : A ≤ N * N := by
    rw [← e]
    have h := mul_self_nonneg (X - A / X)
    have h2 : X * (A / X) = A := by field_simp
    nlinarith
  rw [e]
  obtain ⟨h1, h2⟩ := abs_le.1 hY
  have huu : u * u ≤ u / 1000 := by nlinarith
  have hl : (1 - 8 * u) * N ≤ Y := by linarith
  have hr : Y ≤ (1 + 8 * u) * N := by linarith
  have hl0 : 0 < (1 - 8 * u) * N := by
    have : 0 < 1 - 8 * u := by linarith
    positivity
  have hY0 : 0 < Y := hl0.trans_le hl
  have hNN : 0 < N * N := by positivity
  have hlo := mul_le_mul hl hl hl0.le hY0.le
  have hhi := mul_le_mul hr hr hY0.le (by positivity)
  have k1 := mul_le_mul_of_nonneg_right huu hNN.le
  have k2 : 0 < u * (N * N) := mul_pos hu hNN
  have k4 : u * (N * N) ≤ 1 / 1000 * (N * N) := mul_le_mul_of_nonneg_right hu1 hNN.le
  have hlo' : N * N * (1 - 17 * u) ≤ Y * Y := by
    have : 0 ≤ u * u * (N * N) := by positivity
    linarith
  have hhi' : Y * Y ≤ N * N * (1 + 17 * u) := by linarith
  refine ⟨hY0, by linarith, ?_, hNA⟩
  rw [abs_le]
  constructor <;> linarith

/-- A pass from above `√(A / 2)` divides the distance by three, up to roundings. -/
theorem sqrt_contract {u X A Y B : ℚ} (hu : 0 < u) (hu1 : u ≤ 1 / 1000) (hX : 0 < X) (hA : 0 < A)
    (hXA : A ≤ 2 * (X * X)) (hB0 : 0 ≤ B) (hB : |X * X - A| ≤ B + 32 * u * A)
    (hY : |Y - (X + A / X) / 2| ≤ 8 * u * ((X + A / X) / 2)) :
    |Y * Y - A| ≤ B / 3 + 32 * u * A := by
  obtain ⟨-, -, h, -⟩ := sqrt_first hu hu1 hX hA hY
  set D := |X * X - A| with hD
  have hD0 : 0 ≤ D := abs_nonneg _
  have hq : (X + A / X) * (X + A / X) / 4 - A ≤ D / 4 := by
    have e : (X + A / X) * (X + A / X) / 4 - A = D * D / (4 * (X * X)) := by
      rw [hD, abs_mul_abs_self]
      field_simp
      ring
    rw [e, div_le_div_iff₀ (by positivity) (by norm_num)]
    have hDX : D ≤ X * X := by
      rw [hD, abs_le]
      constructor <;> nlinarith
    have := mul_le_mul_of_nonneg_left hDX hD0
    linarith
  have huA : u * A ≤ 1 / 1000 * A := mul_le_mul_of_nonneg_right hu1 hA.le
  have huuA : u * (u * A) ≤ u * (1 / 1000 * A) := mul_le_mul_of_nonneg_left huA hu.le
  have huD : u * D ≤ u * (B + 32 * u * A) := mul_le_mul_of_nonneg_left hB hu.le
  have huB : u * B ≤ 1 / 1000 * B := mul_le_mul_of_nonneg_right hu1 hB0
  have huW : u * ((X + A / X) * (X + A / X) / 4) ≤ u * (A + D / 4) := mul_le_mul_of_nonneg_left (by linarith) hu.le
  have hpos : 0 < u * A := mul_pos hu hA
  linarith

section
open Fl

theorem double_le {x y : ℚ} {k : ℕ} (hx : x ≤ 2 ^ k) (hy : y ≤ 2 ^ k) : x + y ≤ 2 ^ (k + 1) := by
  rw [pow_succ]
  linarith

/-- A rounded number is at most twice as large. -/
theorem rounded_le {x y : ℚ} {k : ℕ} (hx : |x| ≤ 2 ^ k) (hy : |y - x| ≤ |x| * 2 ^ (-53 : ℤ)) : |y| ≤ 2 ^ (k + 1) := by
  have h1 : y = (y - x) + x := by ring
  rw [h1]
  refine (abs_add_le _ _).trans (double_le (hy.trans ?_) hx)
  have : |x| * 2 ^ (-53 : ℤ) ≤ |x| * 1 := mul_le_mul_of_nonneg_left (by norm_num) (_root_.abs_nonneg _)
  rw [_root_.mul_one] at this
  exact this.trans hx

theorem f64_finite {z : Bool} {x : ℚ} (h : |x| ≤ 2 ^ 1023) : (ofExact z x : F64).IsFinite := by
  have hr : |Rounding.rnd x| ≤ (2 : ℚ) ^ 1023 := by
    have h1 := (abs_le.1 h).1
    have h2 := (abs_le.1 h).2
    rw [abs_le]
    have e : Rounding.rnd ((2 : ℚ) ^ 1023) = 2 ^ 1023 := Binary64.rnd_natCast_pow 1023
    constructor
    · have := Rounding.mono _ _ h1
      rwa [Rounding.odd, e] at this
    · have := Rounding.mono _ _ h2
      rwa [e] at this
  have hb : |Rounding.rnd x| < (Rounding.big : ℚ) :=
    hr.trans_lt (pow_lt_pow_right₀ (by norm_num) (by norm_num) : (2 : ℚ) ^ 1023 < 2 ^ 1024)
  unfold ofExact
  split_ifs <;> trivial

theorem f64_mul {a b : F64} (ha : a.IsFinite) (hb : b.IsFinite) (h : |a.val * b.val| ≤ 2 ^ 1023) :
    (Fl.mul a b).IsFinite ∧ (Fl.mul a b).val = Binary64.rnd (a.val * b.val) := by
  obtain ⟨z, hz⟩ := mul_finite ha hb
  have hf : (Fl.mul a b).IsFinite := hz ▸ f64_finite h
  exact ⟨hf, (val_mul hf).2.2⟩

theorem f64_add {a b : F64} (ha : a.IsFinite) (hb : b.IsFinite) (h : |a.val + b.val| ≤ 2 ^ 1023) :
    (Fl.add a b).IsFinite ∧ (Fl.add a b).val = Binary64.rnd (a.val + b.val) := by
  obtain ⟨z, hz⟩ := add_finite ha hb
  have hf : (Fl.add a b).IsFinite := hz ▸ f64_finite h
  exact ⟨hf, val_add hf⟩

theorem f64_sub {a b : F64} (ha : a.IsFinite) (hb : b.IsFinite) (h : |a.val - b.val| ≤ 2 ^ 1023) :
    (Fl.sub a b).IsFinite ∧ (Fl.sub a b).val = Binary64.rnd (a.val - b.val) := by
  have h' : |a.val + (Fl.neg b).val| ≤ 2 ^ 1023 := by rwa [val_neg, ← sub_eq_add_neg]
  have hf : (Fl.sub a b).IsFinite := (f64_add ha (fl_neg_finite hb) h').1
  exact ⟨hf, val_sub hf⟩

theorem f64_div {a b : F64} (ha : a.IsFinite) (hb : b.IsFinite) (h0 : b.val ≠ 0) (h : |a.val / b.val| ≤ 2 ^ 1023) :
    (Fl.div a b).IsFinite ∧ (Fl.div a b).val = Binary64.rnd (a.val / b.val) := by
  obtain ⟨z, hz⟩ := fl_div_finite ha hb h0
  have hf : (Fl.div a b).IsFinite := hz ▸ f64_finite h
  exact ⟨hf, (val_div hb hf).2⟩

theorem f64_sub_error (a b : F64) : |Binary64.rnd (a.val - b.val) - (a.val - b.val)| ≤ |a.val - b.val| * 2 ^ (-53 : ℤ) := by
  have h := Binary64.rnd_add_error (Fl.val_fixed a) (y := -b.val) (by
    rw [Binary64.rnd_neg]; exact congrArg _ (Fl.val_fixed b))
  rwa [← sub_eq_add_neg] at h

/-- The residual `x² - a` in binary64. -/
def sqrtRes (a x : F64) : F64 := Fl.sub (Fl.mul x x) a

/-- The derivative `2 x` in binary64. -/
def sqrtDer (x : F64) : F64 := Fl.mul Fl.two x

/-- All roundings of a pass. -/
theorem sqrt_pass {a x : F64} (ha : a.IsFinite) (hx : x.IsFinite) (ha0 : 0 < a.val) (ha1 : a.val ≤ 2 ^ 200)
    (hx0 : 2 ^ (-200 : ℤ) ≤ x.val) (hx1 : x.val ≤ 2 ^ 402) :
    (sqrtRes a x).IsFinite ∧ (sqrtDer x).IsFinite ∧ (sqrtDer x).val ≠ 0 ∧
    Fl.mul (Fl.neg (Fl.div Fl.one (sqrtDer x))) (sqrtRes a x) ≠ .nan ∧
    (Fl.newtonNext (sqrtRes a x) (sqrtDer x) x).IsFinite ∧
    |(Fl.newtonNext (sqrtRes a x) (sqrtDer x) x).val - (x.val + a.val / x.val) / 2| ≤
      8 * 2 ^ (-53 : ℤ) * ((x.val + a.val / x.val) / 2) ∧
    ∃ s, |s - x.val * x.val| ≤ |x.val * x.val| * 2 ^ (-53 : ℤ) ∧
      |(sqrtRes a x).val - (s - a.val)| ≤ |s - a.val| * 2 ^ (-53 : ℤ) := by
  have hu : (0 : ℚ) < 2 ^ (-53 : ℤ) := Binary64.two_zpow_pos _
  have hu1 : (2 : ℚ) ^ (-53 : ℤ) ≤ 1 / 1000 := by norm_num
  set X := x.val with hX
  set A := a.val with hA
  have hX0 : 0 < X := (Binary64.two_zpow_pos _).trans_le hx0
  have hlow : (2 : ℚ) ^ (-1022 : ℤ) ≤ 2 ^ (-400 : ℤ) := zpow_le_zpow_right₀ (by norm_num) (by norm_num)
  -- the square
  have hXX : X * X ≤ 2 ^ 804 := by
    have := mul_le_mul hx1 hx1 hX0.le (by positivity)
    rwa [← pow_add] at this
  have hXXl : (2 : ℚ) ^ (-400 : ℤ) ≤ X * X := by
    have := mul_le_mul hx0 hx0 (Binary64.two_zpow_pos _).le hX0.le
    rwa [← zpow_add₀ (by norm_num)] at this
  have hXXp : 0 < X * X := by positivity
  obtain ⟨fs, vs⟩ := f64_mul hx hx (by
    rw [← hX, abs_of_pos hXXp]
    exact hXX.trans (pow_le_pow_right₀ (by norm_num) (by norm_num)))
  have es := Binary64.rnd_error_normal (x := X * X) (by rw [abs_of_pos hXXp]; exact hlow.trans hXXl)
  rw [← hX] at vs
  rw [← vs] at es
  set S := (Fl.mul x x).val with hS
  have hSb : |S| ≤ 2 ^ 805 := rounded_le (by rw [abs_of_pos hXXp]; exact hXX) es
  -- the residual
  have hSA : |S - A| ≤ 2 ^ 806 := by
    refine (abs_sub _ _).trans (double_le hSb ?_)
    rw [abs_of_pos ha0]
    exact ha1.trans (pow_le_pow_right₀ (by norm_num) (by norm_num))
  obtain ⟨fr, vr⟩ := f64_sub fs ha (hSA.trans (pow_le_pow_right₀ (by norm_num) (by norm_num)))
  have er := f64_sub_error (Fl.mul x x) a
  rw [← vr] at er
  change (sqrtRes a x).IsFinite at fr
  change |(sqrtRes a x).val - (S - A)| ≤ |S - A| * 2 ^ (-53 : ℤ) at er
  set R := (sqrtRes a x).val with hR
  have hRb : |R| ≤ 2 ^ 807 := rounded_le hSA er
  -- the derivative
  have h2x : (2 : ℚ) * X ≤ 2 ^ 403 := by
    rw [two_mul]
    exact double_le hx1 hx1
  have h2xl : (2 : ℚ) ^ (-200 : ℤ) ≤ 2 * X := hx0.trans (le_mul_of_one_le_left hX0.le one_le_two)
  obtain ⟨fd, vd⟩ := f64_mul (a := Fl.two) trivial hx (by
    change |2 * X| ≤ _
    rw [abs_of_pos (by positivity)]
    exact h2x.trans (pow_le_pow_right₀ (by norm_num) (by norm_num)))
  have ed := Binary64.rnd_error_normal (x := 2 * X) (by
    rw [abs_of_pos (by positivity)]
    exact (zpow_le_zpow_right₀ (by norm_num) (by norm_num)).trans h2xl)
  change (Fl.mul Fl.two x).val = Binary64.rnd (2 * X) at vd
  rw [← vd] at ed
  change (sqrtDer x).IsFinite at fd
  change |(sqrtDer x).val - 2 * X| ≤ _ at ed
  set J := (sqrtDer x).val with hJ
  have hJl : X ≤ J := by
    have h1 := (abs_le.1 ed).1
    rw [abs_of_pos (by positivity : 0 < 2 * X)] at h1
    have h2 := mul_le_mul_of_nonneg_left hu1 (by positivity : 0 ≤ 2 * X)
    clear * - h1 h2 hX0
    generalize 2 * X * (2 : ℚ) ^ (-53 : ℤ) = w at h1 h2
    linarith
  have hJ0 : 0 < J := hX0.trans_le hJl
  have hJu : J ≤ 2 ^ 404 := by
    rw [← abs_of_pos hJ0]
    exact rounded_le (by rw [abs_of_pos (by positivity : 0 < 2 * X)]; exact h2x) ed
  -- the inverse
  have hIu : 1 / J ≤ 2 ^ 200 := by
    rw [div_le_iff₀ hJ0]
    have h1 := mul_le_mul_of_nonneg_left (hx0.trans hJl) (by positivity : (0 : ℚ) ≤ 2 ^ 200)
    have h2 : (2 : ℚ) ^ 200 * 2 ^ (-200 : ℤ) = 1 := by
      rw [← zpow_natCast, ← zpow_add₀ (by norm_num)]; norm_num
    rwa [h2] at h1
  have hIl : (2 : ℚ) ^ (-404 : ℤ) ≤ 1 / J := by
    rw [le_div_iff₀ hJ0]
    have h1 := mul_le_mul_of_nonneg_left hJu (Binary64.two_zpow_pos (-404)).le
    have h2 : (2 : ℚ) ^ (-404 : ℤ) * 2 ^ 404 = 1 := by
      rw [← zpow_natCast, ← zpow_add₀ (by norm_num)]; norm_num
    rwa [h2] at h1
  have hI0 : 0 < 1 / J := by positivity
  obtain ⟨fh, vh⟩ := f64_div (a := Fl.one) trivial fd hJ0.ne' (by
    change |1 / J| ≤ _
    rw [abs_of_pos hI0]
    exact hIu.trans (pow_le_pow_right₀ (by norm_num) (by norm_num)))
  have eh := Binary64.rnd_error_normal (x := 1 / J) (by
    rw [abs_of_pos hI0]
    exact (zpow_le_zpow_right₀ (by norm_num) (by norm_num)).trans hIl)
  change (Fl.div Fl.one (sqrtDer x)).val = Binary64.rnd (1 / J) at vh
  rw [← vh] at eh
  set H := (Fl.div Fl.one (sqrtDer x)).val with hH
  have hHb : |H| ≤ 2 ^ 201 := rounded_le (by rw [abs_of_pos hI0]; exact hIu) eh
  -- the step
  have hHR : |-H * R| ≤ 2 ^ 1008 := by
    rw [abs_mul, _root_.abs_neg]
    have := mul_le_mul hHb hRb (_root_.abs_nonneg _) (by positivity)
    rwa [← pow_add] at this
  have vneg : (Fl.neg (Fl.div Fl.one (sqrtDer x))).val = -H := val_neg _
  obtain ⟨ft, vt⟩ := f64_mul (fl_neg_finite fh) fr (by
    rw [vneg]
    exact hHR.trans (pow_le_pow_right₀ (by norm_num) (by norm_num)))
  rw [vneg] at vt
  have et : |(Fl.mul (Fl.neg (Fl.div Fl.one (sqrtDer x))) (sqrtRes a x)).val - -H * R| ≤
      |-H * R| * 2 ^ (-53 : ℤ) + 2 ^ (-1075 : ℤ) := by
    rw [vt]
    rcases Binary64.rnd_error (-H * R) with h | ⟨-, h⟩
    · exact h.trans (le_add_of_nonneg_right (Binary64.two_zpow_pos _).le)
    · exact h.trans (le_add_of_nonneg_left (_root_.mul_nonneg (_root_.abs_nonneg _) hu.le))
  set T := (Fl.mul (Fl.neg (Fl.div Fl.one (sqrtDer x))) (sqrtRes a x)).val with hT
  have hTb : |T| ≤ 2 ^ 1010 := by
    have h1 : T = (T - -H * R) + -H * R := by ring
    rw [h1]
    refine (abs_add_le _ _).trans (double_le (et.trans (double_le ?_ ?_)) ?_)
    · have h2 : |-H * R| * 2 ^ (-53 : ℤ) ≤ |-H * R| * 1 :=
        mul_le_mul_of_nonneg_left (hu1.trans (by norm_num)) (_root_.abs_nonneg _)
      rw [_root_.mul_one] at h2
      exact h2.trans hHR
    · rw [← zpow_natCast]
      exact zpow_le_zpow_right₀ (by norm_num) (by norm_num)
    · exact hHR.trans (pow_le_pow_right₀ (by norm_num) (by norm_num))
  -- the next value
  obtain ⟨fn, vn⟩ := f64_add hx ft (by
    refine (abs_add_le _ _).trans ((double_le (k := 1010) ?_ hTb).trans
      (pow_le_pow_right₀ (by norm_num) (by norm_num)))
    rw [← hX, abs_of_pos hX0]
    exact hx1.trans (pow_le_pow_right₀ (by norm_num) (by norm_num)))
  have en := Binary64.rnd_add_error (Fl.val_fixed x)
    (Fl.val_fixed (Fl.mul (Fl.neg (Fl.div Fl.one (sqrtDer x))) (sqrtRes a x)))
  rw [← vn] at en
  refine ⟨fr, fd, hJ0.ne', ft.not_nan, fn, ?_, S, es, er⟩
  refine newton_arith hu hu1 hX0 ha0 es er ed eh (η := 2 ^ (-1075 : ℤ)) ?_ et en
  calc (2 : ℚ) ^ (-1075 : ℤ) ≤ 2 ^ (-53 : ℤ) * 2 ^ (-53 : ℤ) * 2 ^ (-200 : ℤ) := by
        rw [← zpow_add₀ (by norm_num), ← zpow_add₀ (by norm_num)]
        exact zpow_le_zpow_right₀ (by norm_num) (by norm_num)
    _ ≤ _ := mul_le_mul_of_nonneg_left hx0 (by positivity)

end

end Nrf
