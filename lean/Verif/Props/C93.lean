import Verif.Proofs.SqrtFloat
import Verif.Props.C52
import Verif.Props.C80
import Verif.Model.TestCases

/-!
# C93: square roots in binary64
-/

set_option linter.unusedSectionVars false

namespace Nrf
open Spec Fl

/-- `x² - a` with its derivative `2 x`, in the arithmetic of `F`; `square2` and `dsquare` of
`util/src/test_cases/polynom.rs` L3-13 for `a = 2`. -/
def Spec.squareModel {F : Type} [Scalar F] (a : F) : UserModel F 1 Empty Empty (AdapterState F 1) :=
  fromFunctionAndJacobian (fun x _ => x 0 *ᶠ x 0 -ᶠ a) (fun x _ _ => Scalar.two *ᶠ x 0)

theorem square2_model {F : Type} [Scalar F] :
    (fromFunctionAndJacobian TestCases.square2 TestCases.dsquare : UserModel F 1 Empty Empty (AdapterState F 1)) = squareModel Scalar.two := rfl

/-- The size of the problem: `(g + a / g)²`, at least `4 a`. -/
def Spec.squareSize (a g : ℚ) : ℚ := (g + a / g) * (g + a / g)

section
variable {u X A S R B tol : ℚ}

private theorem res_small (hu : 0 < u) (hu1 : u ≤ 1 / 1000) (hA : 0 < A) (hB : 0 ≤ B)
    (hD : |X * X - A| ≤ 5 / 6 * B + 32 * u * A) (hS : |S - X * X| ≤ |X * X| * u) (hR : |R - (S - A)| ≤ |S - A| * u) :
    |R| ≤ B + 64 * u * A := by
  set D := |X * X - A| with hDd
  have hD0 : 0 ≤ D := _root_.abs_nonneg _
  have h1 : |X * X| ≤ A + D := by
    have : X * X = A + (X * X - A) := by ring
    rw [this]
    refine (abs_add_le _ _).trans ?_
    rw [abs_of_pos hA]
  have h2 : |S - A| ≤ (A + D) * u + D := by
    have : S - A = (S - X * X) + (X * X - A) := by ring
    rw [this]
    refine (abs_add_le _ _).trans ?_
    have := mul_le_mul_of_nonneg_right h1 hu.le
    linarith
  have h3 : |R| ≤ |S - A| * u + |S - A| := by
    have : R = (R - (S - A)) + (S - A) := by ring
    rw [this]
    refine (abs_add_le _ _).trans ?_
    have e : R - (S - A) + (S - A) - (S - A) = R - (S - A) := by ring
    linarith
  have h4 := mul_le_mul_of_nonneg_right h2 hu.le
  have huD : u * D ≤ u * (5 / 6 * B + 32 * u * A) := mul_le_mul_of_nonneg_left hD hu.le
  have huuD : u * (u * D) ≤ 1 / 1000 * (u * D) := mul_le_mul_of_nonneg_right hu1 (_root_.mul_nonneg hu.le hD0)
  have huA : u * A ≤ 1 / 1000 * A := mul_le_mul_of_nonneg_right hu1 hA.le
  have huuA : u * (u * A) ≤ u * (1 / 1000 * A) := mul_le_mul_of_nonneg_left huA hu.le
  have huB : u * B ≤ 1 / 1000 * B := mul_le_mul_of_nonneg_right hu1 hB
  have hpos : 0 < u * A := mul_pos hu hA
  linarith

private theorem res_accurate (hu : 0 < u) (hu1 : u ≤ 1 / 1000) (hA : 0 < A) (ht : 64 * u * A ≤ tol)
    (hS : |S - X * X| ≤ |X * X| * u) (hR : |R - (S - A)| ≤ |S - A| * u) (h : |R| ≤ tol) :
    32 * |X * X - A| ≤ 33 * tol := by
  set D := |X * X - A| with hDd
  have hD0 : 0 ≤ D := _root_.abs_nonneg _
  have h1 : |X * X| ≤ A + D := by
    have : X * X = A + (X * X - A) := by ring
    rw [this]
    refine (abs_add_le _ _).trans ?_
    rw [abs_of_pos hA]
  have h2 : |S - A| ≤ |S - A| * u + |R| := by
    have : S - A = -(R - (S - A)) + R := by ring
    have h := abs_add_le (-(R - (S - A))) R
    rw [← this, _root_.abs_neg] at h
    linarith
  have h3 : D ≤ |X * X| * u + |S - A| := by
    have : X * X - A = -(S - X * X) + (S - A) := by ring
    have h := abs_add_le (-(S - X * X)) (S - A)
    rw [← this, _root_.abs_neg] at h
    linarith
  have h4 := mul_le_mul_of_nonneg_right h1 hu.le
  have h5 : u * D ≤ 1 / 1000 * D := mul_le_mul_of_nonneg_right hu1 hD0
  have h6 : |S - A| * u ≤ |S - A| * (1 / 1000) := mul_le_mul_of_nonneg_left hu1 (_root_.abs_nonneg _)
  linarith

end

theorem squareSize_pos {a g : ℚ} (ha : 0 < a) (hg : 0 < g) : 0 < squareSize a g := by
  unfold squareSize
  positivity

/-- Newton-Raphson computes square roots in binary64: for all doubles `a` and `g` between `2⁻²⁰⁰` and `2²⁰⁰`, the
solve of `x² = a` from `g` succeeds after at most `N` iterations as soon as
`(g + a / g)² / 3ᴺ + 2⁻⁴⁷ a` is within the tolerance.  The value returned satisfies the equation up to the
tolerance, in real arithmetic, with a margin of one part in 32 for the roundings of the residual. -/
theorem C93_converges (a g : F64) (ha : a.IsFinite) (ha0 : 2 ^ (-200 : ℤ) ≤ a.val) (ha1 : a.val ≤ 2 ^ 200)
    (hg : g.IsFinite) (hg0 : 2 ^ (-200 : ℤ) ≤ g.val) (hg1 : g.val ≤ 2 ^ 200)
    (c : Config F64 1) (hc : NewtonDefault c) (hguess : c.guess = fun _ => g) (ht : c.params.tolerance.IsFinite)
    (N : Nat) (hN : 1 ≤ N) (hNm : N ≤ c.params.maxIter)
    (htol : squareSize a.val g.val / 3 ^ N + 64 * 2 ^ (-53 : ℤ) * a.val ≤ c.params.tolerance.val)
    (s : AdapterState F64 1) (hs : s.right = fun _ => .zero false) :
    ∃ st' s', solve c (squareModel a) .new s = .ok (st', s', .ok ()) ∧ st'.iter ≤ N ∧ (s'.inputs 0).IsFinite ∧
      32 * |(s'.inputs 0).val * (s'.inputs 0).val - a.val| ≤ 33 * c.params.tolerance.val := by
  have hu : (0 : ℚ) < 2 ^ (-53 : ℤ) := Binary64.two_zpow_pos _
  have hu1 : (2 : ℚ) ^ (-53 : ℤ) ≤ 1 / 1000 := by norm_num
  have hA0 : 0 < a.val := (Binary64.two_zpow_pos _).trans_le ha0
  have hG0 : 0 < g.val := (Binary64.two_zpow_pos _).trans_le hg0
  set u : ℚ := 2 ^ (-53 : ℤ) with hud
  set A := a.val with hA
  set W := squareSize A g.val with hW
  have hW0 : 0 < W := squareSize_pos hA0 hG0
  have hWb : W ≤ 2 ^ 802 := by
    have h1 : A / g.val ≤ 2 ^ 400 := by
      rw [div_le_iff₀ hG0]
      have h2 := mul_le_mul_of_nonneg_left hg0 (by positivity : (0 : ℚ) ≤ 2 ^ 400)
      have h3 : (2 : ℚ) ^ 400 * 2 ^ (-200 : ℤ) = 2 ^ 200 := by
        rw [← zpow_natCast, ← zpow_natCast, ← zpow_add₀ (by norm_num)]; norm_num
      rw [h3] at h2
      exact ha1.trans h2
    have h2 : g.val + A / g.val ≤ 2 ^ 401 :=
      double_le (hg1.trans (pow_le_pow_right₀ (by norm_num) (by norm_num))) h1
    have h3 := mul_le_mul h2 h2 (by positivity) (by positivity)
    rwa [← pow_add] at h3
  have hf := fromFunctionAndJacobian_computes (fun (x : Vec F64 1) (_ : Fin 1) => sqrtRes a (x 0))
    (fun x _ _ => sqrtDer (x 0)) (fun _ => .zero false)
  have herr : ∀ {s : AdapterState F64 1} {x : F64}, At (squareModel a) (fun s => s.right = fun _ => .zero false)
      (fun x => ⟨fun _ => sqrtRes a (x 0), fun _ => .zero false⟩) s (fun _ => x) →
      amax (evaluateErrors c (squareModel a) s) = Fl.abs (sqrtRes a x) := by
    intro s x hat
    rw [hat.errors]
    exact errorsAt_fl hc (sqrtRes a) x
  -- within reach of the tolerance after `N` passes
  have hend : ∀ {x : F64}, x.IsFinite → 2 ^ (-200 : ℤ) ≤ x.val → x.val ≤ 2 ^ 402 →
      |x.val * x.val - A| ≤ 5 / 6 * (W / 3 ^ N) + 32 * u * A →
      Fl.ltb c.params.tolerance (Fl.abs (sqrtRes a x)) = false := by
    intro x hx hx0 hx1 hD
    obtain ⟨fr, -, -, -, -, -, S, hS, hR⟩ := sqrt_pass ha hx hA0 ha1 hx0 hx1
    have h := res_small hu hu1 hA0 (by positivity) hD hS hR
    rw [Bool.eq_false_iff, Ne, fl_ltb_val ht (abs_finite fr), val_abs, not_lt]
    exact h.trans htol
  obtain ⟨k, st', s', h1, ⟨x, hat, hd, hv, hx, hx0, hx1, hk, hinv⟩, h3, h4⟩ := solve_follow (c := c) hf
    (fun k st s => ∃ x, At (squareModel a) (fun s => s.right = fun _ => .zero false)
        (fun x => ⟨fun _ => sqrtRes a (x 0), fun _ => .zero false⟩) s (fun _ => x) ∧ st.debug = false ∧ st.valid = true ∧
      x.IsFinite ∧ 2 ^ (-200 : ℤ) ≤ x.val ∧ x.val ≤ 2 ^ 402 ∧ k ≤ N ∧
      (k = 0 ∧ x = g ∨ A ≤ 2 * (x.val * x.val) ∧ |x.val * x.val - A| ≤ 5 / 6 * (W / 3 ^ k) + 32 * u * A))
    (by
      rintro k st s ⟨x, hat, hd, hv, hx, hx0, hx1, hk, hinv⟩ hgo
      have hkN : k < N := by
        rcases lt_or_eq_of_le hk with h | h
        · exact h
        exfalso
        subst h
        rcases hinv with ⟨h, -⟩ | ⟨-, h⟩
        · omega
        have hgo' := hgo
        unfold continues at hgo'
        rw [Bool.and_eq_true] at hgo'
        have := hend hx hx0 hx1 h
        rw [← herr hat] at this
        exact absurd (hgo'.1.symm.trans this) (by decide)
      obtain ⟨fr, fd, hd0, hn, fn, hY, -⟩ := sqrt_pass ha hx hA0 ha1 hx0 hx1
      have hX0 : 0 < x.val := (Binary64.two_zpow_pos _).trans_le hx0
      obtain ⟨st', s', hi, hat', hd', hv'⟩ := newton_pass_fl hc (sqrtRes a) sqrtDer hx fd hd0 hn hd hat
      obtain ⟨hY0, hYA, hYD, -⟩ := sqrt_first hu hu1 hX0 hA0 hY
      set y := newtonNext (sqrtRes a x) (sqrtDer x) x with hy
      have hbound : |y.val * y.val - A| ≤ 5 / 6 * (W / 3 ^ (k + 1)) + 32 * u * A := by
        rcases hinv with ⟨rfl, rfl⟩ | ⟨hXA, hD⟩
        · change |y.val * y.val - A| ≤ W / 4 - A + 17 * u * (W / 4) at hYD
          have huW : u * W ≤ 1 / 1000 * W := mul_le_mul_of_nonneg_right hu1 hW0.le
          have huA : 0 < u * A := mul_pos hu hA0
          rw [zero_add, pow_one]
          clear_value u W
          linarith
        · have h := sqrt_contract hu hu1 hX0 hA0 hXA (by positivity) hD hY
          have e : 5 / 6 * (W / 3 ^ k) / 3 = 5 / 6 * (W / 3 ^ (k + 1)) := by rw [pow_succ]; field_simp
          rwa [e] at h
      refine ⟨st', s', hi, y, hat', hd', hv', fn, ?_, ?_, by omega, .inr ⟨hYA, hbound⟩⟩
      · by_contra hlt
        push Not at hlt
        have h5 := mul_le_mul hlt.le hlt.le hY0.le (Binary64.two_zpow_pos _).le
        rw [← zpow_add₀ (by norm_num)] at h5
        have h6 := ha0.trans (hYA.trans (mul_le_mul_of_nonneg_left h5 (by norm_num : (0 : ℚ) ≤ 2)))
        have e : (2 : ℚ) * 2 ^ (-200 + -200 : ℤ) = 2 ^ (-399 : ℤ) := by
          rw [← zpow_one_add₀ (by norm_num)]; norm_num
        rw [e] at h6
        exact absurd h6 (not_le.2 (zpow_lt_zpow_right₀ (by norm_num) (by norm_num)))
      · by_contra hlt
        push Not at hlt
        have h5 := mul_lt_mul hlt hlt.le (by positivity) hY0.le
        rw [← pow_add] at h5
        have h6 : W / 3 ^ (k + 1) ≤ 2 ^ 802 := (div_le_self hW0.le (one_le_pow₀ (by norm_num))).trans hWb
        have h7 : A ≤ 2 ^ 802 := ha1.trans (pow_le_pow_right₀ (by norm_num) (by norm_num))
        have h8 := (abs_le.1 hbound).2
        have huA : u * A ≤ 1 / 1000 * A := mul_le_mul_of_nonneg_right hu1 hA0.le
        have h9 : (2 : ℚ) ^ (402 + 402) = 4 * 2 ^ 802 := by rw [pow_add (2 : ℚ) 802 2]; ring
        rw [h9] at h5
        have h10 : (0 : ℚ) < 2 ^ 802 := by positivity
        clear_value u W
        generalize (2 : ℚ) ^ 802 = p at *
        linarith)
    hs trivial
    (fun s0 h0 => ⟨g, by rw [hguess] at h0; exact h0, rfl, rfl, hg, hg0,
      hg1.trans (pow_le_pow_right₀ (by norm_num) (by norm_num)), by omega, .inl ⟨rfl, rfl⟩⟩)
  have hle : Fl.ltb c.params.tolerance (Fl.abs (sqrtRes a x)) = false := by
    change continues c st' (amax (evaluateErrors c (squareModel a) s')) = false at h3
    rw [herr hat] at h3
    unfold continues at h3
    rw [Bool.and_eq_false_iff, decide_eq_false_iff_not] at h3
    rcases h3 with h | h
    · exact h
    · have : k = N := by omega
      subst this
      rcases hinv with ⟨h, -⟩ | ⟨-, h⟩
      · omega
      exact hend hx hx0 hx1 h
  have hin : s'.inputs = fun _ => x := hat.iteratives
  refine ⟨st', s', ?_, by omega, by rw [hin]; exact hx, ?_⟩
  · refine h1.trans ?_
    change Except.ok (st', s', finalResult c st' (amax (evaluateErrors c (squareModel a) s'))) = _
    rw [herr hat]
    unfold finalResult
    have : Scalar.lt c.params.tolerance (Fl.abs (sqrtRes a x)) = false := hle
    rw [this, hv]
    rfl
  · rw [hin]
    obtain ⟨fr, -, -, -, -, -, S, hS, hR⟩ := sqrt_pass ha hx hA0 ha1 hx0 hx1
    rw [Bool.eq_false_iff, Ne, fl_ltb_val ht (abs_finite fr), val_abs, not_lt] at hle
    refine res_accurate hu hu1 hA0 (le_trans ?_ htol) hS hR hle
    have : 0 ≤ W / 3 ^ N := by positivity
    clear_value u W
    linarith

/-- The default tolerance in binary64. -/
theorem default_tolerance : (Scalar.dec 1 6 : F64).IsFinite ∧ 999999 / 10 ^ 12 ≤ (Scalar.dec 1 6 : F64).val ∧
    (Scalar.dec 1 6 : F64).val ≤ 1000001 / 10 ^ 12 := by decide +kernel

/-- With the solver of `default_with_guess` (tolerance `1e-6`, 50 iterations), default iteratives and default residuals:
the square root of every double from `2⁻²⁰⁰` to `2²⁶` is found from every guess `g` with `g ≤ 2²⁸` and `a ≤ 2²⁸ g`. -/
theorem C93_default (a g : F64) (ha : a.IsFinite) (ha0 : 2 ^ (-200 : ℤ) ≤ a.val) (ha1 : a.val ≤ 2 ^ 26)
    (hg : g.IsFinite) (hg0 : 2 ^ (-200 : ℤ) ≤ g.val) (hg1 : g.val ≤ 2 ^ 28) (hga : a.val ≤ 2 ^ 28 * g.val)
    (r : ResidualsConfig) (hr : ResidualsConfig.new (convertIntoVecs (defaultVecResiduals 1)).1
      (convertIntoVecs (defaultVecResiduals 1)).2 = some r) (h) (c : Config F64 1)
    (hc : defaultWithGuess [g] ((defaultVecIteratives 1).map IterativeParams.toIterative) r h .NewtonRaphson false
      (nalgebraLinAlg F64) = .ok c) (s : AdapterState F64 1) (hs : s.right = fun _ => .zero false) :
    ∃ st' s', solve c (squareModel a) .new s = .ok (st', s', .ok ()) ∧ (s'.inputs 0).IsFinite ∧
      |(s'.inputs 0).val * (s'.inputs 0).val - a.val| ≤ 1.04e-6 := by
  have hd : NewtonDefault c ∧ c.guess = (fun _ => g) ∧ c.params.tolerance = Scalar.dec 1 6 ∧ c.params.maxIter = 50 := by
    cases hr
    cases hc
    exact ⟨⟨rfl, rfl, rfl, rfl, rfl, rfl⟩, funext fun i => by rw [Subsingleton.elim i 0]; rfl, rfl, rfl⟩
  obtain ⟨hd, hgs, htol, hmax⟩ := hd
  obtain ⟨ht, ht0, ht1⟩ := default_tolerance
  have hG0 : 0 < g.val := (Binary64.two_zpow_pos _).trans_le hg0
  have hA0 : 0 < a.val := (Binary64.two_zpow_pos _).trans_le ha0
  obtain ⟨st', s', h1, -, h2, h3⟩ := C93_converges a g ha ha0 (ha1.trans (pow_le_pow_right₀ (by norm_num) (by norm_num)))
    hg hg0 (hg1.trans (pow_le_pow_right₀ (by norm_num) (by norm_num)))
    c hd hgs (by rw [htol]; exact ht) 50 (by norm_num) hmax.ge
    (by
      rw [htol]
      refine le_trans ?_ ht0
      have e1 : a.val / g.val ≤ 2 ^ 28 := by rwa [div_le_iff₀ hG0]
      have e2 : 0 ≤ a.val / g.val := by positivity
      have e3 : g.val + a.val / g.val ≤ 2 ^ 29 := by norm_num at hg1 e1 ⊢; linarith
      have e4 : squareSize a.val g.val ≤ 2 ^ 29 * 2 ^ 29 := mul_le_mul e3 e3 (by positivity) (by norm_num)
      have e5 : squareSize a.val g.val / 3 ^ 50 ≤ 2 ^ 29 * 2 ^ 29 / 3 ^ 50 :=
        div_le_div_of_nonneg_right e4 (by positivity)
      have e6 : (64 : ℚ) * 2 ^ (-53 : ℤ) * a.val ≤ 64 * 2 ^ (-53 : ℤ) * 2 ^ 26 :=
        mul_le_mul_of_nonneg_left ha1 (by positivity)
      refine (add_le_add e5 e6).trans (by norm_num)) s hs
  rw [htol] at h3
  refine ⟨st', s', h1, h2, ?_⟩
  norm_num at ht1 ⊢
  linarith

/-- `2³³ + 2⁻¹⁷`: no double has this number as its rounded square. -/
def Spec.unsquare : F64 := Fl.ofExact false (2 ^ 33 + 1 / 2 ^ 17)

theorem unsquare_val : unsquare.IsFinite ∧ unsquare.val = 2 ^ 33 + 1 / 2 ^ 17 := by decide +kernel

/-- The rounded square of a double is at least `2⁻¹⁹` away. -/
theorem square_gap {x : ℚ} (hx : Binary64.rnd x = x) :
    Binary64.rnd (x * x) ≤ 2 ^ 33 + 1 / 2 ^ 17 - 1 / 2 ^ 19 ∨ 2 ^ 33 + 1 / 2 ^ 17 + 1 / 2 ^ 19 ≤ Binary64.rnd (x * x) := by
  have h0 : Binary64.rnd (6369051672525775 / 2 ^ 36 * (6369051672525775 / 2 ^ 36)) = 2 ^ 33 + 1 / 2 ^ 17 - 1 / 2 ^ 19 := by
    decide +kernel
  have h1 : Binary64.rnd (6369051672525776 / 2 ^ 36 * (6369051672525776 / 2 ^ 36)) = 2 ^ 33 + 1 / 2 ^ 17 + 1 / 2 ^ 19 := by
    decide +kernel
  have hxa : Binary64.rnd |x| = |x| := by
    rcases abs_cases x with ⟨h, -⟩ | ⟨h, -⟩
    · rw [h, hx]
    · rw [h, Binary64.rnd_neg, hx]
  rw [← abs_mul_abs_self x]
  generalize |x| = y, _root_.abs_nonneg x = hy at hxa
  rcases le_or_gt y (6369051672525775 / 2 ^ 36) with h | h
  · left
    rw [← h0]
    exact Binary64.rnd_mono _ _ (mul_le_mul h h hy (by norm_num))
  · right
    have hge : (2 : ℚ) ^ (16 : ℤ) ≤ y := le_trans (by norm_num) h.le
    have he : -36 ≤ Binary64.ulpExp y := by
      have h2 := Binary64.ulpExp_mono (by norm_num) hge
      have h3 : Binary64.ulpExp (2 ^ (16 : ℤ)) = -36 := by decide +kernel
      rwa [h3] at h2
    obtain ⟨k, hk⟩ := Binary64.multiple_lower he (Binary64.multiple_of_fixed hxa)
    have hk' : y * 2 ^ 36 = k := by
      rw [hk, zpow_neg]
      norm_num
      ring
    have h4 : (6369051672525775 : ℤ) < k := by
      have : (6369051672525775 : ℚ) < k := by
        rw [← hk']
        rwa [div_lt_iff₀ (by norm_num)] at h
      exact_mod_cast this
    have h5 : (6369051672525776 : ℚ) ≤ k := by exact_mod_cast h4
    have h6 : 6369051672525776 / 2 ^ 36 ≤ y := by
      rw [div_le_iff₀ (by norm_num), hk']
      exact h5
    rw [← h1]
    exact Binary64.rnd_mono _ _ (mul_le_mul h6 h6 (by norm_num) hy)

/-- The term proportional to `a` in the bound on the tolerance cannot be dropped.  For `a = 2³³ + 2⁻¹⁷` and a tolerance
below `2⁻¹⁹` (about `1.9e-6`, so also for the default), no solve of `x² = a` ends with `Ok` at a number, whatever the
method, the guess, the limits, the number of iterations and the model that computes the residual. -/
theorem C93_unreachable {EI EU S : Type} (m : UserModel F64 1 EI EU S) (c : Config F64 1) (hstop : c.res.stop 0 = .Abs)
    (ht : c.params.tolerance.IsFinite) (ht1 : c.params.tolerance.val < 1 / 2 ^ 19) (st st' : Solver F64 1) (s s' : S)
    (hm : m.getResiduals s' = ⟨fun _ => m.getIteratives s' 0 *ᶠ m.getIteratives s' 0 -ᶠ unsquare, fun _ => Scalar.zero⟩)
    (h : solve c m st s = .ok (st', s', .ok ())) : m.getIteratives s' 0 = .nan := by
  by_contra hx
  set x := m.getIteratives s' 0 with hxd
  obtain ⟨hu, hv⟩ := unsquare_val
  have hr : normalization ((m.getResiduals s').left 0) ((m.getResiduals s').right 0) (c.res.stop 0) =
      sqrtRes unsquare x := by
    rw [hm, hstop]
    exact fl_sub_zero _
  have hnn : sqrtRes unsquare x ≠ .nan := by
    have h1 : Fl.mul x x ≠ .nan := by
      rcases x with _ | s | s | ⟨q, hq⟩
      · exact absurd rfl hx
      · exact fun h => nomatch h
      · exact fun h => nomatch h
      · exact ofExact_not_nan _ _
    have h2 := add_not_nan (fl_neg_finite hu) h1
    rwa [Fl.add_comm'] at h2
  have hle := C02_partial c m ht.not_nan st st' s s' h (fun i => by rw [Subsingleton.elim i 0, hr]; exact hnn) 0
  rw [hr] at hle
  change Fl.leb (Fl.abs (sqrtRes unsquare x)) c.params.tolerance = true at hle
  have hf : (sqrtRes unsquare x).IsFinite := by
    rcases finite_or hnn with h | ⟨z, h⟩
    · exact h
    · rw [h] at hle
      generalize c.params.tolerance = w at hle ht
      rcases w with _ | b | b | ⟨q, hq⟩
      · exact ht.elim
      · exact ht.elim
      · exact absurd hle (by simp [Fl.abs, Fl.leb])
      · exact absurd hle (by simp [Fl.abs, Fl.leb])
  rw [leb_finite (abs_finite hf) ht, val_abs] at hle
  have hsv := val_sub hf
  have hmf := (finite_of_sub hf).1
  change (sqrtRes unsquare x).val = _ at hsv
  rw [(val_mul hmf).2.2, hv] at hsv
  have h19 : Binary64.rnd (1 / 2 ^ 19) = 1 / 2 ^ 19 := by decide +kernel
  have hbig : 1 / 2 ^ 19 ≤ |(sqrtRes unsquare x).val| := by
    rw [hsv]
    rcases square_gap (val_fixed x) with h | h
    · have h1 : Binary64.rnd (x.val * x.val) - (2 ^ 33 + 1 / 2 ^ 17) ≤ -(1 / 2 ^ 19) := by linarith
      have h2 := Binary64.rnd_mono _ _ h1
      rw [Binary64.rnd_neg, h19] at h2
      rw [le_abs]
      right
      exact le_neg_of_le_neg h2
    · have h1 : 1 / 2 ^ 19 ≤ Binary64.rnd (x.val * x.val) - (2 ^ 33 + 1 / 2 ^ 17) := by linarith
      have h2 := Binary64.rnd_mono _ _ h1
      rw [h19] at h2
      exact h2.trans (le_abs_self _)
  linarith

namespace Demo64

/-- The solver of the library for one unknown, with the given tolerance and number of iterations. -/
def newton (guess tol : ℚ) (maxIter : Nat) : Config F64 1 where
  params := { problemSize := 1, tolerance := ofRat tol, maxIter, method := .NewtonRaphson, damping := false }
  guess := fun _ => ofRat guess
  iters := fun _ => IterativeParams.default.toIterative
  res := { stop := fun _ => .Abs, upd := fun _ => .Abs }
  la := nalgebraLinAlg F64 1

end Demo64

/-- `C93_converges` applies to `√2` from the guess 1 with the tolerance `1e-10`: 24 iterations are enough. -/
example : ∃ st' s', solve (Demo64.newton 1 (1 / 10 ^ 10) 24) (squareModel (Demo64.ofRat 2)) .new .new =
      .ok (st', s', .ok ()) ∧ st'.iter ≤ 24 ∧ (s'.inputs 0).IsFinite ∧
      32 * |(s'.inputs 0).val * (s'.inputs 0).val - (Demo64.ofRat 2).val| ≤ 33 * (Demo64.ofRat (1 / 10 ^ 10)).val :=
  C93_converges (Demo64.ofRat 2) (Demo64.ofRat 1) (by decide +kernel) (by decide +kernel) (by decide +kernel)
    (by decide +kernel) (by decide +kernel) (by decide +kernel) (Demo64.newton 1 (1 / 10 ^ 10) 24)
    ⟨rfl, rfl, rfl, rfl, rfl, rfl⟩ rfl (by decide +kernel) 24 (by norm_num) le_rfl (by decide +kernel) .new rfl

/-- `C93_default` applies to `√2` from the guess 1; the model is `square2` with `dsquare`. -/
example : ∃ (r : ResidualsConfig) (h : r.length = r.stoppingCriterias.length ∧ r.length = r.updateMethods.length)
    (c : Config F64 1), defaultWithGuess [Demo64.ofRat 1] ((defaultVecIteratives 1).map IterativeParams.toIterative) r h
      .NewtonRaphson false (nalgebraLinAlg F64) = .ok c ∧
    ∃ st' s', solve c (fromFunctionAndJacobian TestCases.square2 TestCases.dsquare) .new .new = .ok (st', s', .ok ()) ∧
      (s'.inputs 0).IsFinite ∧ |(s'.inputs 0).val * (s'.inputs 0).val - 2| ≤ 1.04e-6 := by
  refine ⟨⟨[.Abs], [.Abs], 1⟩, ⟨rfl, rfl⟩, _, rfl, ?_⟩
  rw [square2_model]
  exact C93_default (Scalar.two : F64) (Demo64.ofRat 1) (by decide +kernel)
    (by decide +kernel) (by decide +kernel) (by decide +kernel) (by decide +kernel) (by decide +kernel)
    (by decide +kernel) ⟨[.Abs], [.Abs], 1⟩ rfl ⟨rfl, rfl⟩ _ rfl .new rfl

/-- `C93_unreachable` has successful solves to speak about: they exist from a NaN guess.  From 90000 the solve fails with
the default tolerance and succeeds with the tolerance `1e-5`. -/
example : Demo.kind (solve { Demo64.newton 90000 (1 / 10 ^ 6) 50 with guess := fun _ => .nan } (squareModel unsquare) .new
      .new) = .ok ∧
    Demo.kind (solve (Demo64.newton 90000 (1 / 10 ^ 6) 50) (squareModel unsquare) .new .new) = .nonConvergence ∧
    Demo.kind (solve (Demo64.newton 90000 (1 / 10 ^ 5) 50) (squareModel unsquare) .new .new) = .ok := by
  refine ⟨?_, ?_, ?_⟩ <;> decide +kernel

end Nrf
