import Verif.Proofs.QuotientFloat

/-!
# A Newton step in binary64 against the exact Newton step
-/

set_option linter.unusedSectionVars false

namespace Nrf
open Spec Fl

/-- A bound of the distance between the point computed by a pass and the exact Newton iterate: `η` and `ε` are the errors of
the Jacobian and of the residuals, `M` bounds the residuals and `X` the iterate. -/
noncomputable def Spec.stepError (n : Nat) (α β η ε M X : ℝ) : ℝ :=
  β * (3 / 2 * (β * η) + 48 * ((n : ℝ) ^ 4 * 3 ^ n * 2 ^ (-53 : ℤ) * (α * β))) * M + 2 * (β * ε) + 2 * 2 ^ (-53 : ℤ) * X

/-- The errors of one component, as numbers: `x` the point, `b` the exact step, `s` the step with the computed inverse and
residuals, `t` its computed value. -/
theorem step_arith {u x b s t y β θ M ε k τ X : ℝ} (hu : 0 < u) (hu1 : u ≤ 1 / 1000) (hβ : 0 ≤ β) (hθ : 0 ≤ θ) (hM : 0 ≤ M)
    (hε : 0 ≤ ε) (hk : k ≤ 1 / 1000) (hk0 : 0 ≤ k) (hs : |s - b| ≤ β * θ * M + 5 / 4 * (β * ε))
    (ht : |t + s| ≤ k * (5 / 4 * (β * M) + 5 / 4 * (β * ε)) + τ) (hτ : τ ≤ u * X / 8) (hX : |x - b| ≤ X)
    (hy : |y - (x + t)| ≤ |x + t| * u) :
    |y - (x - b)| ≤ β * (9 / 8 * θ + 4 / 3 * k) * M + 2 * (β * ε) + 2 * u * X := by
  have hX0 : 0 ≤ X := (_root_.abs_nonneg _).trans hX
  have hβM : 0 ≤ β * M := by positivity
  have hβε : 0 ≤ β * ε := by positivity
  have hθM : 0 ≤ β * θ * M := by positivity
  have huX : 0 ≤ u * X := by positivity
  have hkε : k * (β * ε) ≤ 1 / 1000 * (β * ε) := mul_le_mul_of_nonneg_right hk hβε
  have hkM : 0 ≤ k * (β * M) := by positivity
  have h1 : |(x + t) - (x - b)| ≤ β * θ * M + 5 / 4 * (k * (β * M)) + 126 / 100 * (β * ε) + u * X / 8 := by
    have e : x + t - (x - b) = (t + s) - (s - b) := by ring
    rw [e]
    refine (abs_sub _ _).trans ?_
    linarith
  have h2 : |x + t| ≤ |(x + t) - (x - b)| + X := by
    have h3 := abs_add_le ((x + t) - (x - b)) (x - b)
    rw [sub_add_cancel] at h3
    linarith
  have h3 : |y - (x - b)| ≤ |y - (x + t)| + |(x + t) - (x - b)| := by
    have h4 := abs_add_le (y - (x + t)) ((x + t) - (x - b))
    rwa [sub_add_sub_cancel] at h4
  have h5 := mul_le_mul_of_nonneg_right (h2.trans (add_le_add_left h1 X)) hu.le
  have h6 := mul_le_mul_of_nonneg_right hu1 hθM
  have h7 := mul_le_mul_of_nonneg_right hu1 hkM
  have h8 := mul_le_mul_of_nonneg_right hu1 hβε
  have h9 := mul_le_mul_of_nonneg_right hu1 huX
  nlinarith

section
variable {n : Nat} {A B : Matrix (Fin n) (Fin n) ℝ} {α β η ε M X : ℝ} {la : LinAlg F64 n}

/-- All roundings of a Newton step. -/
theorem step_float (hn : n ≤ 2 ^ 40) (hdot : AccurateDot la) (hw : WellPosed A B α β) {C : Mat F64 n} (hβη : 0 ≤ η)
    (hC : ApproxInverse A (5 / 4 * β) C)
    (hCB : ∀ i, ∑ j, |((C i j).val : ℝ) - B i j| ≤ β * (5 / 4 * (β * η) + 38 * ((n : ℝ) ^ 4 * 3 ^ n * ur * (α * β))))
    {x r : Vec F64 n} (hx : ∀ i, (x i).IsFinite) (hr : ∀ i, (r i).IsFinite) {φ : Fin n → ℝ} (he : ‖reals r - φ‖ ≤ ε)
    (hM : ‖φ‖ ≤ M) (hX : ‖reals x - B.mulVec φ‖ ≤ X) (hbig : M + ε ≤ 2 ^ 200) (hX0 : 2 ^ (-900 : ℤ) ≤ X) (hX1 : X ≤ 2 ^ 200)
    (i : Fin n) :
    la.dot (mneg C i) r ≠ .nan ∧ (Fl.add (x i) (la.dot (mneg C i) r)).IsFinite ∧
      |((Fl.add (x i) (la.dot (mneg C i) r)).val : ℝ) - (reals x - B.mulVec φ) i| ≤ stepError n α β η ε M X := by
  have hn0 : 0 < n := i.pos
  obtain ⟨hκ, hα, hβ⟩ := wellPosed_product hw hn0
  have hu := ur_pos
  have hu1 := ur_small
  have hε : 0 ≤ ε := (norm_nonneg _).trans he
  have hM0 : 0 ≤ M := (norm_nonneg _).trans hM
  have hN : (1 : ℝ) ≤ n := by exact_mod_cast hn0
  set θ := 5 / 4 * (β * η) + 38 * ((n : ℝ) ^ 4 * 3 ^ n * ur * (α * β)) with hθdef
  have hθ : 0 ≤ θ := by positivity
  have hrj : ∀ j, |rv (r j) - φ j| ≤ ε := fun j => (norm_le_pi_norm (reals r - φ) j).trans he
  have hφj : ∀ j, |φ j| ≤ M := fun j => (norm_le_pi_norm φ j).trans hM
  have hrM : ∀ j, |rv (r j)| ≤ M + ε := by
    intro j
    have h1 := hrj j
    have h2 := hφj j
    have h3 := abs_sub_abs_le_abs_sub (rv (r j)) (φ j)
    linarith
  have vneg : ∀ j, rv (mneg C i j) = -rv (C i j) := fun j => rv_neg _
  have hrow : ∑ j, |rv (C i j)| ≤ 5 / 4 * β := hC.rows i
  have hsum : ∑ j, |rv (mneg C i j) * rv (r j)| ≤ 5 / 4 * (β * M) + 5 / 4 * (β * ε) := by
    refine le_trans (Finset.sum_le_sum (g := fun j => |rv (C i j)| * (M + ε)) fun j _ => ?_) ?_
    · rw [abs_mul, vneg, _root_.abs_neg]
      exact mul_le_mul_of_nonneg_left (hrM j) (_root_.abs_nonneg _)
    · rw [← Finset.sum_mul]
      refine (mul_le_mul_of_nonneg_right hrow (by positivity)).trans (le_of_eq (by ring))
  have hsumb : 5 / 4 * (β * M) + 5 / 4 * (β * ε) ≤ 2 ^ 300 := by
    calc 5 / 4 * (β * M) + 5 / 4 * (β * ε) = 5 / 4 * (β * (M + ε)) := by ring
      _ ≤ 2 ^ 1 * (2 ^ 89 * 2 ^ 200) :=
        mul_le_mul (by norm_num) (mul_le_mul hw.betaHigh hbig (by positivity) (by norm_num)) (by positivity) (by norm_num)
      _ = 2 ^ 290 := by rw [← pow_add, ← pow_add]
      _ ≤ _ := pow_le_pow_right₀ (by norm_num) (by norm_num)
  have hsumq : ∑ j, |(mneg C i j).val * (r j).val| ≤ 2 ^ 1000 := by
    have h1 : (((∑ j, |(mneg C i j).val * (r j).val| : ℚ)) : ℝ) ≤ (((2 : ℚ) ^ 1000 : ℚ) : ℝ) := by
      push_cast
      exact hsum.trans (hsumb.trans (pow_le_pow_right₀ (by norm_num) (by norm_num)))
    exact (Rat.cast_le (K := ℝ)).1 h1
  obtain ⟨ft, et⟩ := hdot (mneg C i) r (fun j => fl_neg_finite (hC.finite i j)) hr hsumq
  have et' := (Rat.cast_le (K := ℝ)).2 et
  push_cast at et'
  set t := la.dot (mneg C i) r with ht
  change |rv t - ∑ j, rv (mneg C i j) * rv (r j)| ≤ 3 * n * ur * ∑ j, |rv (mneg C i j) * rv (r j)| + 2 * n * tr at et'
  have hk0 : 0 ≤ 3 * (n : ℝ) * ur := by positivity
  have hk : 3 * (n : ℝ) * ur ≤ 1 / 1000 := by
    have hnr : (n : ℝ) ≤ 2 ^ 40 := by exact_mod_cast hn
    refine (mul_le_mul_of_nonneg_right (by linarith : 3 * (n : ℝ) ≤ 3 * 2 ^ 40) hu.le).trans ?_
    unfold ur
    norm_num
  have hτ : 2 * (n : ℝ) * tr ≤ ur * X / 8 := small_underflow hn hX0
  set s := ∑ j, rv (C i j) * rv (r j) with hs
  have es : ∑ j, rv (mneg C i j) * rv (r j) = -s := by
    rw [hs, ← Finset.sum_neg_distrib]
    refine Finset.sum_congr rfl fun j _ => ?_
    rw [vneg]
    ring
  rw [es, sub_neg_eq_add] at et'
  have hT : |rv t + s| ≤ 3 * n * ur * (5 / 4 * (β * M) + 5 / 4 * (β * ε)) + 2 * n * tr := by
    exact et'.trans (add_le_add_left (mul_le_mul_of_nonneg_left hsum hk0) _)
  have hsb : |s - B.mulVec φ i| ≤ β * θ * M + 5 / 4 * (β * ε) := by
    have e : s - B.mulVec φ i = ∑ j, ((rv (C i j) - B i j) * φ j + rv (C i j) * (rv (r j) - φ j)) := by
      rw [hs]
      simp only [Matrix.mulVec, dotProduct]
      rw [← Finset.sum_sub_distrib]
      refine Finset.sum_congr rfl fun j _ => ?_
      ring
    rw [e, Finset.sum_add_distrib]
    refine (abs_add_le _ _).trans (add_le_add ?_ ?_)
    · refine (Finset.abs_sum_le_sum_abs _ _).trans ?_
      refine le_trans (Finset.sum_le_sum (g := fun j => |rv (C i j) - B i j| * M) fun j _ => ?_) ?_
      · rw [abs_mul]
        exact mul_le_mul_of_nonneg_left (hφj j) (_root_.abs_nonneg _)
      · rw [← Finset.sum_mul]
        exact mul_le_mul_of_nonneg_right (hCB i) hM0
    · refine (Finset.abs_sum_le_sum_abs _ _).trans ?_
      refine le_trans (Finset.sum_le_sum (g := fun j => |rv (C i j)| * ε) fun j _ => ?_) ?_
      · rw [abs_mul]
        exact mul_le_mul_of_nonneg_left (hrj j) (_root_.abs_nonneg _)
      · rw [← Finset.sum_mul]
        exact (mul_le_mul_of_nonneg_right hrow hε).trans (le_of_eq (by ring))
  have hXi : |rv (x i) - B.mulVec φ i| ≤ X := (norm_le_pi_norm (reals x - B.mulVec φ) i).trans hX
  -- no overflow
  have hXT : |rv (x i) + rv t| ≤ 2 ^ 1000 := by
    have h1 : rv (x i) + rv t = (rv (x i) - B.mulVec φ i) - (s - B.mulVec φ i) + (rv t + s) := by ring
    rw [h1]
    refine (abs_add_le _ _).trans ((add_le_add_left (abs_sub _ _) _).trans ?_)
    have h2 : 3 * (n : ℝ) * ur * (5 / 4 * (β * M) + 5 / 4 * (β * ε)) ≤ 1 / 1000 * (5 / 4 * (β * M) + 5 / 4 * (β * ε)) :=
      mul_le_mul_of_nonneg_right hk (by positivity)
    have h3 : ur * X / 8 ≤ X := by
      have hX00 : 0 ≤ X := (_root_.abs_nonneg _).trans hXi
      have := mul_le_mul_of_nonneg_right hu1 hX00
      linarith
    have hθ1 : |s - B.mulVec φ i| ≤ 2 ^ 400 + 2 ^ 300 := by
      have h4 : |s| ≤ 2 ^ 300 := by
        refine le_trans ?_ hsumb
        have h5 : |s| = |∑ j, rv (mneg C i j) * rv (r j)| := by rw [es, _root_.abs_neg]
        rw [h5]
        exact (Finset.abs_sum_le_sum_abs _ _).trans hsum
      have h6 : |B.mulVec φ i| ≤ 2 ^ 400 := by
        have h7 : |B.mulVec φ i| ≤ β * M := by
          simp only [Matrix.mulVec, dotProduct]
          refine (Finset.abs_sum_le_sum_abs _ _).trans ?_
          refine le_trans (Finset.sum_le_sum (g := fun j => |B i j| * M) fun j _ => ?_) ?_
          · rw [abs_mul]
            exact mul_le_mul_of_nonneg_left (hφj j) (_root_.abs_nonneg _)
          · rw [← Finset.sum_mul]
            exact mul_le_mul_of_nonneg_right (hw.rows i) hM0
        have h8 : β * M ≤ 2 ^ 89 * 2 ^ 200 :=
          mul_le_mul hw.betaHigh (le_trans (le_add_of_nonneg_right hε) hbig) hM0 (by norm_num)
        rw [← pow_add] at h8
        exact h7.trans (h8.trans (pow_le_pow_right₀ (by norm_num) (by norm_num)))
      exact (abs_sub _ _).trans (by rw [add_comm]; exact add_le_add h6 h4)
    have h4 : (2 : ℝ) ^ 300 ≤ 2 ^ 400 := pow_le_pow_right₀ (by norm_num) (by norm_num)
    have h5 : (2 : ℝ) ^ 200 ≤ 2 ^ 400 := pow_le_pow_right₀ (by norm_num) (by norm_num)
    have h6 : (8 : ℝ) * 2 ^ 400 ≤ 2 ^ 1000 := by
      have : (8 : ℝ) * 2 ^ 400 = 2 ^ 403 := by rw [pow_add 2 400 3]; ring
      rw [this]
      exact pow_le_pow_right₀ (by norm_num) (by norm_num)
    refine le_trans ?_ h6
    clear h6
    have h7 : (0 : ℝ) ≤ 2 ^ 400 := by positivity
    have h8 := hX1.trans h5
    have h9 := hsumb.trans h4
    clear hX1 h5 hsumb hbig hX0
    generalize (2 : ℝ) ^ 400 = p at *
    generalize (2 : ℝ) ^ 300 = p' at *
    generalize 5 / 4 * (β * M) + 5 / 4 * (β * ε) = w at *
    generalize 3 * (n : ℝ) * ur * w = w3 at *
    generalize ur * X / 8 = w4 at *
    generalize 2 * (n : ℝ) * tr = w5 at *
    clear * - h2 h3 h4 h7 h8 h9 hT hτ hXi hθ1
    linarith
  obtain ⟨fn, en⟩ := rv_add (hx i) ft hXT
  refine ⟨ft.not_nan, fn, ?_⟩
  have hfin := step_arith hu hu1 hβ hθ hM0 hε hk hk0 hsb hT hτ hXi en
  change |rv (Fl.add (x i) t) - (rv (x i) - B.mulVec φ i)| ≤ β * (3 / 2 * (β * η) + 48 * ((n : ℝ) ^ 4 * 3 ^ n * ur * (α * β))) * M +
    2 * (β * ε) + 2 * ur * X
  refine hfin.trans ?_
  have hn4 : (n : ℝ) ≤ (n : ℝ) ^ 4 := le_self_pow₀ hN (by norm_num)
  have h3n : (3 : ℝ) ≤ 3 ^ n := by
    calc (3 : ℝ) = 3 ^ 1 := by norm_num
      _ ≤ _ := pow_le_pow_right₀ (by norm_num) hn0
  have hmain : 3 * ((n : ℝ) * ur) ≤ (n : ℝ) ^ 4 * 3 ^ n * ur * (α * β) := by
    calc 3 * ((n : ℝ) * ur) = (n : ℝ) * 3 * ur * 1 := by ring
      _ ≤ (n : ℝ) ^ 4 * 3 ^ n * ur * (α * β) := by gcongr
  have hcoef : 9 / 8 * θ + 4 / 3 * (3 * n * ur) ≤ 3 / 2 * (β * η) + 48 * ((n : ℝ) ^ 4 * 3 ^ n * ur * (α * β)) := by
    have : 0 ≤ β * η := by positivity
    have : 0 ≤ (n : ℝ) ^ 4 * 3 ^ n * ur * (α * β) := by positivity
    rw [hθdef]
    linarith
  have := mul_le_mul_of_nonneg_right (mul_le_mul_of_nonneg_left hcoef hβ) hM0
  linarith

end
end Nrf
