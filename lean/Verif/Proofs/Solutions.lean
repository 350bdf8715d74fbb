import Verif.Proofs.TestCases
import Mathlib.Analysis.Real.Sqrt
import Mathlib.Analysis.Calculus.ContDiff.Operations
import Mathlib.Tactic.Linarith
import Mathlib.Tactic.FieldSimp
import Mathlib.Tactic.NormNum
import Mathlib.Tactic.Positivity

/-!
# The solutions of the cases 5 to 8
-/

set_option linter.unusedSectionVars false

namespace Nrf
open Spec TestCases
open scoped Exact
open Matrix

section
variable {alpha : ℝ}

/-- The parameters `a`, `b`, `c` of `solution` belong to `alpha`: they solve the quadratic equation. -/
structure Belongs (alpha a b c : ℝ) : Prop where
  neg : alpha < 0
  a_eq : 2 * alpha * a = -3
  b_eq : alpha * b = alpha * a ^ 2 - 1
  c_eq : alpha * c = -2

variable {a b c : ℝ}

theorem solve_quadratic (h : Belongs alpha a b c) {y : ℝ} (hy : y ≤ 0) :
    a - Real.sqrt (b - c * y) < 0 ∧
      alpha * (a - Real.sqrt (b - c * y)) ^ 2 + 3 * (a - Real.sqrt (b - c * y)) + 1 - 2 * y = 0 := by
  have hα := h.neg
  have ha : 0 < a := by nlinarith [h.a_eq]
  have hc : 0 < c := by nlinarith [h.c_eq]
  have hb : a ^ 2 < b := by
    have := h.b_eq
    by_contra hb
    have : alpha * a ^ 2 ≤ alpha * b := mul_le_mul_of_nonpos_left (not_lt.1 hb) hα.le
    linarith
  have hr : a ^ 2 < b - c * y := by nlinarith [mul_nonneg hc.le (neg_nonneg.2 hy)]
  have hs : Real.sqrt (b - c * y) ^ 2 = b - c * y := Real.sq_sqrt (by nlinarith [sq_nonneg a])
  constructor
  · have : a < Real.sqrt (b - c * y) := (Real.lt_sqrt ha.le).2 hr
    linarith
  · have e : alpha * (a - Real.sqrt (b - c * y)) ^ 2 + 3 * (a - Real.sqrt (b - c * y)) + 1 - 2 * y =
        alpha * Real.sqrt (b - c * y) ^ 2 - (2 * alpha * a + 3) * Real.sqrt (b - c * y) + alpha * a ^ 2 + 3 * a + 1 -
          2 * y := by ring
    rw [e, hs]
    have h1 := h.a_eq
    have h2 := h.b_eq
    have h3 := h.c_eq
    have e2 : alpha * (b - c * y) = alpha * a ^ 2 - 1 + 2 * y := by
      rw [mul_sub, ← mul_assoc, h2, h3]; ring
    rw [e2, h1]
    have e3 : alpha * a ^ 2 = -3 / 2 * a := by
      have : alpha * a ^ 2 = (2 * alpha * a) * a / 2 := by ring
      rw [this, h1]; ring
    rw [e3]; ring

/-- The entries lie between `-1` and `0` and solve the equations. -/
theorem chain_spec (h : Belongs alpha a b c) (j : Nat) :
    -1 < solutionChain Real.sqrt a b c j ∧ solutionChain Real.sqrt a b c j < 0 ∧
      alpha * solutionChain Real.sqrt a b c j ^ 2 + 3 * solutionChain Real.sqrt a b c j + 1 -
        2 * (match j with | 0 => 0 | j + 1 => solutionChain Real.sqrt a b c j) = 0 := by
  have hα := h.neg
  induction j with
  | zero =>
    have := solve_quadratic h (le_refl 0)
    rw [mul_zero, sub_zero] at this
    have e : solutionChain Real.sqrt a b c 0 = a - Real.sqrt b := rfl
    rw [e]
    refine ⟨?_, this.1, this.2⟩
    by_contra hlt
    nlinarith [this.2, mul_nonneg (neg_nonneg.2 hα.le) (sq_nonneg (a - Real.sqrt b))]
  | succ j ih =>
    have := solve_quadratic h ih.2.1.le
    have e : solutionChain Real.sqrt a b c (j + 1) = a - Real.sqrt (b - c * solutionChain Real.sqrt a b c j) := rfl
    rw [e]
    refine ⟨?_, this.1, this.2⟩
    by_contra hlt
    nlinarith [this.2, mul_nonneg (neg_nonneg.2 hα.le)
      (sq_nonneg (a - Real.sqrt (b - c * solutionChain Real.sqrt a b c j))), ih.1]

variable {k : Nat}

theorem solution_entry (h : Belongs alpha a b c) (i : Nat) :
    -1 < entry (solution Real.sqrt a b c (k + 2)) i ∧ entry (solution Real.sqrt a b c (k + 2)) i ≤ 0 := by
  by_cases hi : i < k + 2
  · rw [entry_of_lt _ hi]
    have := chain_spec h (k + 2 - 1 - i)
    exact ⟨this.1, this.2.1.le⟩
  · rw [entry_of_ge _ (by omega)]
    constructor <;> norm_num

theorem solution_link (h : Belongs alpha a b c) (i : Nat) (hi : i < k + 2) :
    link alpha 1 (solution Real.sqrt a b c (k + 2)) i = 0 := by
  unfold link
  rw [entry_of_lt _ hi]
  have e : (solution Real.sqrt a b c (k + 2)) ⟨i, hi⟩ = solutionChain Real.sqrt a b c (k + 2 - 1 - i) := rfl
  rw [e]
  by_cases hl : i + 1 < k + 2
  · rw [entry_of_lt _ hl]
    have e2 : (solution Real.sqrt a b c (k + 2)) ⟨i + 1, hl⟩ = solutionChain Real.sqrt a b c (k - i) := by
      change solutionChain Real.sqrt a b c (k + 2 - 1 - (i + 1)) = _
      congr 1; omega
    rw [e2, show k + 2 - 1 - i = (k - i) + 1 by omega]
    have := (chain_spec h ((k - i) + 1)).2.2
    simp only at this
    linarith
  · rw [entry_of_ge _ (by omega), show k + 2 - 1 - i = 0 by omega]
    have := (chain_spec h 0).2.2
    simp only at this
    linarith

theorem solution_root (h : Belongs alpha a b c) : broyden alpha 1 (solution Real.sqrt a b c (k + 2)) = 0 :=
  (broyden_eq_zero _ _ _).2 fun i hi => solution_link h i hi

/-- It is the only root without positive entry. -/
theorem solution_unique (h : Belongs alpha a b c) {x : Vec ℝ (k + 2)} (hx : broyden alpha 1 x = 0)
    (hneg : ∀ i, x i ≤ 0) : x = solution Real.sqrt a b c (k + 2) := by
  have hl := (broyden_eq_zero _ _ _).1 hx
  have key : ∀ j, j ≤ k + 2 → entry x (k + 2 - j) = entry (solution Real.sqrt a b c (k + 2)) (k + 2 - j) := by
    intro j
    induction j with
    | zero => intro _; rw [entry_of_ge _ (by omega), entry_of_ge _ (by omega)]
    | succ j ih =>
      intro hj
      have hi : k + 2 - (j + 1) < k + 2 := by omega
      have h1 := hl _ hi
      have h2 := solution_link h _ hi
      unfold link at h1 h2
      rw [show k + 2 - (j + 1) + 1 = k + 2 - j by omega] at h1 h2
      rw [ih (by omega)] at h1
      have h3 := (solution_entry (k := k) h (k + 2 - (j + 1))).2
      have h4 : entry x (k + 2 - (j + 1)) ≤ 0 := by rw [entry_of_lt _ hi]; exact hneg _
      set u := entry x (k + 2 - (j + 1))
      set v := entry (solution Real.sqrt a b c (k + 2)) (k + 2 - (j + 1))
      have hα := h.neg
      have e : (u - v) * (3 + alpha * (u + v)) = 0 := by linarith
      rcases mul_eq_zero.1 e with h5 | h5
      · linarith
      · nlinarith [mul_nonneg (neg_nonneg.2 hα.le) (neg_nonneg.2 h4), mul_nonneg (neg_nonneg.2 hα.le) (neg_nonneg.2 h3)]
  funext i
  have := key (k + 2 - i.val) (by omega)
  rw [show k + 2 - (k + 2 - i.val) = i.val by omega, entry_of_lt _ i.2, entry_of_lt _ i.2] at this
  exact this

theorem jac_invertible (hα : alpha < 0) {x : Vec ℝ (k + 2)} (hneg : ∀ i, x i ≤ 0) : (broydenJac alpha x).det ≠ 0 := by
  rw [broydenJac_det]
  refine Finset.prod_ne_zero_iff.2 fun i _ => ?_
  have := mul_nonneg (neg_nonneg.2 hα.le) (neg_nonneg.2 (hneg i))
  nlinarith

theorem entry_contDiff {n : Nat} (i : Nat) : ContDiff ℝ 2 (fun y : Vec ℝ n => entry y i) := by
  by_cases h : i < n
  · have : (fun y : Vec ℝ n => entry y i) = fun y => y ⟨i, h⟩ := funext fun y => entry_of_lt y h
    rw [this]
    fun_prop
  · have : (fun y : Vec ℝ n => entry y i) = fun _ => 0 := funext fun y => entry_of_ge y (by omega)
    rw [this]
    fun_prop

theorem broyden_contDiff (alpha beta : ℝ) : ContDiff ℝ 2 (broyden alpha beta : Vec ℝ (k + 2) → Vec ℝ (k + 2)) := by
  have hlink : ∀ i, ContDiff ℝ 2 (fun y : Vec ℝ (k + 2) => link alpha beta y i) := fun i =>
    ((contDiff_const.mul (entry_contDiff (i + 1))).sub
      ((contDiff_const.add (contDiff_const.mul (entry_contDiff i))).mul (entry_contDiff i))).sub contDiff_const
  have key : ∀ (i : Nat) (hi : i < k + 2), ContDiff ℝ 2 (fun y => broydenAt alpha beta y i hi) := by
    intro i
    induction i with
    | zero => intro hi; simp only [broydenAt_zero]; exact hlink 0
    | succ i ih => intro hi; simp only [broydenAt_succ]; exact (ih _).add (hlink _)
  exact contDiff_pi.2 fun i => key i i.2

end

theorem belongs5 : Belongs alpha5 (Scalar.dec 15 0) (Scalar.dec 235 0) (Scalar.dec 20 0) := by
  constructor <;> simp only [alpha5, ex_neg, ex_dec] <;> norm_num

theorem belongs6 : Belongs alpha6 (Scalar.dec 3 0) (Scalar.dec 11 0) (Scalar.dec 4 0) := by
  constructor <;> simp only [alpha6, ex_neg, ex_dec] <;> norm_num

/-- Rational enclosures of the entries. -/
def encloses (a b c δ q q' : ℚ) : Bool :=
  0 ≤ a - (q' - δ) && 0 ≤ a - (q' + δ) && b - c * (q - δ) ≤ (a - (q' - δ)) ^ 2 && (a - (q' + δ)) ^ 2 ≤ b - c * (q + δ)

theorem encloses_sound {a b c δ q q' : ℚ} (hc : 0 ≤ c) (h : encloses a b c δ q q' = true) {y : ℝ} (hy : |y - q| ≤ δ) :
    |((a : ℝ) - Real.sqrt (b - c * y)) - q'| ≤ δ := by
  simp only [encloses, Bool.and_eq_true, decide_eq_true_eq] at h
  obtain ⟨⟨⟨h1, h2⟩, h3⟩, h4⟩ := h
  have h1 : (0 : ℝ) ≤ a - (q' - δ) := by exact_mod_cast h1
  have h2 : (0 : ℝ) ≤ a - (q' + δ) := by exact_mod_cast h2
  have h3 : (b : ℝ) - c * (q - δ) ≤ (a - (q' - δ)) ^ 2 := by exact_mod_cast h3
  have h4 : ((a : ℝ) - (q' + δ)) ^ 2 ≤ b - c * (q + δ) := by exact_mod_cast h4
  have hc : (0 : ℝ) ≤ c := by exact_mod_cast hc
  rw [abs_le] at hy ⊢
  have u1 : Real.sqrt (b - c * y) ≤ a - (q' - δ) := by
    refine Real.sqrt_le_iff.2 ⟨h1, ?_⟩
    nlinarith [mul_nonneg hc (by linarith : (0 : ℝ) ≤ y - (q - δ))]
  have u2 : (a : ℝ) - (q' + δ) ≤ Real.sqrt (b - c * y) := by
    refine Real.le_sqrt_of_sq_le ?_
    nlinarith [mul_nonneg hc (by linarith : (0 : ℝ) ≤ (q + δ) - y)]
  constructor <;> linarith

/-- A list of rational approximations, checked one after the other. -/
def enclosesAll (a b c δ : ℚ) : ℚ → List ℚ → Bool
  | _, [] => true
  | q, q' :: rest => encloses a b c δ q q' && enclosesAll a b c δ q' rest

theorem chain_encloses {a b c δ : ℚ} (hc : 0 ≤ c) (hδ : 0 ≤ δ) {l : List ℚ} (h : enclosesAll a b c δ 0 l = true)
    (j : Nat) (hj : j < l.length) : |solutionChain Real.sqrt (a : ℝ) b c j - (l[j] : ℚ)| ≤ δ := by
  have key : ∀ (l : List ℚ) (q : ℚ) (y : Nat → ℝ), |y 0 - q| ≤ δ →
      (∀ j, y (j + 1) = a - Real.sqrt (b - c * y j)) → enclosesAll a b c δ q l = true →
      ∀ j (hj : j < l.length), |y (j + 1) - (l[j] : ℚ)| ≤ δ := by
    intro l
    induction l with
    | nil => intro q y _ _ _ j hj; exact absurd hj (Nat.not_lt_zero _)
    | cons q' rest ih =>
      intro q y h0 hs he j hj
      simp only [enclosesAll, Bool.and_eq_true] at he
      have h1 : |y 1 - q'| ≤ δ := by rw [hs 0]; exact encloses_sound hc he.1 h0
      cases j with
      | zero => exact h1
      | succ j =>
        exact ih q' (fun j => y (j + 1)) h1 (fun j => hs (j + 1)) he.2 j (by simpa using hj)
  have := key l 0 (fun j => match j with | 0 => 0 | j + 1 => solutionChain Real.sqrt (a : ℝ) b c j)
    (by simpa using hδ)
    (fun j => by
      cases j with
      | zero => simp only [mul_zero, sub_zero]; rfl
      | succ j => rfl) h j hj
  exact this

end Nrf
