import Verif.Props.C73
import Verif.Model.TestCases
import Mathlib.Algebra.Order.Ring.Pow
import Mathlib.Analysis.SpecificLimits.Basic
import Mathlib.Analysis.Real.Sqrt
import Mathlib.Tactic.Ring
import Mathlib.Tactic.Linarith
import Mathlib.Tactic.FieldSimp
import Mathlib.Tactic.NormNum
import Mathlib.Tactic.Positivity

/-!
# C74: Newton-Raphson extracts roots from every positive guess
-/

namespace Nrf
open Spec TestCases
open scoped Exact
open Matrix

/-- `x ^ p - r ^ p` lies above its tangents, at positive points. -/
private theorem tangent {p : Nat} {x r : ℝ} (hx : 0 < x) (hr : 0 < r) :
    (p + 1 : ℝ) * x ^ p * (r - x) ≤ r ^ (p + 1) - x ^ (p + 1) := by
  have h := one_add_mul_le_pow (show (-2 : ℝ) ≤ r / x - 1 by have := div_pos hr hx; linarith) (p + 1)
  rw [add_sub_cancel, div_pow, le_div_iff₀ (by positivity)] at h
  have e : (1 + ((p + 1 : ℕ) : ℝ) * (r / x - 1)) * x ^ (p + 1) = x ^ (p + 1) + (p + 1 : ℝ) * x ^ p * (r - x) := by
    push_cast
    field_simp
    ring
  rw [e] at h
  linarith

private theorem newton_point {p : Nat} {x r d : ℝ} (hx : 0 < x) (hr : 0 < r)
    (hd : (p + 1 : ℝ) * x ^ p * d = -(x ^ (p + 1) - r ^ (p + 1))) :
    r ≤ x + d ∧ (r ≤ x → x + d - r ≤ (p / (p + 1) : ℝ) * (x - r)) := by
  have hpos : (0 : ℝ) < (p + 1) * x ^ p := by positivity
  constructor
  · have := tangent (p := p) hx hr
    have h1 : (p + 1 : ℝ) * x ^ p * (r - x) ≤ (p + 1 : ℝ) * x ^ p * d := by linarith
    have := le_of_mul_le_mul_left h1 hpos
    linarith
  · intro hrx
    have h1 : r ^ (p + 1) ≤ r * x ^ p := by
      rw [pow_succ, mul_comm]
      exact mul_le_mul_of_nonneg_left (pow_le_pow_left₀ hr.le hrx p) hr.le
    have h2 : (p + 1 : ℝ) * x ^ p * d ≤ x ^ p * (r - x) := by
      rw [hd, pow_succ]; linarith
    have h3 : (p + 1 : ℝ) * d ≤ r - x := by
      have : x ^ p * ((p + 1 : ℝ) * d) ≤ x ^ p * (r - x) := by linarith
      exact le_of_mul_le_mul_left this (by positivity)
    rw [div_mul_eq_mul_div, le_div_iff₀ (by positivity)]
    linarith

/-- Exact arithmetic, no damping, no limits: for `F (x) = A (x ^ (p + 1) - r ^ (p + 1))` with its derivative, `A` and
`r` positive, from every positive guess and for every tolerance the solve succeeds if enough iterations are allowed;
after the first iteration the distance to the root shrinks by the factor `p / (p + 1)` at least. -/
theorem C74_power (p : Nat) (A r : ℝ) (hA : 0 < A) (hr : 0 < r) (F : Vec ℝ 1 → Vec ℝ 1) (jac : Vec ℝ 1 → Mat ℝ 1)
    (hF : ∀ x, F x 0 = A * (x 0 ^ (p + 1) - r ^ (p + 1))) (hjac : ∀ x, jac x 0 0 = A * ((p + 1) * x 0 ^ p))
    (x0 : ℝ) (hx0 : 0 < x0) :
    ∃ X, ∀ tol > 0, ∃ N, ∀ c : Config ℝ 1, PlainNewton c → c.guess 0 = x0 → c.params.tolerance = tol → N ≤ c.params.maxIter →
      (∀ i v d, (c.iters i).stepLimitation v d = v + d) → ∀ s : AdapterState ℝ 1, s.right = 0 →
      ∃ st' s', solve c (fromFunctionAndJacobian F jac) .new s = .ok (st', s', .ok ()) ∧ |F s'.inputs 0| ≤ tol ∧
        ∀ j, st'.iter = j + 1 → r ≤ s'.inputs 0 ∧ s'.inputs 0 - r ≤ (p / (p + 1) : ℝ) ^ j * X := by
  -- the first point
  have hstep : ∀ x : Vec ℝ 1, 0 < x 0 → (jac x).det ≠ 0 ∧ ∃ d : Vec ℝ 1, jac x *ᵥ d = - F x ∧
      (p + 1 : ℝ) * x 0 ^ p * d 0 = -(x 0 ^ (p + 1) - r ^ (p + 1)) := by
    intro x hx
    have hpos : (0 : ℝ) < (p + 1) * x 0 ^ p := by positivity
    refine ⟨by rw [Matrix.det_fin_one, hjac]; positivity,
      fun _ => -(x 0 ^ (p + 1) - r ^ (p + 1)) / ((p + 1) * x 0 ^ p), ?_, by field_simp⟩
    funext i
    rw [Subsingleton.elim i 0, Pi.neg_apply, hF]
    simp only [Matrix.mulVec, dotProduct, Fin.sum_univ_one, hjac]
    field_simp
  set X0 := x0 + -(x0 ^ (p + 1) - r ^ (p + 1)) / ((p + 1) * x0 ^ p) with hX0
  set q : ℝ := p / (p + 1) with hq
  have hq0 : 0 ≤ q := by positivity
  have hq1 : q < 1 := by rw [hq, div_lt_one (by positivity)]; linarith
  have hX : r ≤ X0 := (newton_point (p := p) (d := -(x0 ^ (p + 1) - r ^ (p + 1)) / ((p + 1) * x0 ^ p)) hx0 hr
    (by field_simp)).1
  refine ⟨X0, fun tol htol => ?_⟩
  obtain ⟨N, hN⟩ : ∃ N, q ^ N * (X0 * (A * ((p + 1) * X0 ^ p))) ≤ tol := by
    have hX0' : 0 < X0 := by linarith
    have hpos : 0 < X0 * (A * ((p + 1) * X0 ^ p)) := by positivity
    obtain ⟨N, hN⟩ := exists_pow_lt_of_lt_one (div_pos htol hpos) hq1
    exact ⟨N, by rw [lt_div_iff₀ hpos] at hN; exact hN.le⟩
  refine ⟨N + 1, fun c hc hg ht hmax hlim s hs => ?_⟩
  obtain ⟨st', s', h1, h2, h3, h4⟩ := newton_run_function hc F jac
    (fun k x => (k = 0 → x 0 = x0) ∧ ∀ j, k = j + 1 → r ≤ x 0 ∧ x 0 ≤ X0 ∧ x 0 - r ≤ q ^ j * X0) (N + 1) hmax
    ⟨fun _ => hg, fun j h => absurd h (by omega)⟩
    (fun k x _ hI => by
      have hxpos : 0 < x 0 := by
        cases k with
        | zero => rw [hI.1 rfl]; exact hx0
        | succ k => have := (hI.2 k rfl).1; linarith
      obtain ⟨hdet, d, hd, hd0⟩ := hstep x hxpos
      obtain ⟨l1, l2⟩ := newton_point hxpos hr hd0
      refine ⟨hdet, d, hd, fun i => hlim i _ _, fun h => absurd h (by omega), fun j hj => ?_⟩
      obtain rfl : k = j := by omega
      change r ≤ x 0 + d 0 ∧ x 0 + d 0 ≤ X0 ∧ x 0 + d 0 - r ≤ q ^ k * X0
      cases k with
      | zero =>
        have e : x 0 + d 0 = X0 := by
          have hpos : (0 : ℝ) < (p + 1) * x0 ^ p := by positivity
          rw [hI.1 rfl] at hd0 ⊢
          rw [hX0, add_right_inj, eq_div_iff hpos.ne', mul_comm]
          exact hd0
        rw [e]
        exact ⟨hX, le_refl _, by simp; linarith⟩
      | succ k =>
        obtain ⟨g1, g2, g3⟩ := hI.2 k rfl
        have g4 := l2 g1
        have g5 : q * (x 0 - r) ≤ x 0 - r := by
          have := mul_le_mul_of_nonneg_right hq1.le (by linarith : 0 ≤ x 0 - r)
          linarith
        refine ⟨l1, by linarith, g4.trans ?_⟩
        calc q * (x 0 - r) ≤ q * (q ^ k * X0) := mul_le_mul_of_nonneg_left g3 hq0
          _ = q ^ (k + 1) * X0 := by ring)
    (fun x hI i => by
      obtain ⟨g1, g2, g3⟩ := hI.2 N rfl
      rw [Subsingleton.elim i 0, hF, ht]
      have hxpos : 0 < x 0 := by linarith
      have h1 : 0 ≤ x 0 ^ (p + 1) - r ^ (p + 1) := sub_nonneg.2 (pow_le_pow_left₀ hr.le g1 _)
      have h2 := tangent (p := p) hxpos hr
      have h3 : x 0 ^ (p + 1) - r ^ (p + 1) ≤ (p + 1) * x 0 ^ p * (x 0 - r) := by linarith
      have h4 : (p + 1 : ℝ) * x 0 ^ p ≤ (p + 1) * X0 ^ p :=
        mul_le_mul_of_nonneg_left (pow_le_pow_left₀ hxpos.le g2 p) (by positivity)
      rw [abs_of_nonneg (mul_nonneg hA.le h1)]
      refine le_trans ?_ hN
      have h5 : x 0 ^ (p + 1) - r ^ (p + 1) ≤ (p + 1) * X0 ^ p * (q ^ N * X0) :=
        h3.trans (mul_le_mul h4 g3 (by linarith) (by have : 0 ≤ X0 := by linarith
                                                     positivity))
      calc A * (x 0 ^ (p + 1) - r ^ (p + 1)) ≤ A * ((p + 1) * X0 ^ p * (q ^ N * X0)) :=
            mul_le_mul_of_nonneg_left h5 hA.le
        _ = q ^ N * (X0 * (A * ((p + 1) * X0 ^ p))) := by ring) (by rw [ht]; exact htol.le) s hs
  refine ⟨st', s', h1, by rw [← ht]; exact h4 0, fun j hj => ?_⟩
  obtain ⟨g1, -, g3⟩ := h3.2 j hj
  exact ⟨g1, g3⟩

/-- `x² = 2`: Heron's method, from every positive guess. -/
theorem C74_square2 (x0 : ℝ) (hx0 : 0 < x0) :
    ∃ X, ∀ tol > 0, ∃ N, ∀ c : Config ℝ 1, PlainNewton c → c.guess 0 = x0 → c.params.tolerance = tol → N ≤ c.params.maxIter →
      (∀ i v d, (c.iters i).stepLimitation v d = v + d) → ∀ s : AdapterState ℝ 1, s.right = 0 →
      ∃ st' s', solve c (fromFunctionAndJacobian square2 dsquare) .new s = .ok (st', s', .ok ()) ∧
        |s'.inputs 0 ^ 2 - 2| ≤ tol ∧
        ∀ j, st'.iter = j + 1 → Real.sqrt 2 ≤ s'.inputs 0 ∧ s'.inputs 0 - Real.sqrt 2 ≤ (1 / 2) ^ j * X := by
  have hs : Real.sqrt 2 ^ 2 = 2 := Real.sq_sqrt (by norm_num)
  obtain ⟨X, hX⟩ := C74_power 1 1 (Real.sqrt 2) one_pos (Real.sqrt_pos.2 (by norm_num)) square2 dsquare
    (fun x => by change x 0 * x 0 - 2 = _; rw [hs]; ring) (fun x => by change 2 * x 0 = _; norm_num) x0 hx0
  refine ⟨X, fun tol htol => ?_⟩
  obtain ⟨N, h⟩ := hX tol htol
  refine ⟨N, fun c hc hg ht hmax hlim s hs' => ?_⟩
  obtain ⟨st', s', h1, h2, h3⟩ := h c hc hg ht hmax hlim s hs'
  refine ⟨st', s', h1, ?_, fun j hj => ?_⟩
  · have e : square2 s'.inputs 0 = s'.inputs 0 ^ 2 - 2 := by change s'.inputs 0 * s'.inputs 0 - 2 = _; ring
    rw [← e]; exact h2
  · have := h3 j hj
    norm_num at this ⊢
    exact this

/-- `10⁹ x⁹ = 1`, from every positive guess: the distance to `0.1` shrinks by the factor 8/9 at least. -/
theorem C74_high_derivative (x0 : ℝ) (hx0 : 0 < x0) :
    ∃ X, ∀ tol > 0, ∃ N, ∀ c : Config ℝ 1, PlainNewton c → c.guess 0 = x0 → c.params.tolerance = tol → N ≤ c.params.maxIter →
      (∀ i v d, (c.iters i).stepLimitation v d = v + d) → ∀ s : AdapterState ℝ 1, s.right = 0 →
      ∃ st' s', solve c (fromFunctionAndJacobian highDerivative highDerivativeJac) .new s = .ok (st', s', .ok ()) ∧
        |10 ^ 9 * s'.inputs 0 ^ 9 - 1| ≤ tol ∧
        ∀ j, st'.iter = j + 1 → 0.1 ≤ s'.inputs 0 ∧ s'.inputs 0 - 0.1 ≤ (8 / 9) ^ j * X := by
  have e : ∀ x : Vec ℝ 1, highDerivative x 0 = 10 ^ 9 * x 0 ^ 9 - 1 := fun x => by
    simp only [highDerivative, powi, ex_dec, ex_mul, ex_sub, ex_one]
    norm_num
    ring
  obtain ⟨X, hX⟩ := C74_power 8 (10 ^ 9) 0.1 (by norm_num) (by norm_num) highDerivative highDerivativeJac
    (fun x => by rw [e]; norm_num; ring)
    (fun x => by simp only [highDerivativeJac, powi, ex_dec, ex_mul]; norm_num; ring) x0 hx0
  refine ⟨X, fun tol htol => ?_⟩
  obtain ⟨N, h⟩ := hX tol htol
  refine ⟨N, fun c hc hg ht hmax hlim s hs' => ?_⟩
  obtain ⟨st', s', h1, h2, h3⟩ := h c hc hg ht hmax hlim s hs'
  refine ⟨st', s', h1, by rw [← e]; exact h2, fun j hj => ?_⟩
  have := h3 j hj
  norm_num at this ⊢
  exact this

/-- Heron's method from 1000, without limits. -/
example : ∃ N, ∃ st' s', solve (Demo.unlimitedReal 1 (fun _ => 1000) (1 / 10 ^ 6) N)
      (fromFunctionAndJacobian square2 dsquare) .new ⟨0, 0, 0⟩ = .ok (st', s', .ok ()) ∧
    |s'.inputs 0 ^ 2 - 2| ≤ 1 / 10 ^ 6 := by
  obtain ⟨X, hX⟩ := C74_square2 1000 (by norm_num)
  obtain ⟨N, h⟩ := hX (1 / 10 ^ 6) (by norm_num)
  obtain ⟨st', s', h1, h2, -⟩ := h _ (Demo.unlimitedReal_newton (fun _ => 1000) _ N) rfl rfl
    (le_refl _) (fun _ _ _ => rfl) ⟨0, 0, 0⟩ rfl
  exact ⟨N, st', s', h1, h2⟩

end Nrf
