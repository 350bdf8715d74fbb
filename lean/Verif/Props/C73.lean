import Verif.Proofs.NewtonRun
import Verif.Model.TestCases
import Mathlib.Analysis.SpecificLimits.Basic
import Mathlib.Tactic.FinCases
import Mathlib.Tactic.Ring
import Mathlib.Tactic.Linarith
import Mathlib.Tactic.FieldSimp
import Mathlib.Tactic.NormNum
import Mathlib.Tactic.Positivity

/-!
# C73: Newton-Raphson solves case 10 from every guess beyond the right singularity
-/

namespace Nrf
open Spec TestCases
open scoped Exact
open Matrix

private theorem case10_zero (x : Vec ℝ 2) : broydenCase10 x 0 = x 0 - x 1 ^ 3 + 5 * x 1 ^ 2 - 2 * x 1 - 13 := by
  change -((13 : ℕ) / 10 ^ 0 : ℝ) + x 0 + ((-x 1 + ((5 : ℕ) / 10 ^ 0 : ℝ)) * x 1 - 2) * x 1 = _
  simp; ring

private theorem case10_one (x : Vec ℝ 2) : broydenCase10 x 1 =
    broydenCase10 x 0 + (x 1 - 4) * (2 * x 1 ^ 2 + 4 * x 1 + 4) := by
  rw [case10_zero]
  change -((29 : ℕ) / 10 ^ 0 : ℝ) + x 0 + ((x 1 + 1) * x 1 - ((14 : ℕ) / 10 ^ 0 : ℝ)) * x 1 = _
  simp; ring

private theorem jac_eq (x : Vec ℝ 2) : broydenCase10Jac x =
    !![1, -2 + 10 * x 1 - 3 * x 1 ^ 2; 1, -14 + 2 * x 1 + 3 * x 1 ^ 2] := by
  ext i j
  fin_cases i <;> fin_cases j <;>
    simp [broydenCase10Jac, powi, ex_neg, ex_dec, ex_mul, ex_one, ex_add, ex_sub, ex_two] <;> ring

private theorem jac_det (x : Vec ℝ 2) : (broydenCase10Jac x).det = 6 * x 1 ^ 2 - 8 * x 1 - 12 := by
  rw [jac_eq, Matrix.det_fin_two]
  simp; ring

/-- One Newton step: the second coordinate lands beyond 4, and the first residual is of second order. -/
private theorem step {x : Vec ℝ 2} (hy : 0 < x 1) (hD : 0 < 6 * x 1 ^ 2 - 8 * x 1 - 12) :
    ∃ d, broydenCase10Jac x *ᵥ d = - broydenCase10 x ∧
      x 1 + d 1 - 4 = (x 1 - 4) ^ 2 * (4 * x 1 + 4) / (6 * x 1 ^ 2 - 8 * x 1 - 12) ∧
      broydenCase10 (x + d) 0 = (5 - 3 * x 1) * d 1 ^ 2 - d 1 ^ 3 := by
  set D := 6 * x 1 ^ 2 - 8 * x 1 - 12 with hDdef
  set dy := -((x 1 - 4) * (2 * x 1 ^ 2 + 4 * x 1 + 4)) / D with hdy
  have hmul : D * dy = -((x 1 - 4) * (2 * x 1 ^ 2 + 4 * x 1 + 4)) := by rw [hdy]; field_simp
  refine ⟨![-broydenCase10 x 0 - (-2 + 10 * x 1 - 3 * x 1 ^ 2) * dy, dy], ?_, ?_, ?_⟩
  · rw [jac_eq]
    funext i
    fin_cases i
    · simp [Matrix.mulVec, dotProduct, Fin.sum_univ_two]
    · change _ = - broydenCase10 x 1
      rw [case10_one]
      simp [Matrix.mulVec, dotProduct, Fin.sum_univ_two]
      rw [hDdef] at hmul
      linarith
  · change x 1 + dy - 4 = _
    rw [eq_div_iff hD.ne']
    rw [hDdef] at hmul ⊢
    linarith
  · rw [case10_zero]
    change x 0 + (-broydenCase10 x 0 - (-2 + 10 * x 1 - 3 * x 1 ^ 2) * dy) - (x 1 + dy) ^ 3 + 5 * (x 1 + dy) ^ 2 -
      2 * (x 1 + dy) - 13 = (5 - 3 * x 1) * dy ^ 2 - dy ^ 3
    rw [case10_zero]
    ring

/-- The points after the first step. -/
private structure Ahead (Y B : ℝ) (j : Nat) (x : Vec ℝ 2) : Prop where
  lower : 4 ≤ x 1
  upper : x 1 ≤ Y
  near : x 1 - 4 ≤ (2 / 3) ^ j * Y
  first : |broydenCase10 x 0| ≤ (2 / 3) ^ j * B

private theorem ahead_step {Y B : ℝ} {j : Nat} {x : Vec ℝ 2} (h : Ahead Y B j x) (hY : 4 ≤ Y)
    (hB : 3 / 2 * (Y * (Y * (4 * Y + 5))) ≤ B) :
    (broydenCase10Jac x).det ≠ 0 ∧ ∃ d, broydenCase10Jac x *ᵥ d = - broydenCase10 x ∧ Ahead Y B (j + 1) (x + d) := by
  have g1 := h.lower
  have g2 := h.upper
  have g3 := h.near
  have hD : 0 < 6 * x 1 ^ 2 - 8 * x 1 - 12 := by nlinarith
  obtain ⟨d, e1, e2, e3⟩ := step (by linarith) hD
  refine ⟨by rw [jac_det]; exact hD.ne', d, e1, ?_⟩
  generalize hy : x 1 = y at *
  generalize hd : d 1 = t at *
  have he0 : 0 ≤ y - 4 := by linarith
  have hcon : y + t - 4 ≤ 2 / 3 * (y - 4) := by
    rw [e2, div_le_iff₀ hD]
    have : 0 ≤ (y - 4) * (2 / 3 * (6 * y ^ 2 - 8 * y - 12) - (y - 4) * (4 * y + 4)) :=
      mul_nonneg he0 (by nlinarith)
    linarith
  have hpos : 0 ≤ y + t - 4 := by
    rw [e2]; exact div_nonneg (mul_nonneg (sq_nonneg _) (by linarith)) hD.le
  have hb : |broydenCase10 (x + d) 0| ≤ (y - 4) * (Y * (4 * Y + 5)) := by
    rw [e3]
    have a1 : |(5 - 3 * y) * t ^ 2 - t ^ 3| = t ^ 2 * |5 - 3 * y - t| := by
      rw [show (5 - 3 * y) * t ^ 2 - t ^ 3 = t ^ 2 * (5 - 3 * y - t) by ring, abs_mul, abs_of_nonneg (sq_nonneg t)]
    have a2 : |5 - 3 * y - t| ≤ 4 * Y + 5 := by rw [abs_le]; constructor <;> linarith
    have a3 : t ^ 2 ≤ (y - 4) * Y := by
      have : t ^ 2 ≤ (y - 4) ^ 2 := sq_le_sq' (by linarith) (by linarith)
      have : (y - 4) ^ 2 ≤ (y - 4) * Y := by rw [sq]; exact mul_le_mul_of_nonneg_left (by linarith) he0
      linarith
    rw [a1]
    calc t ^ 2 * |5 - 3 * y - t| ≤ ((y - 4) * Y) * (4 * Y + 5) :=
          mul_le_mul a3 a2 (abs_nonneg _) (mul_nonneg he0 (by linarith))
      _ = (y - 4) * (Y * (4 * Y + 5)) := by ring
  have hval : (x + d) 1 = y + t := by rw [Pi.add_apply, hy, hd]
  refine ⟨?_, ?_, ?_, ?_⟩
  · rw [hval]; linarith
  · rw [hval]; linarith
  · rw [hval]
    calc y + t - 4 ≤ 2 / 3 * (y - 4) := hcon
      _ ≤ 2 / 3 * ((2 / 3) ^ j * Y) := by linarith
      _ = (2 / 3) ^ (j + 1) * Y := by ring
  · refine hb.trans ?_
    have hq : 0 ≤ Y * (4 * Y + 5) := mul_nonneg (by linarith) (by linarith)
    calc (y - 4) * (Y * (4 * Y + 5)) ≤ (2 / 3) ^ j * Y * (Y * (4 * Y + 5)) := mul_le_mul_of_nonneg_right g3 hq
      _ = (2 / 3) ^ (j + 1) * (3 / 2 * (Y * (Y * (4 * Y + 5)))) := by ring
      _ ≤ (2 / 3) ^ (j + 1) * B := mul_le_mul_of_nonneg_left hB (by positivity)

private theorem ahead_residual {Y B : ℝ} {j : Nat} {x : Vec ℝ 2} (h : Ahead Y B j x) (hB0 : 0 ≤ B) (i : Fin 2) :
    |broydenCase10 x i| ≤ (2 / 3) ^ j * (B + Y * (2 * Y ^ 2 + 4 * Y + 4)) := by
  have g1 := h.lower
  have g2 := h.upper
  have hY : 0 ≤ Y := by linarith
  have hq : 2 * x 1 ^ 2 + 4 * x 1 + 4 ≤ 2 * Y ^ 2 + 4 * Y + 4 := by nlinarith
  have hp : (0 : ℝ) ≤ (2 / 3) ^ j := by positivity
  have h2 : 0 ≤ (2 / 3 : ℝ) ^ j * (Y * (2 * Y ^ 2 + 4 * Y + 4)) := by positivity
  fin_cases i
  · change |broydenCase10 x 0| ≤ _
    have := h.first
    linarith
  · change |broydenCase10 x 1| ≤ _
    rw [case10_one]
    refine (abs_add_le _ _).trans ?_
    have h3 : |(x 1 - 4) * (2 * x 1 ^ 2 + 4 * x 1 + 4)| ≤ (2 / 3) ^ j * Y * (2 * Y ^ 2 + 4 * Y + 4) := by
      rw [abs_of_nonneg (mul_nonneg (by linarith) (by nlinarith))]
      exact mul_le_mul h.near hq (by nlinarith) (by positivity)
    have := h.first
    linarith

/-- Small residuals at a point with positive second coordinate mean that the solution is near. -/
private theorem near_solution {x : Vec ℝ 2} (hy : 0 < x 1) {tol : ℝ} (h : ∀ i, |broydenCase10 x i| ≤ tol) :
    |x 1 - 4| ≤ tol / 2 ∧ (tol ≤ 1 → |x 0 - 5| ≤ 8 * tol) := by
  have h0 := abs_le.1 (h 0)
  have h1 := abs_le.1 (h 1)
  rw [case10_one] at h1
  have hq : 4 ≤ 2 * x 1 ^ 2 + 4 * x 1 + 4 := by nlinarith
  have hprod : |x 1 - 4| * (2 * x 1 ^ 2 + 4 * x 1 + 4) ≤ 2 * tol := by
    rw [← abs_of_pos (by linarith : 0 < 2 * x 1 ^ 2 + 4 * x 1 + 4), ← abs_mul, abs_le]
    constructor <;> linarith
  have hy4 : |x 1 - 4| ≤ tol / 2 := by
    have := mul_le_mul_of_nonneg_left hq (abs_nonneg (x 1 - 4))
    linarith
  refine ⟨hy4, fun ht => ?_⟩
  have e : x 0 - 5 = broydenCase10 x 0 + (x 1 - 4) * (x 1 ^ 2 - x 1 - 2) := by rw [case10_zero]; ring
  have hy5 := abs_le.1 hy4
  have hb : |x 1 ^ 2 - x 1 - 2| ≤ 14 := by
    rw [abs_le]; constructor <;> nlinarith
  have : |(x 1 - 4) * (x 1 ^ 2 - x 1 - 2)| ≤ tol / 2 * 14 := by
    rw [abs_mul]
    exact mul_le_mul hy4 hb (abs_nonneg _) ((abs_nonneg _).trans hy4)
  rw [e]
  refine (abs_add_le _ _).trans ?_
  have := h 0
  linarith

/-- Exact arithmetic, analytic Jacobian, no damping, no limits: from every guess whose second coordinate is beyond the
right singularity of the Jacobian (approximately 2.23), and for every tolerance, the solve succeeds if enough iterations
are allowed.  The result is close to the documented solution `(5, 4)`. -/
theorem C73_case10 (guess : Vec ℝ 2) (hy : 0 < guess 1) (hr : 4 * guess 1 + 6 < 3 * guess 1 ^ 2) (tol : ℝ) (htol : 0 < tol) :
    ∃ N, ∀ c : Config ℝ 2, PlainNewton c → c.guess = guess → c.params.tolerance = tol → N ≤ c.params.maxIter →
      (∀ i v d, (c.iters i).stepLimitation v d = v + d) → ∀ s : AdapterState ℝ 2, s.right = 0 →
      ∃ st' s', solve c (fromFunctionAndJacobian broydenCase10 broydenCase10Jac) .new s = .ok (st', s', .ok ()) ∧
        |s'.inputs 1 - 4| ≤ tol / 2 ∧ (tol ≤ 1 → |s'.inputs 0 - 5| ≤ 8 * tol) := by
  obtain ⟨d0, hd0, hy0, -⟩ := step (x := guess) hy (by linarith)
  have hY4 : 4 ≤ (guess + d0) 1 := by
    have : 0 ≤ (guess 1 - 4) ^ 2 * (4 * guess 1 + 4) / (6 * guess 1 ^ 2 - 8 * guess 1 - 12) :=
      div_nonneg (mul_nonneg (sq_nonneg _) (by linarith)) (by linarith)
    rw [Pi.add_apply]
    linarith
  obtain ⟨Y, hY⟩ : ∃ Y, Y = (guess + d0) 1 := ⟨_, rfl⟩
  rw [← hY] at hY4
  obtain ⟨B, hB0, hB1, hB2⟩ : ∃ B, 0 ≤ B ∧ |broydenCase10 (guess + d0) 0| ≤ B ∧ 3 / 2 * (Y * (Y * (4 * Y + 5))) ≤ B :=
    ⟨max |broydenCase10 (guess + d0) 0| (3 / 2 * (Y * (Y * (4 * Y + 5)))), (abs_nonneg _).trans (le_max_left _ _),
      le_max_left _ _, le_max_right _ _⟩
  have hstart : Ahead Y B 0 (guess + d0) :=
    ⟨hY ▸ hY4, hY.ge, by rw [← hY]; simp, by simpa using hB1⟩
  obtain ⟨N, hN⟩ : ∃ N, (2 / 3 : ℝ) ^ N * (B + Y * (2 * Y ^ 2 + 4 * Y + 4)) ≤ tol := by
    have hpos : 0 < B + Y * (2 * Y ^ 2 + 4 * Y + 4) := by positivity
    obtain ⟨N, hN⟩ := exists_pow_lt_of_lt_one (div_pos htol hpos) (by norm_num : (2 / 3 : ℝ) < 1)
    exact ⟨N, by rw [lt_div_iff₀ hpos] at hN; exact hN.le⟩
  refine ⟨N + 1, fun c hc hg ht hmax hlim s hs => ?_⟩
  obtain ⟨st', s', h1, h2, h3, h4⟩ := newton_run_function hc broydenCase10 broydenCase10Jac
    (fun k x => (k = 0 ∧ x = guess) ∨ ∃ j, k = j + 1 ∧ Ahead Y B j x) (N + 1) hmax (.inl ⟨rfl, hg⟩)
    (fun k x _ hI => by
      rcases hI with ⟨rfl, rfl⟩ | ⟨j, rfl, hx⟩
      · exact ⟨by rw [jac_det]; intro h; linarith, d0, hd0, fun i => hlim i _ _, .inr ⟨0, rfl, hstart⟩⟩
      · obtain ⟨hdet, d, hd, hx'⟩ := ahead_step hx hY4 hB2
        exact ⟨hdet, d, hd, fun i => hlim i _ _, .inr ⟨j + 1, rfl, hx'⟩⟩)
    (fun x hI i => by
      rcases hI with ⟨h, -⟩ | ⟨j, hj, hx⟩
      · exact absurd h (Nat.succ_ne_zero N)
      · obtain rfl : N = j := Nat.succ.inj hj
        rw [ht]
        exact (ahead_residual hx hB0 i).trans hN) (by rw [ht]; exact htol.le) s hs
  refine ⟨st', s', h1, near_solution ?_ (fun i => ht ▸ h4 i)⟩
  rcases h3 with ⟨-, h⟩ | ⟨j, -, h⟩
  · rw [h]; exact hy
  · have := h.lower; linarith

namespace Demo

/-- No limits, real numbers. -/
noncomputable def unlimitedReal (n : Nat) (guess : Vec ℝ n) (tol : ℝ) (maxIter : Nat) : Config ℝ n where
  params := { problemSize := n, tolerance := tol, maxIter, method := .NewtonRaphson, damping := false }
  guess := guess
  iters := fun _ => { stepLimitation := fun v d => v + d, computePerturbation := none, withFiniteDiff := false }
  res := { stop := fun _ => .Abs, upd := fun _ => .Abs }
  la := exactLinAlg ℝ n

theorem unlimitedReal_newton {n : Nat} (guess : Vec ℝ n) (tol : ℝ) (maxIter : Nat) :
    PlainNewton (unlimitedReal n guess tol maxIter) :=
  ⟨exactLinAlg_isExact ℝ n, rfl, rfl, fun _ => rfl, fun _ => rfl⟩

/-- From `(15, 3)` with the tolerance of the tests. -/
example : ∃ N, ∃ st' s', solve (unlimitedReal 2 ![15, 3] (1 / 10 ^ 6) N)
      (fromFunctionAndJacobian broydenCase10 broydenCase10Jac) .new ⟨0, 0, 0⟩ = .ok (st', s', .ok ()) ∧
    |s'.inputs 1 - 4| ≤ 1 / 10 ^ 6 / 2 ∧ |s'.inputs 0 - 5| ≤ 8 * (1 / 10 ^ 6) := by
  obtain ⟨N, h⟩ := C73_case10 ![15, 3] (by simp) (by simp; norm_num) (1 / 10 ^ 6) (by norm_num)
  obtain ⟨st', s', h1, h2, h3⟩ := h _ (unlimitedReal_newton _ _ N) rfl rfl (le_refl _) (fun _ _ _ => rfl) ⟨0, 0, 0⟩ rfl
  exact ⟨N, st', s', h1, h2, h3 (by norm_num)⟩

end Demo
end Nrf
