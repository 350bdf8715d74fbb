import Verif.Proofs.Kantorovich
import Verif.Props.C83

/-!
# C84: Newton-Raphson converges whenever the guess meets the conditions of Kantorovich
-/

namespace Nrf
open Spec
open scoped Exact Topology
open Matrix

variable {n : Nat}

/-- Exact arithmetic, absolute residuals, no damping, limits that do not act within `2 η` of the guess.  From a guess that
meets the conditions, for every tolerance there is a number of iterations that is enough: the solve succeeds, and a root
is within `2 η / 2 ^ k` of the result, `k` being the number of iterations made.  Nothing is assumed about roots. -/
theorem C84_converges (F : Vec ℝ n → Vec ℝ n) (jac : Vec ℝ n → Mat ℝ n) (x0 : Vec ℝ n) (η ω : ℝ)
    (hK : Kantorovich F jac x0 η ω) (tol : ℝ) (htol : 0 < tol) :
    ∃ N, ∀ c : Config ℝ n, PlainNewton c → c.guess = x0 → c.params.tolerance = tol → N ≤ c.params.maxIter →
      (∀ i v d, |v - x0 i| ≤ 2 * η → |v + d - x0 i| ≤ 2 * η → (c.iters i).stepLimitation v d = v + d) →
      ∀ s : AdapterState ℝ n, s.right = 0 →
      ∃ st' s' root, solve c (fromFunctionAndJacobian F jac) .new s = .ok (st', s', .ok ()) ∧
        (∀ i, |F s'.inputs i| ≤ tol) ∧ F root = 0 ∧ (∀ i, |root i - x0 i| ≤ 2 * η) ∧
        ∀ i, |s'.inputs i - root i| ≤ 2 * η / 2 ^ st'.iter := by
  have hη := Kantorovich.eta_nonneg hK
  obtain ⟨b, hb0, hb⟩ := Kantorovich.bounded hK
  obtain ⟨N, hN⟩ := exists_pow_lt_of_lt_one (show 0 < tol / (b * η + 1) by positivity) (show (1 / 2 : ℝ) < 1 by norm_num)
  rw [lt_div_iff₀ (by positivity)] at hN
  refine ⟨N, fun c hc hg ht hmax hlim s hs => ?_⟩
  have hin : ∀ k y, Kantorovich.After F jac x0 η k y → ‖y - x0‖ ≤ 2 * η := by
    rintro k y ⟨η', ω', h1, -, h3⟩
    have := Kantorovich.eta_nonneg h1
    linarith
  obtain ⟨st', s', h1, -, h3, h4⟩ := newton_run_function hc F jac (Kantorovich.After F jac x0 η) N hmax
    (by rw [hg]; exact Kantorovich.after_zero hK)
    (fun k y hk hy => by
      have hy' := Kantorovich.after_step hy
      have hb1 := hin _ _ hy
      have hb2 := hin _ _ hy'
      obtain ⟨η', ω', g1, -, -⟩ := hy
      have e : y + -((jac y)⁻¹ *ᵥ F y) = y - (jac y)⁻¹ *ᵥ F y := by abel
      refine ⟨g1.invertible, -((jac y)⁻¹ *ᵥ F y), ?_, fun i => ?_, ?_⟩
      · rw [Matrix.mulVec_neg, Matrix.mulVec_mulVec, ex_mul_inv g1.invertible, Matrix.one_mulVec]
      · refine hlim i _ _ ((norm_le_pi_norm (y - x0) i).trans hb1) ?_
        have := (norm_le_pi_norm (y - (jac y)⁻¹ *ᵥ F y - x0) i).trans hb2
        rw [← e] at this
        exact this
      · rw [e]; exact hy')
    (fun y hy i => by
      have hb1 := hin _ _ hy
      obtain ⟨η', ω', g1, g2, -⟩ := hy
      refine (norm_le_pi_norm (F y) i).trans ((Kantorovich.residual_le hb hb0 g1 hb1).trans ?_)
      rw [ht]
      have h5 := mul_le_mul_of_nonneg_left g2 hb0.le
      have h6 : 0 ≤ (1 / 2 : ℝ) ^ N := by positivity
      nlinarith) (by rw [ht]; exact htol.le) s hs
  obtain ⟨η', ω', g1, g2, g3⟩ := h3
  obtain ⟨r, hr, hr0⟩ := Kantorovich.root g1
  refine ⟨st', s', r, h1, fun i => ht ▸ h4 i, hr0, fun i => ?_, fun i => ?_⟩
  · refine (norm_le_pi_norm (r - x0) i).trans ?_
    have := norm_sub_le_norm_sub_add_norm_sub r s'.inputs x0
    linarith
  · rw [abs_sub_comm]
    refine ((norm_le_pi_norm (r - s'.inputs) i).trans hr).trans ?_
    rw [one_div, inv_pow, inv_mul_eq_div] at g2
    rw [mul_div_assoc]
    linarith

/-- The conditions imply that there is a root. -/
theorem C84_root (F : Vec ℝ n → Vec ℝ n) (jac : Vec ℝ n → Mat ℝ n) (x0 : Vec ℝ n) (η ω : ℝ)
    (hK : Kantorovich F jac x0 η ω) : ∃ root, F root = 0 ∧ ∀ i, |root i - x0 i| ≤ 2 * η := by
  obtain ⟨r, hr, hr0⟩ := Kantorovich.root hK
  exact ⟨r, hr0, fun i => (norm_le_pi_norm (r - x0) i).trans hr⟩

/-- With `ω η < 1/2` it is the only one within `2 η`. -/
theorem C84_unique (F : Vec ℝ n → Vec ℝ n) (jac : Vec ℝ n → Mat ℝ n) (x0 : Vec ℝ n) (η ω : ℝ)
    (hK : Kantorovich F jac x0 η ω) (hs : ω * η < 1 / 2) : ∃! root, F root = 0 ∧ ∀ i, |root i - x0 i| ≤ 2 * η := by
  have hη := Kantorovich.eta_nonneg hK
  obtain ⟨r, hr, hr0⟩ := Kantorovich.root hK
  refine ⟨r, ⟨hr0, fun i => (norm_le_pi_norm (r - x0) i).trans hr⟩, ?_⟩
  rintro r' ⟨hr'0, hr'⟩
  exact (Kantorovich.unique hK hs hr hr0 ((pi_norm_le_iff_of_nonneg (by linarith)).2 hr') hr'0).symm

/-! ### The hypotheses can be met -/

namespace DemoReal

/-- The limits of `cfg`, absolute residuals and no damping. -/
noncomputable def plainCfg (guess : Vec ℝ 2) (tol : ℝ) (maxIter : Nat) : Config ℝ 2 where
  params := { problemSize := 2, tolerance := tol, maxIter, method := .NewtonRaphson, damping := false }
  guess := guess
  iters := fun _ => (limits 1).toIterative
  res := ⟨fun _ => .Abs, fun _ => .Abs⟩
  la := exactLinAlg ℝ 2

theorem circle_kantorovich : Kantorovich (fun x : Vec ℝ 2 => ![x 0 ^ 2 + x 1 ^ 2 - 5, x 0 * x 1 - 2])
    (fun x => !![2 * x 0, 2 * x 1; x 1, x 0]) ![1, 21 / 10] (1 / 10) 2 := by
  have hinv : (!![2 * (![1, 21 / 10] : Vec ℝ 2) 0, 2 * (![1, 21 / 10] : Vec ℝ 2) 1; (![1, 21 / 10] : Vec ℝ 2) 1,
      (![1, 21 / 10] : Vec ℝ 2) 0] : Mat ℝ 2)⁻¹ = !![-50 / 341, 210 / 341; 105 / 341, -100 / 341] := by
    refine Matrix.inv_eq_right_inv ?_
    ext i k
    fin_cases i <;> fin_cases k <;> simp [Matrix.mul_apply, Fin.sum_univ_two] <;> norm_num
  refine ⟨fun x _ => circle_jacobian x, ?_, ?_, ?_, by norm_num, by norm_num⟩
  · rw [Matrix.det_fin_two]; simp; norm_num
  · rw [hinv]
    refine (pi_norm_le_iff_of_nonneg (by norm_num)).2 fun i => ?_
    rw [Real.norm_eq_abs, abs_le]
    fin_cases i <;> simp [Matrix.mulVec, dotProduct, Fin.sum_univ_two] <;> norm_num
  · intro x y _ _ v
    rw [hinv]
    have h0 := abs_le.1 (norm_le_pi_norm (x - y) 0)
    have h1 := abs_le.1 (norm_le_pi_norm (x - y) 1)
    refine (pi_norm_le_iff_of_nonneg (by positivity)).2 fun i => ?_
    have hrow : ∀ a b : ℝ, |a| ≤ ‖x - y‖ → |b| ≤ ‖x - y‖ → |a * v 0 + b * v 1| ≤ 2 * ‖x - y‖ * ‖v‖ := by
      intro a b ha hb
      have e0 : |a * v 0| ≤ ‖x - y‖ * ‖v‖ := by
        rw [abs_mul]; exact mul_le_mul ha (norm_le_pi_norm v 0) (abs_nonneg _) (norm_nonneg _)
      have e1 : |b * v 1| ≤ ‖x - y‖ * ‖v‖ := by
        rw [abs_mul]; exact mul_le_mul hb (norm_le_pi_norm v 1) (abs_nonneg _) (norm_nonneg _)
      have := abs_add_le (a * v 0) (b * v 1)
      linarith
    simp only [Pi.sub_apply] at h0 h1
    rw [Real.norm_eq_abs]
    fin_cases i
    · have := hrow (-100 / 341 * (x 0 - y 0) + 210 / 341 * (x 1 - y 1)) (-100 / 341 * (x 1 - y 1) + 210 / 341 * (x 0 - y 0))
        (abs_le.2 ⟨by linarith, by linarith⟩) (abs_le.2 ⟨by linarith, by linarith⟩)
      convert this using 2
      simp [Matrix.mulVec, dotProduct, Fin.sum_univ_two]
      ring
    · have := hrow (210 / 341 * (x 0 - y 0) - 100 / 341 * (x 1 - y 1)) (210 / 341 * (x 1 - y 1) - 100 / 341 * (x 0 - y 0))
        (abs_le.2 ⟨by linarith, by linarith⟩) (abs_le.2 ⟨by linarith, by linarith⟩)
      convert this using 2
      simp [Matrix.mulVec, dotProduct, Fin.sum_univ_two]
      ring

theorem circle_limits (i : Fin 2) (v d : ℝ) (hv : |v - (![1, 21 / 10] : Vec ℝ 2) i| ≤ 2 * (1 / 10))
    (hd : |v + d - (![1, 21 / 10] : Vec ℝ 2) i| ≤ 2 * (1 / 10)) :
    (limits 1).toIterative.stepLimitation v d = v + d := by
  have hb : 1 ≤ (![1, 21 / 10] : Vec ℝ 2) i ∧ (![1, 21 / 10] : Vec ℝ 2) i ≤ 3 := by fin_cases i <;> norm_num
  have h1 := abs_le.1 hv
  have h2 := abs_le.1 hd
  have hv0 : 0 < v := by linarith
  have hd4 : |d| ≤ 2 / 5 := abs_le.2 ⟨by linarith, by linarith⟩
  have hstep : |d| ≤ min 1 (1 / 2 * |v|) := by
    rw [abs_of_pos hv0]
    exact le_min (by linarith) (by linarith)
  change min (max (v + min (min 1 (1 / 2 * |v|)) |d| * (if 0 ≤ d then 1 else -1)) (-10)) 10 = v + d
  have hsd : |d| * (if 0 ≤ d then 1 else -1) = d := by
    split
    · rename_i h; rw [abs_of_nonneg h, mul_one]
    · rename_i h; rw [abs_of_neg (not_le.1 h)]; ring
  rw [min_eq_right hstep, hsd, max_eq_left (by linarith), min_eq_left (by linarith)]

/-- `x² + y² = 5`, `x y = 2` from `(1, 2.1)`, with the limits of the crate: a solve to any tolerance succeeds next to a
root. -/
example (tol : ℝ) (htol : 0 < tol) : ∃ N, ∀ s : AdapterState ℝ 2, s.right = 0 →
    ∃ st' s', ∃ root : Vec ℝ 2, solve (plainCfg ![1, 21 / 10] tol N)
        (fromFunctionAndJacobian (fun x : Vec ℝ 2 => ![x 0 ^ 2 + x 1 ^ 2 - 5, x 0 * x 1 - 2])
          (fun x => !![2 * x 0, 2 * x 1; x 1, x 0])) .new s = .ok (st', s', .ok ()) ∧
      root 0 ^ 2 + root 1 ^ 2 = 5 ∧ root 0 * root 1 = 2 ∧ ∀ i, |s'.inputs i - root i| ≤ 2 * (1 / 10) / 2 ^ st'.iter := by
  obtain ⟨N, hN⟩ := C84_converges _ _ _ _ _ circle_kantorovich tol htol
  refine ⟨N, fun s hs => ?_⟩
  obtain ⟨st', s', r, h1, -, h3, -, h5⟩ := hN (plainCfg ![1, 21 / 10] tol N)
    ⟨exactLinAlg_isExact ℝ 2, rfl, rfl, fun _ => rfl, fun _ => rfl⟩ rfl rfl (le_refl _) circle_limits s hs
  have e0 := congrFun h3 0
  have e1 := congrFun h3 1
  simp at e0 e1
  exact ⟨st', s', r, h1, by linarith, by linarith, h5⟩

end DemoReal
end Nrf
