import Verif.Proofs.KantorovichStationary
import Verif.Props.C84
import Verif.Props.C68

/-!
# C109: stationary Newton converges whenever the guess meets the conditions of Kantorovich
-/

namespace Nrf
open Spec
open scoped Exact Topology
open Matrix

variable {n : Nat}

/-- Exact arithmetic, absolute residuals, no damping, limits that do not act within `2 η` of the guess.  From a guess that
meets the conditions with `ω η < 1/2`, for every tolerance there is a number of iterations that is enough: the solve
succeeds, although the Jacobian is evaluated at the guess only.  After `k` iterations the distance to the root is at most
`2 η (2 ω η) ^ k`.  Nothing is assumed about roots. -/
theorem C109_converges (F : Vec ℝ n → Vec ℝ n) (jac : Vec ℝ n → Mat ℝ n) (x0 : Vec ℝ n) (η ω : ℝ)
    (hK : Kantorovich F jac x0 η ω) (hs : ω * η < 1 / 2) (tol : ℝ) (htol : 0 < tol) :
    ∃ N, ∀ c : Config ℝ n, PlainStationary c → c.guess = x0 → c.params.tolerance = tol → N ≤ c.params.maxIter →
      (∀ i v d, |v - x0 i| ≤ 2 * η → |v + d - x0 i| ≤ 2 * η → (c.iters i).stepLimitation v d = v + d) →
      ∀ s : AdapterState ℝ n, s.right = 0 →
      ∃ st' s' root, solve c (fromFunctionAndJacobian F jac) .new s = .ok (st', s', .ok ()) ∧ st'.iter ≤ N ∧
        (∀ i, |F s'.inputs i| ≤ tol) ∧ F root = 0 ∧ (∀ i, |root i - x0 i| ≤ 2 * η) ∧
        ∀ i, |s'.inputs i - root i| ≤ 2 * η * (2 * (ω * η)) ^ st'.iter := by
  have hη := Kantorovich.eta_nonneg hK
  have hq0 : 0 ≤ 2 * (ω * η) := mul_nonneg two_pos.le (mul_nonneg hK.nonneg hη)
  have hq1 : 2 * (ω * η) < 1 := by linarith
  obtain ⟨b, hb0, hb⟩ := Kantorovich.bounded hK
  obtain ⟨r, hr, hr0⟩ := Kantorovich.root hK
  obtain ⟨N, hN⟩ := exists_pow_lt_of_lt_one (show 0 < tol / (4 * b * η + 1) by positivity) hq1
  rw [lt_div_iff₀ (by positivity)] at hN
  refine ⟨N, fun c hc hg ht hmax hlim s hsr => ?_⟩
  have hfix : r - (jac x0)⁻¹ *ᵥ F r = r := by rw [hr0, Matrix.mulVec_zero, sub_zero]
  have hdist : ∀ y, ‖y - x0‖ ≤ 2 * η → ‖y - (jac x0)⁻¹ *ᵥ F y - r‖ ≤ 2 * (ω * η) * ‖y - r‖ := by
    intro y hy
    have := Kantorovich.contract hK hr hy
    rwa [hfix] at this
  obtain ⟨st', s', h1, h2, h3, h4⟩ := stationary_run_function hc F jac
    (fun k y => ‖y - x0‖ ≤ 2 * η ∧ ‖y - r‖ ≤ 2 * η * (2 * (ω * η)) ^ k) N hmax
    (by rw [hg, sub_self, norm_zero, pow_zero, mul_one, norm_sub_rev]; exact ⟨by linarith, hr⟩)
    (by rw [hg]; exact hK.invertible)
    (fun k y hk hy => by
      rw [hg]
      obtain ⟨hy1, hy2⟩ := hy
      have hin := Kantorovich.inside hK hy1
      refine ⟨fun i => ?_, hin, ?_⟩
      · have := hlim i (y i) (-((jac x0)⁻¹ *ᵥ F y) i) ((norm_le_pi_norm (y - x0) i).trans hy1) (by
          rw [← sub_eq_add_neg]; exact (norm_le_pi_norm (y - (jac x0)⁻¹ *ᵥ F y - x0) i).trans hin)
        rw [← sub_eq_add_neg] at this
        exact this
      · refine (hdist y hy1).trans ((mul_le_mul_of_nonneg_left hy2 hq0).trans (le_of_eq ?_))
        rw [pow_succ]; ring)
    (fun y hy i => by
      obtain ⟨hy1, hy2⟩ := hy
      have e : F y = jac x0 *ᵥ ((y - r) - (y - (jac x0)⁻¹ *ᵥ F y - r)) := by
        rw [show (y - r) - (y - (jac x0)⁻¹ *ᵥ F y - r) = (jac x0)⁻¹ *ᵥ F y by abel, Matrix.mulVec_mulVec,
          ex_mul_inv hK.invertible, Matrix.one_mulVec]
      have h5 : ‖F y‖ ≤ b * (2 * ‖y - r‖) := by
        rw [e]
        refine (hb x0 (by simpa using hη) _).trans (mul_le_mul_of_nonneg_left ((norm_sub_le _ _).trans ?_) hb0.le)
        have := hdist y hy1
        have := mul_le_of_le_one_left (norm_nonneg (y - r)) hq1.le
        linarith
      refine (norm_le_pi_norm (F y) i).trans (h5.trans ?_)
      rw [ht]
      have h6 := mul_le_mul_of_nonneg_left hy2 (by positivity : 0 ≤ 2 * b)
      have h7 : 0 ≤ (2 * (ω * η)) ^ N := pow_nonneg hq0 N
      nlinarith) (by rw [ht]; exact htol.le) s hsr
  refine ⟨st', s', r, h1, h2, fun i => ht ▸ h4 i, hr0, fun i => (norm_le_pi_norm (r - x0) i).trans hr, fun i => ?_⟩
  exact (norm_le_pi_norm (s'.inputs - r) i).trans h3.2

/-- The matrix need not be the Jacobian: whatever matrix `M` the caller returns at the guess, the solve succeeds and
converges with the factor `q`, when `M` replaces the Jacobian up to that factor. -/
theorem C109_inexact (F : Vec ℝ n → Vec ℝ n) (jac : Vec ℝ n → Mat ℝ n) (M : Mat ℝ n) (x0 : Vec ℝ n) (ρ q : ℝ)
    (hS : Simplified F jac M x0 ρ q) (tol : ℝ) (htol : 0 < tol) :
    ∃ N, ∀ c : Config ℝ n, PlainStationary c → c.guess = x0 → c.params.tolerance = tol → N ≤ c.params.maxIter →
      (∀ i v d, |v - x0 i| ≤ ρ → |v + d - x0 i| ≤ ρ → (c.iters i).stepLimitation v d = v + d) →
      ∀ jac' : Vec ℝ n → Mat ℝ n, jac' x0 = M → ∀ s : AdapterState ℝ n, s.right = 0 →
      ∃ st' s' root, solve c (fromFunctionAndJacobian F jac') .new s = .ok (st', s', .ok ()) ∧ st'.iter ≤ N ∧
        (∀ i, |F s'.inputs i| ≤ tol) ∧ F root = 0 ∧ (∀ i, |root i - x0 i| ≤ ρ) ∧
        ∀ i, |s'.inputs i - root i| ≤ ρ * q ^ st'.iter := by
  have hρ := Simplified.radius_nonneg hS
  obtain ⟨b, hb0, hb⟩ := Simplified.residual_le hS
  obtain ⟨r, hr, hr0⟩ := Simplified.root hS
  obtain ⟨N, hN⟩ := exists_pow_lt_of_lt_one (show 0 < tol / (b * ρ + 1) by positivity) hS.small
  rw [lt_div_iff₀ (by positivity)] at hN
  refine ⟨N, ?_⟩
  rintro c hc rfl ht hmax hlim jac' rfl s hsr
  obtain ⟨st', s', h1, h2, h3, h4⟩ := stationary_run_function hc F jac'
    (fun k y => ‖y - c.guess‖ ≤ ρ ∧ ‖y - r‖ ≤ ρ * q ^ k) N hmax
    (by rw [sub_self, norm_zero, pow_zero, mul_one, norm_sub_rev]; exact ⟨hρ, hr⟩) hS.invertible
    (fun k y hk hy => by
      obtain ⟨hy1, hy2⟩ := hy
      have hin := Simplified.inside hS hy1
      refine ⟨fun i => ?_, hin, ?_⟩
      · have := hlim i (y i) (-((jac' c.guess)⁻¹ *ᵥ F y) i) ((norm_le_pi_norm (y - c.guess) i).trans hy1) (by
          rw [← sub_eq_add_neg]; exact (norm_le_pi_norm (y - (jac' c.guess)⁻¹ *ᵥ F y - c.guess) i).trans hin)
        rw [← sub_eq_add_neg] at this
        exact this
      · refine (Simplified.dist_root hS hr hr0 hy1).trans ((mul_le_mul_of_nonneg_left hy2 hS.nonneg).trans (le_of_eq ?_))
        rw [pow_succ]; ring)
    (fun y hy i => by
      refine (norm_le_pi_norm (F y) i).trans ((hb r y hr hr0 hy.1).trans ?_)
      rw [ht]
      have h6 := mul_le_mul_of_nonneg_left hy.2 hb0.le
      have h7 : 0 ≤ q ^ N := pow_nonneg hS.nonneg N
      nlinarith) (by rw [ht]; exact htol.le) s hsr
  exact ⟨st', s', r, h1, h2, fun i => ht ▸ h4 i, hr0, fun i => (norm_le_pi_norm (r - c.guess) i).trans hr,
    fun i => (norm_le_pi_norm (s'.inputs - r) i).trans h3.2⟩

/-- The same without a Jacobian: `M` is the matrix of the finite differences at the guess, for the perturbations the
configuration gives there. -/
theorem C109_differences (F : Vec ℝ n → Vec ℝ n) (jac : Vec ℝ n → Mat ℝ n) (M : Mat ℝ n) (x0 pert : Vec ℝ n) (ρ q : ℝ)
    (hne : ∀ i, pert i ≠ 0) (hpert : ∀ i, |pert i| ≤ ρ)
    (hM : ∀ i k, M i k = (F (x0 + Pi.single k (pert k)) i - F x0 i) / pert k)
    (hS : Simplified F jac M x0 ρ q) (tol : ℝ) (htol : 0 < tol) :
    ∃ N, ∀ c : Config ℝ n, PlainStationary c → c.guess = x0 → c.params.tolerance = tol → N ≤ c.params.maxIter →
      computePerturbations c.iters x0 = some pert →
      (∀ i v d, |v - x0 i| ≤ ρ → |v + d - x0 i| ≤ ρ → (c.iters i).stepLimitation v d = v + d) →
      ∀ s : AdapterState ℝ n, s.right = 0 →
      ∃ st' s' root, solve c (fromFunction F) .new s = .ok (st', s', .ok ()) ∧ st'.iter ≤ N ∧
        (∀ i, |F s'.inputs i| ≤ tol) ∧ F root = 0 ∧ (∀ i, |root i - x0 i| ≤ ρ) ∧
        ∀ i, |s'.inputs i - root i| ≤ ρ * q ^ st'.iter := by
  have hρ := Simplified.radius_nonneg hS
  obtain ⟨b, hb0, hb⟩ := Simplified.residual_le hS
  obtain ⟨r, hr, hr0⟩ := Simplified.root hS
  obtain ⟨N, hN⟩ := exists_pow_lt_of_lt_one (show 0 < tol / (b * ρ + 1) by positivity) hS.small
  rw [lt_div_iff₀ (by positivity)] at hN
  refine ⟨N, ?_⟩
  rintro c hc rfl ht hmax hp hlim s hsr
  have hfree : ∀ v x' : Vec ℝ n, ‖v - c.guess‖ ≤ ρ → ‖x' - c.guess‖ ≤ ρ → ∀ i,
      (c.iters i).stepLimitation (v i) (x' i - v i) = x' i := by
    intro v x' hv hx' i
    have := hlim i (v i) (x' i - v i) ((norm_le_pi_norm (v - c.guess) i).trans hv) (by
      rw [add_sub_cancel]; exact (norm_le_pi_norm (x' - c.guess) i).trans hx')
    rwa [add_sub_cancel] at this
  obtain ⟨st', s', h1, h2, h3, h4⟩ := stationary_run_differences hc F hp hne hM
    (fun k y => ‖y - c.guess‖ ≤ ρ ∧ ‖y - r‖ ≤ ρ * q ^ k) N hmax
    (by rw [sub_self, norm_zero, pow_zero, mul_one, norm_sub_rev]; exact ⟨hρ, hr⟩) hS.invertible
    (fun k y y' hk hy hy' => by
      obtain ⟨hy1, hy2⟩ := hy
      have hin := Simplified.inside hS hy1
      rw [hy'] at hin
      refine ⟨⟨hin, ?_⟩, hfree y y' hy1 hin, fun hx l => hfree _ y' ?_ hin⟩
      · have h5 := Simplified.dist_root hS hr hr0 hy1
        rw [hy'] at h5
        refine h5.trans ((mul_le_mul_of_nonneg_left hy2 hS.nonneg).trans (le_of_eq ?_))
        rw [pow_succ]; ring
      · rw [hx, add_sub_cancel_left, Pi.norm_single]
        exact hpert l)
    (fun y hy i => by
      refine (norm_le_pi_norm (F y) i).trans ((hb r y hr hr0 hy.1).trans ?_)
      rw [ht]
      have h6 := mul_le_mul_of_nonneg_left hy.2 hb0.le
      have h7 : 0 ≤ q ^ N := pow_nonneg hS.nonneg N
      nlinarith) (by rw [ht]; exact htol.le) s hsr
  exact ⟨st', s', r, h1, h2, fun i => ht ▸ h4 i, hr0, fun i => (norm_le_pi_norm (r - c.guess) i).trans hr,
    fun i => (norm_le_pi_norm (s'.inputs - r) i).trans h3.2⟩

/-- The conditions imply that there is exactly one root within `ρ`. -/
theorem C109_root (F : Vec ℝ n → Vec ℝ n) (jac : Vec ℝ n → Mat ℝ n) (M : Mat ℝ n) (x0 : Vec ℝ n) (ρ q : ℝ)
    (hS : Simplified F jac M x0 ρ q) : ∃! root, F root = 0 ∧ ∀ i, |root i - x0 i| ≤ ρ := by
  obtain ⟨r, hr, hr0⟩ := Simplified.root hS
  refine ⟨r, ⟨hr0, fun i => (norm_le_pi_norm (r - x0) i).trans hr⟩, ?_⟩
  rintro r' ⟨hr'0, hr'⟩
  exact Simplified.unique hS ((pi_norm_le_iff_of_nonneg (Simplified.radius_nonneg hS)).2 hr') hr'0 hr hr0

/-! ### The hypotheses can be met -/

namespace DemoReal
open TestCases

/-- `plainCfg` with stationary Newton. -/
noncomputable def stationaryCfg (guess : Vec ℝ 2) (tol : ℝ) (maxIter : Nat) : Config ℝ 2 :=
  { plainCfg guess tol maxIter with
    params := { (plainCfg guess tol maxIter).params with method := .QuasiNewton .StationaryNewton } }

/-- `x² + y² = 5`, `x y = 2` from `(1, 2.1)`, with the limits of the crate. -/
example (tol : ℝ) (htol : 0 < tol) : ∃ N, ∀ s : AdapterState ℝ 2, s.right = 0 →
    ∃ st' s', ∃ root : Vec ℝ 2, solve (stationaryCfg ![1, 21 / 10] tol N)
        (fromFunctionAndJacobian (fun x : Vec ℝ 2 => ![x 0 ^ 2 + x 1 ^ 2 - 5, x 0 * x 1 - 2])
          (fun x => !![2 * x 0, 2 * x 1; x 1, x 0])) .new s = .ok (st', s', .ok ()) ∧
      root 0 ^ 2 + root 1 ^ 2 = 5 ∧ root 0 * root 1 = 2 ∧ ∀ i, |s'.inputs i - root i| ≤ 1 / 5 * (2 / 5) ^ st'.iter := by
  obtain ⟨N, hN⟩ := C109_converges _ _ _ _ _ circle_kantorovich (by norm_num) tol htol
  refine ⟨N, fun s hs => ?_⟩
  obtain ⟨st', s', r, h1, -, -, h3, -, h5⟩ := hN (stationaryCfg ![1, 21 / 10] tol N)
    ⟨exactLinAlg_isExact ℝ 2, rfl, rfl, fun _ => rfl, fun _ => rfl⟩ rfl rfl (le_refl _) circle_limits s hs
  have e0 := congrFun h3 0
  have e1 := congrFun h3 1
  simp at e0 e1
  refine ⟨st', s', r, h1, by linarith, by linarith, fun i => ?_⟩
  have := h5 i
  norm_num at this ⊢
  exact this

/-- Wide limits: the steps from one to two are not limited.  The perturbation at `1.5` is `0.15`. -/
noncomputable def oneCfg (tol : ℝ) (maxIter : Nat) : Config ℝ 1 where
  params := { problemSize := 1, tolerance := tol, maxIter, method := .QuasiNewton .StationaryNewton, damping := false }
  guess := fun _ => 3 / 2
  iters := fun _ => IterativeParamsFD.toIterative ⟨⟨10, 10, -10, 10⟩, .Max, 1 / 10, 1 / 10⟩
  res := ⟨fun _ => .Abs, fun _ => .Abs⟩
  la := exactLinAlg ℝ 1

theorem one_limits (tol : ℝ) (N : Nat) (i : Fin 1) (v d : ℝ) (hv : |v - 3 / 2| ≤ 1 / 5) (hd : |v + d - 3 / 2| ≤ 1 / 5) :
    ((oneCfg tol N).iters i).stepLimitation v d = v + d := by
  have h1 := abs_le.1 hv
  have h2 := abs_le.1 hd
  have hv0 : 0 < v := by linarith
  have hd4 : |d| ≤ 2 / 5 := abs_le.2 ⟨by linarith, by linarith⟩
  have hstep : |d| ≤ min 10 (10 * |v|) := by
    rw [abs_of_pos hv0]
    exact le_min (by linarith) (by linarith)
  change min (max (v + min (min 10 (10 * |v|)) |d| * (if 0 ≤ d then 1 else -1)) (-10)) 10 = v + d
  have hsd : |d| * (if 0 ≤ d then 1 else -1) = d := by
    split
    · rename_i h; rw [abs_of_nonneg h, mul_one]
    · rename_i h; rw [abs_of_neg (not_le.1 h)]; ring
  rw [min_eq_right hstep, hsd, max_eq_left (by linarith), min_eq_left (by linarith)]

def constant (a : ℝ) : Mat ℝ 1 := fun _ _ => a

/-- `x² = 2` from `1.5`, with a matrix between `3` and `4`. -/
theorem square_simplified (a : ℝ) (h3 : 3 ≤ a) (h4 : a ≤ 4) :
    Simplified square2 dsquare (constant a) (fun _ => 3 / 2) (1 / 5) (1 / 2) := by
  have hinv : (constant a)⁻¹ = constant a⁻¹ := by
    refine Matrix.inv_eq_right_inv ?_
    ext i k
    obtain rfl := Subsingleton.elim i k
    simp only [Matrix.mul_apply, Fin.sum_univ_one, Matrix.one_apply_eq]
    exact mul_inv_cancel₀ (show a ≠ 0 by linarith)
  have ha : 0 < a := by linarith
  refine ⟨fun x _ => C68_square2 x, ?_, ?_, fun x hx v => ?_, by norm_num, by norm_num⟩
  · rw [Matrix.det_fin_one]; exact ha.ne'
  · rw [hinv]
    refine (pi_norm_le_iff_of_nonneg (by norm_num)).2 fun i => ?_
    simp only [Matrix.mulVec, dotProduct, Fin.sum_univ_one, Real.norm_eq_abs]
    change |a⁻¹ * ((3 / 2 : ℝ) * (3 / 2) - 2)| ≤ _
    rw [abs_of_nonneg (mul_nonneg (inv_pos.2 ha).le (by norm_num)), inv_mul_le_iff₀ ha]
    linarith
  · have hx0 := abs_le.1 ((norm_le_pi_norm _ 0).trans hx)
    simp only [Pi.sub_apply] at hx0
    rw [hinv]
    refine (pi_norm_le_iff_of_nonneg (by positivity)).2 fun i => ?_
    simp only [Matrix.mulVec, dotProduct, Fin.sum_univ_one, Real.norm_eq_abs]
    change |a⁻¹ * ((2 * x 0 - a) * v 0)| ≤ _
    rw [← mul_assoc, abs_mul]
    refine mul_le_mul ?_ (norm_le_pi_norm v 0) (abs_nonneg _) (by norm_num)
    rw [abs_mul, abs_of_pos (inv_pos.2 ha), inv_mul_le_iff₀ ha, abs_le]
    constructor <;> linarith

/-- A wrong Jacobian: `4` everywhere. -/
example (tol : ℝ) (htol : 0 < tol) : ∃ N, ∀ s : AdapterState ℝ 1, s.right = 0 →
    ∃ st' s', ∃ root : Vec ℝ 1, solve (oneCfg tol N) (fromFunctionAndJacobian square2 fun _ => constant 4) .new s =
        .ok (st', s', .ok ()) ∧ root 0 ^ 2 = 2 ∧ |s'.inputs 0 - root 0| ≤ 1 / 5 * (1 / 2) ^ st'.iter := by
  obtain ⟨N, hN⟩ := C109_inexact _ _ _ _ _ _ (square_simplified 4 (by norm_num) (le_refl _)) tol htol
  refine ⟨N, fun s hs => ?_⟩
  obtain ⟨st', s', r, h1, -, -, h3, -, h5⟩ := hN (oneCfg tol N)
    ⟨exactLinAlg_isExact ℝ 1, rfl, rfl, fun _ => rfl, fun _ => rfl⟩ rfl rfl (le_refl _) (one_limits tol N) (fun _ => constant 4) rfl s hs
  have e0 : r 0 * r 0 - 2 = 0 := congrFun h3 0
  exact ⟨st', s', r, h1, by linarith, h5 0⟩

/-- Finite differences: `(1.65² - 1.5²) / 0.15 = 3.15`. -/
example (tol : ℝ) (htol : 0 < tol) : ∃ N, ∀ s : AdapterState ℝ 1, s.right = 0 →
    ∃ st' s', ∃ root : Vec ℝ 1, solve (oneCfg tol N) (fromFunction square2) .new s =
        .ok (st', s', .ok ()) ∧ root 0 ^ 2 = 2 ∧ |s'.inputs 0 - root 0| ≤ 1 / 5 * (1 / 2) ^ st'.iter := by
  obtain ⟨N, hN⟩ := C109_differences square2 dsquare (constant (63 / 20)) (fun _ => 3 / 2) (fun _ => 3 / 20) (1 / 5) (1 / 2) (fun _ => by norm_num)
    (fun _ => by rw [abs_of_pos] <;> norm_num) (fun i k => by
      obtain rfl := Subsingleton.elim i 0
      obtain rfl := Subsingleton.elim k 0
      change (63 / 20 : ℝ) = (((3 / 2 : ℝ) + Pi.single (M := fun _ : Fin 1 => ℝ) 0 (3 / 20) 0) *
        (3 / 2 + Pi.single (M := fun _ : Fin 1 => ℝ) 0 (3 / 20) 0) - 2 - (3 / 2 * (3 / 2) - 2)) / (3 / 20)
      rw [Pi.single_eq_same]
      norm_num) (square_simplified (63 / 20) (by norm_num) (by norm_num)) tol htol
  refine ⟨N, fun s hs => ?_⟩
  obtain ⟨st', s', r, h1, -, -, h3, -, h5⟩ := hN (oneCfg tol N)
    ⟨exactLinAlg_isExact ℝ 1, rfl, rfl, fun _ => rfl, fun _ => rfl⟩ rfl rfl (le_refl _) (by
      rw [computePerturbations, dif_pos (show ∀ i, ((oneCfg tol N).iters i).computePerturbation.isSome = true from fun _ => rfl)]
      congr 1
      funext i
      change max (1 / 10) (|(3 / 2 : ℝ)| * (1 / 10)) = 3 / 20
      rw [abs_of_pos (by norm_num), max_eq_right (by norm_num)]
      norm_num) (one_limits tol N) s hs
  have e0 : r 0 * r 0 - 2 = 0 := congrFun h3 0
  exact ⟨st', s', r, h1, by linarith, h5 0⟩

end DemoReal
end Nrf
