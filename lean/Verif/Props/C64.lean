import Verif.Props.C63
import Verif.Proofs.Secant

/-!
# C64: the documented rate of stationary Newton
-/

namespace Nrf
open Spec
open scoped Exact Topology
open Matrix Filter

/-- With a constant `C` which depends on the equation only, `‖x_k - x*‖ ≤ (C ‖x_0 - x*‖) ^ k ‖x_0 - x*‖`: each
iteration gains the factor `C ‖x_0 - x*‖ < 1/2`.  Missing: the documented rate has no constant. -/
theorem C64_linear_partial {n : Nat} {EI EU S : Type} (m : UserModel ℝ n EI EU S) (inv : S → Prop) (D : Vec ℝ n → Prop)
    (f : Vec ℝ n → ResidualsValues ℝ n) (g : Vec ℝ n → JacobianValues ℝ n) (res : ResConf n)
    (root : Vec ℝ n) (hf : Computes m inv D f) (hD : ∀ᶠ x in 𝓝 root, D x)
    (hroot : SmoothRoot f g res root) (hg : Differentiates m inv f g) (R : ℝ) (hR : 0 < R) :
    ∃ ρ > 0, ∃ C > 0, C * ρ ≤ 1 / 2 ∧ ∀ tol > 0, ∃ N, ∀ c : Config ℝ n, LocalConfig c res root R ρ →
      c.params.method = .QuasiNewton .StationaryNewton → c.params.tolerance = tol → N ≤ c.params.maxIter →
      ∀ s, inv s → ∀ e0 < ρ, (∀ i, |c.guess i - root i| ≤ e0) →
      ∃ st' s', solve c m .new s = .ok (st', s', .ok ()) ∧
        ∀ i, |m.getIteratives s' i - root i| ≤ (C * e0) ^ st'.iter * e0 := by
  obtain ⟨ρ, hρ, C, hC, hCρ, h⟩ := local_rates hroot.left hroot.right hroot.leftJacobian hroot.rightJacobian
    hroot.equal hroot.invertible (fun i h => hroot.normalized i (.inl h))
    (fun i h => hroot.normalized i (.inr h)) hf hg hD hR
  refine ⟨ρ, hρ, C, hC, hCρ, fun tol htol => ?_⟩
  obtain ⟨N, hN⟩ := h tol htol
  refine ⟨N, fun c hc hm ht hmax s hs e0 he0 hguess => ?_⟩
  obtain ⟨st', s', x, h1, h2, -, -, -, h5⟩ := hN c hc.exact hc.residuals (.inr hm) hc.free
    ((pi_norm_lt_iff hρ).2 hc.guess) ht hmax s hs
  refine ⟨st', s', h1, fun i => ?_⟩
  rw [h2.iteratives]
  have he : 0 ≤ e0 := (abs_nonneg _).trans (hguess i)
  have hnorm : ‖c.guess - root‖ ≤ e0 := (pi_norm_le_iff_of_nonneg he).2 hguess
  calc |x i - root i| ≤ ‖x - root‖ := norm_le_pi_norm (x - root) i
    _ ≤ (C * ‖c.guess - root‖) ^ st'.iter * ‖c.guess - root‖ := h5 hm
    _ ≤ (C * e0) ^ st'.iter * e0 := by
      refine mul_le_mul (pow_le_pow_left₀ (by positivity) (mul_le_mul_of_nonneg_left hnorm hC.le) _) hnorm
        (norm_nonneg _) (by positivity)

open DemoReal in
/-- The two equations of C63, with limits and damping. -/
example : ∃ ρ > 0, ∃ C > 0, C * ρ ≤ 1 / 2 ∧ ∀ tol > 0, ∃ N, ∀ (guess : Vec ℝ 2), ∀ e0 < ρ,
    (∀ i, |guess i - (![1, 2] : Vec ℝ 2) i| ≤ e0) →
    ∃ st' s', solve (DemoReal.cfg guess tol 1 N (.QuasiNewton .StationaryNewton)) circle .new ⟨0, 0, ![5, 2]⟩ =
        .ok (st', s', .ok ()) ∧
      ∀ i, |s'.inputs i - (![1, 2] : Vec ℝ 2) i| ≤ (C * e0) ^ st'.iter * e0 := by
  obtain ⟨R, hR, hfree⟩ := limits_free
  obtain ⟨ρ, hρ, C, hC, hCρ, h⟩ := C64_linear_partial circle (fun s => s.right = ![5, 2]) (fun _ => True) _ _
    normalizations ![1, 2] (fromFunctionAndJacobian_computes _ _ _) (Eventually.of_forall fun _ => trivial)
    circle_smooth (fromFunctionAndJacobian_differentiates _ _ _) R hR
  refine ⟨ρ, hρ, C, hC, hCρ, fun tol htol => ?_⟩
  obtain ⟨N, hN⟩ := h tol htol
  refine ⟨N, fun guess e0 he0 hg => ?_⟩
  exact hN _ (localConfig (.inr rfl) (hfree 1) fun i => (hg i).trans_lt he0) rfl rfl (le_refl _) _ rfl e0 he0 hg

namespace Demo

/-- `10 (x - 1)² + (x - 1)`, with the simple root 1. -/
def steep : UserModel ℚ 1 Empty Empty (AdapterState ℚ 1) :=
  fromFunctionAndJacobian (fun x _ => 10 * (x 0 - 1) ^ 2 + (x 0 - 1)) (fun x _ _ => 20 * (x 0 - 1) + 1)

end Demo

open Demo in
/-- The documented rate `‖x_{n+1} - x*‖ < ‖x_n - x*‖ ‖x_0 - x*‖` fails for guesses as close to a simple root
as desired, already at the first iteration. -/
theorem C64_refuted : ∀ δ > 0, ∃ guess : ℚ, |guess - 1| < δ ∧ guess ≠ 1 ∧
    ∃ st' s' r, solve (cfg (.QuasiNewton .StationaryNewton) false 1 0 guess) steep .new start = .ok (st', s', r) ∧
      st'.iter = 1 ∧ |guess - 1| * |guess - 1| < |steep.getIteratives s' 0 - 1| := by
  intro δ hδ
  obtain ⟨d, hd, hdδ, hd1⟩ : ∃ d : ℚ, 0 < d ∧ d < δ ∧ d < 1 / 10 :=
    ⟨min δ (1 / 10) / 2, by positivity, by linarith [min_le_left δ (1 / 10)], by linarith [min_le_right δ (1 / 10)]⟩
  refine ⟨1 + d, by simpa [abs_of_pos hd] using hdδ, by linarith, ?_⟩
  set c := cfg (.QuasiNewton .StationaryNewton) false 1 0 (1 + d) with hc
  set y : ℚ := 1 + 10 * d ^ 2 / (20 * d + 1) with hy
  have hden : (0 : ℚ) < 20 * d + 1 := by positivity
  have hy1 : d ^ 2 < y - 1 := by
    rw [hy, add_sub_cancel_left, lt_div_iff₀ hden]
    nlinarith [sq_nonneg d, mul_pos hd hd]
  have hy2 : y - 1 < d := by
    rw [hy, add_sub_cancel_left, div_lt_iff₀ hden]
    nlinarith
  have hcomp : Computes steep (fun s => s.right = 0) (fun _ => True) _ := fromFunctionAndJacobian_computes (fun (x : Vec ℚ 1) _ => 10 * (x 0 - 1) ^ 2 + (x 0 - 1))
    (fun x _ _ => 20 * (x 0 - 1) + 1) 0
  have hdiff : Differentiates steep (fun s => s.right = 0) _ _ := fromFunctionAndJacobian_differentiates (fun (x : Vec ℚ 1) _ => 10 * (x 0 - 1) ^ 2 + (x 0 - 1))
    (fun x _ _ => 20 * (x 0 - 1) + 1) 0
  obtain ⟨k, st', s', h1, hP, h3, h4⟩ := solve_follow (c := c) hcomp
    (fun k st s => (k = 0 ∧ st = .new ∧ At steep (fun s => s.right = 0) _ s c.guess) ∨
      (st.iter = 1 ∧ At steep (fun s => s.right = 0) _ s (fun _ => y)))
    (by
      rintro k st s (⟨rfl, rfl, hat⟩ | ⟨hi, -⟩) hcont
      · set M := analyticAt c _ (fun x : Vec ℚ 1 => ⟨fun _ _ => 20 * (x 0 - 1) + 1, mzero⟩) c.guess with hM
        have hM0 : M = mat1 (20 * d + 1) := by
          funext i k
          change (20 * (1 + d - 1) + 1) - 0 = 20 * d + 1
          ring
        have hdet : M.det = 20 * d + 1 := by rw [Matrix.det_fin_one, hM0]; rfl
        obtain ⟨st', s', z, a, b, e, rfl⟩ := iterate_newton (c := c) la1_isExact hcomp (pert := 0)
          (x := c.guess) (x' := fun _ => y) (.analytic _ hdiff) (by rw [← hM, hdet]; exact hden.ne')
          (by
            rw [← hM]
            rw [hM0, inv_one]
            funext i
            change (1 + d) - ∑ j : Fin 1, (20 * d + 1)⁻¹ * ((10 * (1 + d - 1) ^ 2 + (1 + d - 1)) - 0) = y
            rw [Fin.sum_univ_one, hy]
            field_simp
            ring)
          trivial
          (by
            intro z hz i
            obtain rfl : z = c.guess := by
              rcases hz with rfl | ⟨j, rfl⟩
              · rfl
              · rw [moved_eq]; simp
            change min (max ((1 + d) + min (min 100 (100 * |1 + d|)) |y - (1 + d)| *
              (if 0 ≤ y - (1 + d) then 1 else -1)) (-100)) 100 = y
            have hneg : y - (1 + d) < 0 := by linarith
            have h1d : |1 + d| = 1 + d := abs_of_pos (by linarith)
            have hle : -(y - (1 + d)) ≤ min 100 (100 * (1 + d)) := by
              refine le_min ?_ ?_ <;> nlinarith [sq_nonneg d]
            rw [if_neg (not_le.2 hneg), h1d, abs_of_neg hneg, min_eq_right hle,
              show 1 + d + -(y - (1 + d)) * -1 = y by ring, max_eq_left (by nlinarith), min_eq_left (by nlinarith)])
          (fun h => by cases h) (st := .new) rfl (.inr rfl) hat
        exact ⟨_, s', e, .inr ⟨rfl, a⟩⟩
      · exfalso
        rw [continues, hi] at hcont
        simp [hc, cfg] at hcont)
    (s := start) rfl trivial (fun s0 h => .inl ⟨rfl, rfl, h⟩)
  rcases hP with ⟨rfl, rfl, hat⟩ | ⟨hi, hat⟩
  · exfalso
    rw [continues, hat.errors] at h3
    have hpos : (0 : ℚ) < 10 * d ^ 2 + d := by positivity
    rw [show decide ((Solver.new : Solver ℚ 1).iter < c.params.maxIter) = true from rfl, Bool.and_true,
      ex_lt_false] at h3
    have h4 := (abs_le_amax _ (0 : Fin 1)).trans h3
    have h5 : |abs ((10 * (1 + d - 1) ^ 2 + (1 + d - 1)) - 0)| ≤ (0 : ℚ) := h4
    rw [abs_abs, add_sub_cancel_left, sub_zero, abs_of_pos hpos] at h5
    linarith
  · refine ⟨st', s', _, h1, hi, ?_⟩
    rw [hat.iteratives, add_sub_cancel_left, abs_of_pos hd, abs_of_pos (by nlinarith [sq_nonneg d])]
    nlinarith

end Nrf
