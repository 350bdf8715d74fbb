import Verif.Proofs.Rate
import Verif.Props.C28
import Verif.Props.C38

/-!
# C63: Newton-Raphson converges quadratically
-/

namespace Nrf
open Spec
open scoped Exact Topology
open Matrix Filter

/-- A root with invertible Jacobian of an equation whose sides are twice continuously differentiable; `g`
gives the Jacobians of the sides.  Normalized residuals need non-zero sides at the root. -/
structure Spec.SmoothRoot {n : Nat} (f : Vec ℝ n → ResidualsValues ℝ n) (g : Vec ℝ n → JacobianValues ℝ n)
    (res : ResConf n) (root : Vec ℝ n) : Prop where
  equal : (f root).left = (f root).right
  left : ContDiffAt ℝ 2 (fun x => (f x).left) root
  right : ContDiffAt ℝ 2 (fun x => (f x).right) root
  leftJacobian : ∀ᶠ x in 𝓝 root, IsJacobian (fun x => (f x).left) (g x).left x
  rightJacobian : ∀ᶠ x in 𝓝 root, IsJacobian (fun x => (f x).right) (g x).right x
  invertible : ((g root).left - (g root).right).det ≠ 0
  normalized : ∀ i, res.upd i ≠ .Abs ∨ res.stop i = .Rel → (f root).left i ≠ 0

/-- There are `ρ` and `C` with `C ρ ≤ 1/2` such that from every guess at distance `e₀ < ρ` (largest
component) the distance `e` to the root after `k` iterations obeys `C e ≤ (C e₀) ^ (2 ^ k)`: the number of
exact digits doubles with each iteration. -/
theorem C63_quadratic {n : Nat} {EI EU S : Type} (m : UserModel ℝ n EI EU S) (inv : S → Prop) (D : Vec ℝ n → Prop)
    (f : Vec ℝ n → ResidualsValues ℝ n) (g : Vec ℝ n → JacobianValues ℝ n) (res : ResConf n)
    (root : Vec ℝ n) (hf : Computes m inv D f) (hD : ∀ᶠ x in 𝓝 root, D x)
    (hroot : SmoothRoot f g res root) (hg : Differentiates m inv f g) (R : ℝ) (hR : 0 < R) :
    ∃ ρ > 0, ∃ C > 0, C * ρ ≤ 1 / 2 ∧ ∀ tol > 0, ∃ N, ∀ c : Config ℝ n, LocalConfig c res root R ρ →
      c.params.method = .NewtonRaphson → c.params.tolerance = tol → N ≤ c.params.maxIter → ∀ s, inv s →
      ∀ e0 < ρ, (∀ i, |c.guess i - root i| ≤ e0) →
      ∃ st' s', solve c m .new s = .ok (st', s', .ok ()) ∧
        ∀ i, C * |m.getIteratives s' i - root i| ≤ (C * e0) ^ 2 ^ st'.iter := by
  obtain ⟨ρ, hρ, C, hC, hCρ, h⟩ := local_rates hroot.left hroot.right hroot.leftJacobian hroot.rightJacobian
    hroot.equal hroot.invertible (fun i h => hroot.normalized i (.inl h))
    (fun i h => hroot.normalized i (.inr h)) hf hg hD hR
  refine ⟨ρ, hρ, C, hC, hCρ, fun tol htol => ?_⟩
  obtain ⟨N, hN⟩ := h tol htol
  refine ⟨N, fun c hc hm ht hmax s hs e0 he0 hguess => ?_⟩
  obtain ⟨st', s', x, h1, h2, -, -, h5, -⟩ := hN c hc.exact hc.residuals (.inl hm) hc.free
    ((pi_norm_lt_iff hρ).2 hc.guess) ht hmax s hs
  refine ⟨st', s', h1, fun i => ?_⟩
  rw [h2.iteratives]
  have hnorm : ‖c.guess - root‖ ≤ e0 := (pi_norm_le_iff_of_nonneg ((abs_nonneg _).trans (hguess i))).2 hguess
  calc C * |x i - root i| ≤ C * ‖x - root‖ := mul_le_mul_of_nonneg_left (norm_le_pi_norm (x - root) i) hC.le
    _ ≤ (C * ‖c.guess - root‖) ^ 2 ^ st'.iter := h5 hm
    _ ≤ (C * e0) ^ 2 ^ st'.iter :=
      pow_le_pow_left₀ (by positivity) (mul_le_mul_of_nonneg_left hnorm hC.le) _

/-! ### The hypotheses can be met -/

namespace DemoReal

theorem circle_smooth : SmoothRoot (fun x : Vec ℝ 2 => ⟨![x 0 ^ 2 + x 1 ^ 2, x 0 * x 1], ![5, 2]⟩)
    (fun x => ⟨!![2 * x 0, 2 * x 1; x 1, x 0], mzero⟩) normalizations ![1, 2] where
  equal := circle_root.equal
  left := by
    refine contDiffAt_pi.2 fun i => ?_
    fin_cases i <;> simp <;> fun_prop
  right := contDiffAt_const
  leftJacobian := Eventually.of_forall fun x => by
    have h0 : HasFDerivAt (fun x : Vec ℝ 2 => x 0) (ContinuousLinearMap.proj (R := ℝ) 0) x :=
      (ContinuousLinearMap.proj (R := ℝ) (φ := fun _ : Fin 2 => ℝ) 0).hasFDerivAt
    have h1 : HasFDerivAt (fun x : Vec ℝ 2 => x 1) (ContinuousLinearMap.proj (R := ℝ) 1) x :=
      (ContinuousLinearMap.proj (R := ℝ) (φ := fun _ : Fin 2 => ℝ) 1).hasFDerivAt
    refine hasFDerivAt_pi'.2 fun i => ?_
    fin_cases i
    · refine ((h0.pow 2).add (h1.pow 2)).congr_fderiv ?_
      ext v
      simp [Matrix.mulVec, dotProduct, Fin.sum_univ_two]
    · refine (h0.mul h1).congr_fderiv ?_
      ext v
      simp [Matrix.mulVec, dotProduct, Fin.sum_univ_two]
      ring
  rightJacobian := Eventually.of_forall fun x => by
    refine (hasFDerivAt_const (![5, 2] : Vec ℝ 2) _).congr_fderiv ?_
    ext v i
    simp [Matrix.mulVec, dotProduct, mzero, ex_zero]
  invertible := by
    simp [Matrix.det_fin_two, mzero, ex_zero]
    norm_num
  normalized := fun i _ => by fin_cases i <;> norm_num

/-- Two equations, normalized residuals, limits and damping. -/
example : ∃ ρ > 0, ∃ C > 0, C * ρ ≤ 1 / 2 ∧ ∀ tol > 0, ∃ N, ∀ (guess : Vec ℝ 2), ∀ e0 < ρ,
    (∀ i, |guess i - (![1, 2] : Vec ℝ 2) i| ≤ e0) →
    ∃ st' s', solve (cfg guess tol 1 N .NewtonRaphson) circle .new ⟨0, 0, ![5, 2]⟩ = .ok (st', s', .ok ()) ∧
      ∀ i, C * |s'.inputs i - (![1, 2] : Vec ℝ 2) i| ≤ (C * e0) ^ 2 ^ st'.iter := by
  obtain ⟨R, hR, hfree⟩ := limits_free
  obtain ⟨ρ, hρ, C, hC, hCρ, h⟩ := C63_quadratic circle (fun s => s.right = ![5, 2]) (fun _ => True) _ _ normalizations
    ![1, 2] (fromFunctionAndJacobian_computes _ _ _) (Eventually.of_forall fun _ => trivial) circle_smooth
    (fromFunctionAndJacobian_differentiates _ _ _) R hR
  refine ⟨ρ, hρ, C, hC, hCρ, fun tol htol => ?_⟩
  obtain ⟨N, hN⟩ := h tol htol
  refine ⟨N, fun guess e0 he0 hg => ?_⟩
  exact hN _ (localConfig (.inl rfl) (hfree 1) fun i => (hg i).trans_lt he0) rfl rfl (le_refl _) _ rfl e0 he0 hg

end DemoReal
end Nrf
