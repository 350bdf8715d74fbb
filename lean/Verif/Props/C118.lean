import Verif.Proofs.NearlyLinear
import Verif.Props.C117

/-!
# C118: nearly linear systems, every guess, every displacement
-/

namespace Nrf
open Spec
open scoped Exact
open Matrix

section
variable {n : Nat} {F : Vec ℝ n → Vec ℝ n} {jac : Vec ℝ n → Mat ℝ n} {B : Mat ℝ n} {β ε δ : ℝ} {c : Config ℝ n}

/-- The factor is below one. -/
theorem NearlyLinear.factor (h : NearlyLinear F B β ε) (hδ0 : 0 ≤ δ) (hsmall : β * (ε + 2 * δ) < 1) :
    β * δ < 1 ∧ 0 ≤ β * (ε + δ) / (1 - β * δ) ∧ β * (ε + δ) / (1 - β * δ) < 1 := by
  have h1 := mul_nonneg h.pos.le h.nonneg
  have h2 := mul_nonneg h.pos.le hδ0
  have h3 : β * δ < 1 := by nlinarith
  have h4 : 0 < 1 - β * δ := by linarith
  refine ⟨h3, div_nonneg (mul_nonneg h.pos.le (add_nonneg h.nonneg hδ0)) h4.le, ?_⟩
  rw [div_lt_one h4]
  linarith

/-- Newton-Raphson with a Jacobian within `δ` of the linear part, with damping and without. -/
theorem C118_newton (h : NearlyLinear F B β ε) (hδ0 : 0 ≤ δ) (hsmall : β * (ε + 2 * δ) < 1)
    (hjac : ∀ x, NearMatrix B δ (jac x)) (hc : PlainNewton (undamped c))
    (hlim : ∀ i v w, (c.iters i).stepLimitation v (w - v) = w) {N : Nat} (hN : N ≤ c.params.maxIter)
    (htol : (β * (ε + δ) / (1 - β * δ)) ^ N * ‖F c.guess‖ ≤ c.params.tolerance) (s : AdapterState ℝ n)
    (hs : s.right = 0) :
    β * (ε + δ) / (1 - β * δ) < 1 ∧
    ∃ st' s', solve c (fromFunctionAndJacobian F jac) .new s = .ok (st', s', .ok ()) ∧ st'.iter ≤ N ∧
      (∀ i, |F s'.inputs i| ≤ c.params.tolerance) ∧
      ‖F s'.inputs‖ ≤ (β * (ε + δ) / (1 - β * δ)) ^ st'.iter * ‖F c.guess‖ := by
  obtain ⟨hδ, hq0, hq1⟩ := NearlyLinear.factor h hδ0 hsmall
  refine ⟨hq1, ?_⟩
  have ht0 : 0 ≤ c.params.tolerance := (mul_nonneg (pow_nonneg hq0 N) (norm_nonneg _)).trans htol
  obtain ⟨st', s', h1, h2, h3, h4⟩ := newton_run_shrinking hc F jac
    (fun k x => ‖F x‖ ≤ (β * (ε + δ) / (1 - β * δ)) ^ k * ‖F c.guess‖) N hN (by simp)
    (fun k x _ hI => by
      have hdet := h.det (hjac x) hδ
      have hd : jac x *ᵥ (-((jac x)⁻¹ *ᵥ F x)) = - F x := by
        rw [Matrix.mulVec_neg, Matrix.mulVec_mulVec, ex_mul_inv hdet, Matrix.one_mulVec]
      refine ⟨hdet, _, hd, fun i => ?_, (h.step (hjac x) hδ0 hδ hd).trans (mul_le_of_le_one_left (norm_nonneg _) hq1.le), ?_⟩
      · have := hlim i (x i) (x i + (-((jac x)⁻¹ *ᵥ F x)) i)
        rwa [add_sub_cancel_left] at this
      · refine (h.step (hjac x) hδ0 hδ hd).trans ((mul_le_mul_of_nonneg_left hI hq0).trans_eq ?_)
        rw [pow_succ]; ring)
    (fun x hI i => (norm_le_pi_norm (F x) i).trans (hI.trans htol)) ht0 s hs
  exact ⟨st', s', h1, h2, h4, h3⟩

/-- Newton-Raphson with finite differences, whatever the displacements, as long as they are not zero. -/
theorem C118_differences (h : NearlyLinear F B β ε) (hsmall : β * (ε + 2 * (n * ε)) < 1) (hc : PlainNewton c)
    (hlim : ∀ i v w, (c.iters i).stepLimitation v (w - v) = w)
    (hpert : ∀ x, ∃ pert, computePerturbations c.iters x = some pert ∧ ∀ i, pert i ≠ 0) {N : Nat}
    (hN : N ≤ c.params.maxIter)
    (htol : (β * (ε + n * ε) / (1 - β * (n * ε))) ^ N * ‖F c.guess‖ ≤ c.params.tolerance) (s : AdapterState ℝ n)
    (hs : s.right = 0) :
    β * (ε + n * ε) / (1 - β * (n * ε)) < 1 ∧
    ∃ st' s', solve c (fromFunction F) .new s = .ok (st', s', .ok ()) ∧ st'.iter ≤ N ∧
      (∀ i, |F s'.inputs i| ≤ c.params.tolerance) ∧
      ‖F s'.inputs‖ ≤ (β * (ε + n * ε) / (1 - β * (n * ε))) ^ st'.iter * ‖F c.guess‖ := by
  have hδ0 : 0 ≤ n * ε := mul_nonneg (Nat.cast_nonneg _) h.nonneg
  obtain ⟨hδ, hq0, hq1⟩ := NearlyLinear.factor h hδ0 hsmall
  refine ⟨hq1, ?_⟩
  have ht0 : 0 ≤ c.params.tolerance := (mul_nonneg (pow_nonneg hq0 N) (norm_nonneg _)).trans htol
  have hamax : ∀ x, amax (errorsAt c (fun x => ⟨F x, 0⟩) x) ≤ c.params.tolerance ↔ ∀ i, |F x i| ≤ c.params.tolerance := by
    intro x
    rw [amax_le_iff _ ht0]
    simp only [hc.errors F x, abs_abs]
  obtain ⟨st', s', x, h1, h2, h3, h4, h5⟩ := newton_run hc.exact hc.method hc.damping (fromFunction_computes F 0)
    (fun k x => ‖F x‖ ≤ (β * (ε + n * ε) / (1 - β * (n * ε))) ^ k * ‖F c.guess‖) N hN (fun _ _ _ => trivial) (by simp)
    (fun k x _ hI => by
      obtain ⟨pert, hp, hne⟩ := hpert x
      have hsrc := Source.fd (c := c) (D := fun _ => True) (x := x) (pert := pert)
        (fromFunction_underived F 0) hp hne (fun _ => trivial)
      obtain ⟨J, hJ⟩ : ∃ J : Mat ℝ n, J = differencesAt c (fun x => ⟨F x, 0⟩) pert x := ⟨_, rfl⟩
      rw [← hJ] at hsrc
      have hJe : ∀ i k, J i k = (F (x + Pi.single k (pert k)) i - F x i) / pert k := by
        intro i k
        rw [hJ, differencesAt, hc.update F, hc.update F, moved_eq]
        rfl
      have hnear := h.differences hne hJe
      have hdet := h.det hnear hδ
      have hd : J *ᵥ (-(J⁻¹ *ᵥ F x)) = - F x := by
        rw [Matrix.mulVec_neg, Matrix.mulVec_mulVec, ex_mul_inv hdet, Matrix.one_mulVec]
      refine ⟨pert, J, x + -(J⁻¹ *ᵥ F x), hsrc, hdet, ?_, fun z _ i => hlim i _ _, ?_⟩
      · rw [hc.update F x, sub_eq_add_neg]
      · refine (h.step hnear hδ0 hδ hd).trans ((mul_le_mul_of_nonneg_left hI hq0).trans_eq ?_)
        rw [pow_succ]; ring)
    (fun x hI => (hamax x).2 fun i => (norm_le_pi_norm (F x) i).trans (hI.trans htol)) s hs
  obtain rfl : s'.inputs = x := h3.iteratives
  exact ⟨st', s', h1, h2, (hamax _).1 h5, h4⟩

/-- Stationary Newton with the Jacobian of the guess. -/
theorem C118_stationary (h : NearlyLinear F B β ε) (hδ0 : 0 ≤ δ) (hsmall : β * (ε + 2 * δ) < 1)
    (hjac : NearMatrix B δ (jac c.guess)) (hc : PlainStationary c)
    (hlim : ∀ i v w, (c.iters i).stepLimitation v (w - v) = w) {N : Nat} (hN : N ≤ c.params.maxIter)
    (htol : (β * (ε + δ) / (1 - β * δ)) ^ N * ‖F c.guess‖ ≤ c.params.tolerance) (s : AdapterState ℝ n)
    (hs : s.right = 0) :
    β * (ε + δ) / (1 - β * δ) < 1 ∧
    ∃ st' s', solve c (fromFunctionAndJacobian F jac) .new s = .ok (st', s', .ok ()) ∧ st'.iter ≤ N ∧
      (∀ i, |F s'.inputs i| ≤ c.params.tolerance) ∧
      ‖F s'.inputs‖ ≤ (β * (ε + δ) / (1 - β * δ)) ^ st'.iter * ‖F c.guess‖ := by
  obtain ⟨hδ, hq0, hq1⟩ := NearlyLinear.factor h hδ0 hsmall
  refine ⟨hq1, ?_⟩
  have ht0 : 0 ≤ c.params.tolerance := (mul_nonneg (pow_nonneg hq0 N) (norm_nonneg _)).trans htol
  have hdet := h.det hjac hδ
  obtain ⟨st', s', h1, h2, h3, h4⟩ := stationary_run_function hc F jac
    (fun k x => ‖F x‖ ≤ (β * (ε + δ) / (1 - β * δ)) ^ k * ‖F c.guess‖) N hN (by simp) hdet
    (fun k x _ hI => by
      have hd : jac c.guess *ᵥ (-((jac c.guess)⁻¹ *ᵥ F x)) = - F x := by
        rw [Matrix.mulVec_neg, Matrix.mulVec_mulVec, ex_mul_inv hdet, Matrix.one_mulVec]
      refine ⟨fun i => ?_, ?_⟩
      · have := hlim i (x i) (x i - ((jac c.guess)⁻¹ *ᵥ F x) i)
        rwa [sub_sub_cancel_left] at this
      · rw [sub_eq_add_neg]
        refine (h.step hjac hδ0 hδ hd).trans ((mul_le_mul_of_nonneg_left hI hq0).trans_eq ?_)
        rw [pow_succ]; ring)
    (fun x hI i => (norm_le_pi_norm (F x) i).trans (hI.trans htol)) ht0 s hs
  exact ⟨st', s', h1, h2, h4, h3⟩

/-- Stationary Newton with the finite differences at the guess. -/
theorem C118_stationary_differences (h : NearlyLinear F B β ε) (hsmall : β * (ε + 2 * (n * ε)) < 1)
    (hc : PlainStationary c) (hlim : ∀ i v w, (c.iters i).stepLimitation v (w - v) = w)
    (hpert : ∃ pert, computePerturbations c.iters c.guess = some pert ∧ ∀ i, pert i ≠ 0) {N : Nat}
    (hN : N ≤ c.params.maxIter)
    (htol : (β * (ε + n * ε) / (1 - β * (n * ε))) ^ N * ‖F c.guess‖ ≤ c.params.tolerance) (s : AdapterState ℝ n)
    (hs : s.right = 0) :
    β * (ε + n * ε) / (1 - β * (n * ε)) < 1 ∧
    ∃ st' s', solve c (fromFunction F) .new s = .ok (st', s', .ok ()) ∧ st'.iter ≤ N ∧
      (∀ i, |F s'.inputs i| ≤ c.params.tolerance) ∧
      ‖F s'.inputs‖ ≤ (β * (ε + n * ε) / (1 - β * (n * ε))) ^ st'.iter * ‖F c.guess‖ := by
  have hδ0 : 0 ≤ n * ε := mul_nonneg (Nat.cast_nonneg _) h.nonneg
  obtain ⟨hδ, hq0, hq1⟩ := NearlyLinear.factor h hδ0 hsmall
  refine ⟨hq1, ?_⟩
  have ht0 : 0 ≤ c.params.tolerance := (mul_nonneg (pow_nonneg hq0 N) (norm_nonneg _)).trans htol
  obtain ⟨pert, hp, hne⟩ := hpert
  obtain ⟨J, hJe⟩ : ∃ J : Mat ℝ n, ∀ i k, J i k = (F (c.guess + Pi.single k (pert k)) i - F c.guess i) / pert k :=
    ⟨Matrix.of fun i k => _, fun i k => rfl⟩
  have hnear := h.differences hne hJe
  have hdet := h.det hnear hδ
  obtain ⟨st', s', h1, h2, h3, h4⟩ := stationary_run_differences hc F hp hne hJe
    (fun k x => ‖F x‖ ≤ (β * (ε + n * ε) / (1 - β * (n * ε))) ^ k * ‖F c.guess‖) N hN (by simp) hdet
    (fun k x x' _ hI hx' => by
      have hd : J *ᵥ (-(J⁻¹ *ᵥ F x)) = - F x := by
        rw [Matrix.mulVec_neg, Matrix.mulVec_mulVec, ex_mul_inv hdet, Matrix.one_mulVec]
      refine ⟨?_, fun i => hlim i _ _, fun _ _ i => hlim i _ _⟩
      rw [← hx', sub_eq_add_neg]
      refine (h.step hnear hδ0 hδ hd).trans ((mul_le_mul_of_nonneg_left hI hq0).trans_eq ?_)
      rw [pow_succ]; ring)
    (fun x hI i => (norm_le_pi_norm (F x) i).trans (hI.trans htol)) ht0 s hs
  exact ⟨st', s', h1, h2, h4, h3⟩

end

namespace Demo

/-- No limits, real numbers, two unknowns, the displacement `dx` for every value. -/
noncomputable def displacedPair (guess : Vec ℝ 2) (tol dx : ℝ) (maxIter : Nat) (method : ResolutionMethod) : Config ℝ 2 where
  params := { problemSize := 2, tolerance := tol, maxIter, method, damping := false }
  guess := guess
  iters := fun _ => { stepLimitation := fun v d => v + d, computePerturbation := some fun _ => dx, withFiniteDiff := true }
  res := { stop := fun _ => .Abs, upd := fun _ => .Abs }
  la := exactLinAlg ℝ 2

/-- `10 x + |y|` and `10 y + |x|`. -/
noncomputable def corners (x : Vec ℝ 2) : Vec ℝ 2 := fun i => 10 * x i + |x i.rev|

theorem ten_mulVec (v : Vec ℝ 2) : ((10 : ℝ) • (1 : Mat ℝ 2)) *ᵥ v = (10 : ℝ) • v := by
  rw [Matrix.smul_mulVec, Matrix.one_mulVec]

theorem corners_nearly : NearlyLinear corners ((10 : ℝ) • (1 : Mat ℝ 2)) (1 / 10) 1 := by
  refine ⟨by norm_num, zero_le_one, fun v => ?_, fun x y => ?_⟩
  · rw [ten_mulVec, norm_smul, Real.norm_eq_abs, abs_of_pos (by norm_num : (0 : ℝ) < 10)]
    linarith
  · rw [ten_mulVec, one_mul]
    refine (pi_norm_le_iff_of_nonneg (norm_nonneg _)).2 fun i => ?_
    have e : (corners y - corners x - (10 : ℝ) • (y - x)) i = |y i.rev| - |x i.rev| := by
      simp only [Pi.sub_apply, Pi.smul_apply, smul_eq_mul, corners]
      ring
    rw [e, Real.norm_eq_abs]
    exact (abs_abs_sub_abs_le _ _).trans (norm_le_pi_norm (y - x) i.rev)

theorem corners_norm : ‖corners fun _ => 1‖ ≤ 11 :=
  (pi_norm_le_iff_of_nonneg (by norm_num)).2 fun i => by simp [corners]; norm_num

/-- The four theorems apply to this system from `(1, 1)`; the displacement is 1000, and the Jacobian given is `10`. -/
example : (∃ st' s', solve (displacedPair (fun _ => 1) (1 / 10) 1000 5 .NewtonRaphson) (fromFunction corners) .new
      ⟨0, 0, 0⟩ = .ok (st', s', .ok ())) ∧
    (∃ st' s', solve (displacedPair (fun _ => 1) (1 / 10) 1000 5 (.QuasiNewton .StationaryNewton)) (fromFunction corners)
      .new ⟨0, 0, 0⟩ = .ok (st', s', .ok ())) ∧
    (∃ st' s', solve (displacedPair (fun _ => 1) (1 / 10) 0 5 .NewtonRaphson)
      (fromFunctionAndJacobian corners fun _ => (10 : ℝ) • (1 : Mat ℝ 2)) .new ⟨0, 0, 0⟩ = .ok (st', s', .ok ())) ∧
    ∃ st' s', solve (displacedPair (fun _ => 1) (1 / 10) 0 5 (.QuasiNewton .StationaryNewton))
      (fromFunctionAndJacobian corners fun _ => (10 : ℝ) • (1 : Mat ℝ 2)) .new ⟨0, 0, 0⟩ = .ok (st', s', .ok ()) := by
  have hp : ∀ (method : ResolutionMethod) (x : Vec ℝ 2), ∃ pert,
      computePerturbations (displacedPair (fun _ => 1) (1 / 10) 1000 5 method).iters x = some pert ∧ ∀ i, pert i ≠ 0 :=
    fun method x => ⟨fun _ => 1000, by simp [computePerturbations, displacedPair]; rfl, fun _ => by norm_num⟩
  have h0 : NearMatrix ((10 : ℝ) • (1 : Mat ℝ 2)) 0 ((10 : ℝ) • (1 : Mat ℝ 2)) := fun v => by simp
  have t1 : (1 / 10 * (1 + (2 : ℕ) * 1) / (1 - 1 / 10 * ((2 : ℕ) * 1))) ^ 5 * ‖corners fun _ => 1‖ ≤ (1 / 10 : ℝ) := by
    have := corners_norm
    norm_num
    linarith
  have t2 : (1 / 10 * (1 + 0) / (1 - 1 / 10 * 0)) ^ 5 * ‖corners fun _ => 1‖ ≤ (1 / 10 : ℝ) := by
    have := corners_norm
    norm_num
    linarith
  refine ⟨?_, ?_, ?_, ?_⟩
  · obtain ⟨-, st', s', h1, -⟩ := C118_differences (c := displacedPair (fun _ => 1) (1 / 10) 1000 5 .NewtonRaphson)
      corners_nearly (by norm_num) ⟨exactLinAlg_isExact ℝ 2, rfl, rfl, fun _ => rfl, fun _ => rfl⟩
      (fun _ v w => add_sub_cancel v w) (hp _) (N := 5) le_rfl t1 ⟨0, 0, 0⟩ rfl
    exact ⟨st', s', h1⟩
  · obtain ⟨-, st', s', h1, -⟩ := C118_stationary_differences
      (c := displacedPair (fun _ => 1) (1 / 10) 1000 5 (.QuasiNewton .StationaryNewton))
      corners_nearly (by norm_num) ⟨exactLinAlg_isExact ℝ 2, rfl, rfl, fun _ => rfl, fun _ => rfl⟩
      (fun _ v w => add_sub_cancel v w) (hp _ _) (N := 5) le_rfl t1 ⟨0, 0, 0⟩ rfl
    exact ⟨st', s', h1⟩
  · obtain ⟨-, st', s', h1, -⟩ := C118_newton (c := displacedPair (fun _ => 1) (1 / 10) 0 5 .NewtonRaphson)
      corners_nearly le_rfl (by norm_num) (fun _ => h0) ⟨exactLinAlg_isExact ℝ 2, rfl, rfl, fun _ => rfl, fun _ => rfl⟩
      (fun _ v w => add_sub_cancel v w) (N := 5) le_rfl t2 ⟨0, 0, 0⟩ rfl
    exact ⟨st', s', h1⟩
  · obtain ⟨-, st', s', h1, -⟩ := C118_stationary (jac := fun _ => (10 : ℝ) • (1 : Mat ℝ 2))
      (c := displacedPair (fun _ => 1) (1 / 10) 0 5 (.QuasiNewton .StationaryNewton))
      corners_nearly le_rfl (by norm_num) h0 ⟨exactLinAlg_isExact ℝ 2, rfl, rfl, fun _ => rfl, fun _ => rfl⟩
      (fun _ v w => add_sub_cancel v w) (N := 5) le_rfl t2 ⟨0, 0, 0⟩ rfl
    exact ⟨st', s', h1⟩

/-- `C118_newton` with damping. -/
example : ∃ st' s', solve { displacedPair (fun _ => 1) (1 / 10) 0 5 .NewtonRaphson with
      params := { (displacedPair (fun _ => 1) (1 / 10) 0 5 .NewtonRaphson).params with damping := true } }
      (fromFunctionAndJacobian corners fun _ => (10 : ℝ) • (1 : Mat ℝ 2)) .new ⟨0, 0, 0⟩ = .ok (st', s', .ok ()) := by
  obtain ⟨-, st', s', h1, -⟩ := C118_newton (c := { displacedPair (fun _ => 1) (1 / 10) 0 5 .NewtonRaphson with
      params := { (displacedPair (fun _ => 1) (1 / 10) 0 5 .NewtonRaphson).params with damping := true } })
    (jac := fun _ => (10 : ℝ) • (1 : Mat ℝ 2)) corners_nearly le_rfl (by norm_num) (fun _ v => by simp)
    ⟨exactLinAlg_isExact ℝ 2, rfl, rfl, fun _ => rfl, fun _ => rfl⟩ (fun _ v w => add_sub_cancel v w) (N := 5) le_rfl (by
      have := corners_norm
      change (1 / 10 * (1 + 0) / (1 - 1 / 10 * 0)) ^ 5 * ‖corners fun _ => 1‖ ≤ (1 / 10 : ℝ)
      norm_num
      linarith) ⟨0, 0, 0⟩ rfl
  exact ⟨st', s', h1⟩

end Demo
end Nrf
