import Verif.Proofs.Local
import Mathlib.Analysis.Calculus.ContDiff.RCLike
import Mathlib.Analysis.Calculus.Deriv.Abs
import Mathlib.Analysis.Calculus.MeanValue

/-!
# How fast the distance to the root falls
-/

set_option linter.unusedSectionVars false

namespace Nrf
open Spec
open scoped Exact Topology
open Matrix Filter

variable {n : Nat}

theorem smooth_residual {E : Type} [NormedAddCommGroup E] [NormedSpace ℝ E] {l r : E → ℝ} {x : E}
    (hl : ContDiffAt ℝ 2 l x) (hr : ContDiffAt ℝ 2 r x) (meth : NormalizationMethod)
    (h : meth ≠ .Abs → l x + r x ≠ 0) :
    ContDiffAt ℝ 2 (fun z => Spec.residual meth (l z) (r z)) x := by
  cases meth with
  | Abs => exact hl.sub hr
  | Rel =>
    have hne := h (by simp)
    refine (hl.sub hr).div (((hl.add hr).abs hne).div_const 2) ?_
    exact div_ne_zero (abs_ne_zero.2 hne) two_ne_zero
  | Adapt =>
    have hne := h (by simp)
    refine (hl.sub hr).div (contDiffAt_const.add (((hl.add hr).abs hne).div_const 2)) ?_
    have := abs_nonneg (l x + r x)
    positivity

theorem asMap_entry (A B : Mat ℝ n) (v : Vec ℝ n) : (asMap A - asMap B) v = (A - B) *ᵥ v := by
  change A *ᵥ v - B *ᵥ v = _
  rw [Matrix.sub_mulVec]

/-- The residuals used for the updates, as a function of the iteratives. -/
noncomputable def residualsOf (res : ResConf n) (f : Vec ℝ n → ResidualsValues ℝ n) (x : Vec ℝ n) : Vec ℝ n :=
  fun i => Spec.residual (res.upd i) ((f x).left i) ((f x).right i)

theorem residualsOf_smooth {res : ResConf n} {f : Vec ℝ n → ResidualsValues ℝ n} {root : Vec ℝ n}
    (hl : ContDiffAt ℝ 2 (fun x => (f x).left) root) (hr : ContDiffAt ℝ 2 (fun x => (f x).right) root)
    (h : ∀ i, res.upd i ≠ .Abs → (f root).left i + (f root).right i ≠ 0) :
    ContDiffAt ℝ 2 (residualsOf res f) root :=
  contDiffAt_pi.2 fun i => smooth_residual (contDiffAt_pi.1 hl i) (contDiffAt_pi.1 hr i) _ (h i)

/-- The code's analytic matrix is the derivative of the residuals. -/
theorem normalize_deriv {res : ResConf n} {f : Vec ℝ n → ResidualsValues ℝ n} {x : Vec ℝ n}
    {g : JacobianValues ℝ n} (hl : HasStrictFDerivAt (fun x => (f x).left) (asMap g.left) x)
    (hr : HasStrictFDerivAt (fun x => (f x).right) (asMap g.right) x)
    (h : ∀ i, res.upd i ≠ .Abs → (f x).left i + (f x).right i ≠ 0) :
    HasFDerivAt (residualsOf res f) (asMap (g.normalize (f x) res.upd)) x := by
  refine hasFDerivAt_pi'.2 fun i => ?_
  obtain ⟨D, hD, hv⟩ := strict_residual (hasStrictFDerivAt_pi'.1 hl i) (hasStrictFDerivAt_pi'.1 hr i) _ (h i)
  refine hD.hasFDerivAt.congr_fderiv ?_
  refine ContinuousLinearMap.coe_injective (LinearMap.pi_ext' fun k => LinearMap.ext_ring ?_)
  change D (Pi.single k 1) = ((g.normalize (f x) res.upd) *ᵥ Pi.single k 1) i
  rw [hv]
  have e : ∀ A : Mat ℝ n, ((ContinuousLinearMap.proj i : Vec ℝ n →L[ℝ] ℝ).comp (asMap A)) (Pi.single k 1) = A i k := by
    intro A
    change (A *ᵥ Pi.single k 1) i = _
    rw [Matrix.mulVec_single_one]; rfl
  rw [e, e, Matrix.mulVec_single_one]
  rfl

/-- One pass with the matrix computed at `y`. -/
theorem rate_step {F : Vec ℝ n → Vec ℝ n} {root : Vec ℝ n} (hF : ContDiffAt ℝ 2 F root) (h0 : F root = 0)
    {J : Mat ℝ n} (hJ : J.det ≠ 0) :
    ∃ C > 0, ∃ δ > 0, ∀ x y (M : Mat ℝ n), ‖x - root‖ < δ → ‖y - root‖ < δ → HasFDerivAt F (asMap M) y →
      (∀ i k, |M i k - J i k| < δ) →
      ‖x - M⁻¹ *ᵥ F x - root‖ ≤ C * ((‖x - root‖ + ‖y - root‖) / 2) * ‖x - root‖ := by
  obtain ⟨B, hB, δ1, hδ1, hinv⟩ := inverse_bounded hJ
  have h1 : ContDiffAt ℝ 1 (fderiv ℝ F) root := hF.fderiv_right (by norm_num)
  obtain ⟨K, t, ht, hlip⟩ := h1.exists_lipschitzOnWith
  have hdiff : ∀ᶠ z in 𝓝 root, DifferentiableAt ℝ F z :=
    (hF.eventually (by simp)).mono fun z hz => hz.differentiableAt (by simp)
  obtain ⟨δ2, hδ2, hball⟩ := Metric.eventually_nhds_iff.1 (hdiff.and ht)
  refine ⟨2 * (n * B * K) + 1, by positivity, min δ1 δ2, lt_min hδ1 hδ2, ?_⟩
  intro x y M hx hy hM hMJ
  have hx2 := hx.trans_le (min_le_right δ1 δ2)
  have hy2 := hy.trans_le (min_le_right δ1 δ2)
  obtain ⟨hdet, hb⟩ := hinv M fun i k => (hMJ i k).trans_le (min_le_left _ _)
  have hmean : ‖F x - F root - asMap M (x - root)‖ ≤ K * (‖x - root‖ + ‖y - root‖) * ‖x - root‖ := by
    refine (convex_closedBall root ‖x - root‖).norm_image_sub_le_of_norm_hasFDerivWithin_le'
      (f' := fderiv ℝ F) (fun z hz => ?_) (fun z hz => ?_) (Metric.mem_closedBall_self (norm_nonneg _)) ?_
    · have hz' : dist z root < δ2 := (Metric.mem_closedBall.1 hz).trans_lt hx2
      exact (hball hz').1.hasFDerivAt.hasFDerivWithinAt
    · have hz0 : dist z root ≤ ‖x - root‖ := Metric.mem_closedBall.1 hz
      have hz' : dist z root < δ2 := hz0.trans_lt hx2
      have hyt := hball (y := y) (by rw [dist_eq_norm]; exact hy2)
      rw [← hM.fderiv, ← dist_eq_norm]
      refine (hlip.dist_le_mul z (hball hz').2 y hyt.2).trans ?_
      refine mul_le_mul_of_nonneg_left ?_ K.2
      refine (dist_triangle_right z y root).trans ?_
      rw [dist_eq_norm y]
      linarith
    · rw [Metric.mem_closedBall, dist_eq_norm]
  have e : x - M⁻¹ *ᵥ F x - root = -(M⁻¹ *ᵥ (F x - F root - asMap M (x - root))) := by
    change _ = -(M⁻¹ *ᵥ (F x - F root - M *ᵥ (x - root)))
    rw [h0, sub_zero, Matrix.mulVec_sub, Matrix.mulVec_mulVec,
      Matrix.nonsing_inv_mul M (isUnit_iff_ne_zero.2 hdet), Matrix.one_mulVec]
    abel
  rw [e, norm_neg]
  refine (mulVec_le hb hmean hB.le).trans ?_
  have h1 := norm_nonneg (x - root)
  have h2 := norm_nonneg (y - root)
  have h3 : 0 ≤ (‖x - root‖ + ‖y - root‖) / 2 * ‖x - root‖ := by positivity
  nlinarith

theorem jacobian_continuous {F : Vec ℝ n → Vec ℝ n} {A : Vec ℝ n → Mat ℝ n} {root : Vec ℝ n}
    (hF : ContDiffAt ℝ 2 F root) (hA : ∀ᶠ x in 𝓝 root, HasFDerivAt F (asMap (A x)) x) : ContinuousAt A root := by
  refine continuousAt_pi.2 fun i => continuousAt_pi.2 fun k => ?_
  have h1 : ContDiffAt ℝ 1 (fderiv ℝ F) root := hF.fderiv_right (by norm_num)
  have h2 : ContinuousAt (fun x => fderiv ℝ F x (Pi.single k 1) i) root :=
    (continuous_apply i).continuousAt.comp (h1.continuousAt.clm_apply continuousAt_const)
  refine h2.congr (hA.mono fun x hx => ?_)
  change fderiv ℝ F x (Pi.single k 1) i = _
  rw [hx.fderiv]
  change (A x *ᵥ Pi.single k 1) i = _
  rw [Matrix.mulVec_single_one]; rfl

theorem strict_near {F : Vec ℝ n → Vec ℝ n} {A : Vec ℝ n → Mat ℝ n} {root : Vec ℝ n}
    (hF : ContDiffAt ℝ 2 F root) (hA : ∀ᶠ x in 𝓝 root, HasFDerivAt F (asMap (A x)) x) :
    ∀ᶠ x in 𝓝 root, HasStrictFDerivAt F (asMap (A x)) x := by
  filter_upwards [hA, hF.eventually (by simp)] with x h1 h2
  have := h2.hasStrictFDerivAt (by simp)
  rwa [h1.fderiv] at this

section
variable {EI EU S : Type} {m : UserModel ℝ n EI EU S} {inv : S → Prop} {D : Vec ℝ n → Prop}
variable {f : Vec ℝ n → ResidualsValues ℝ n} {g : Vec ℝ n → JacobianValues ℝ n} {root : Vec ℝ n}
variable {res : ResConf n}

/-- What the rates say about the point after `k` iterations. -/
def Rates (c : Config ℝ n) (root : Vec ℝ n) (C : ℝ) (k : Nat) (x : Vec ℝ n) : Prop :=
  (c.params.method = .NewtonRaphson → C * ‖x - root‖ ≤ (C * ‖c.guess - root‖) ^ 2 ^ k) ∧
  (c.params.method = .QuasiNewton .StationaryNewton →
    ‖x - root‖ ≤ (C * ‖c.guess - root‖) ^ k * ‖c.guess - root‖)

theorem local_rates (hl : ContDiffAt ℝ 2 (fun x => (f x).left) root)
    (hr : ContDiffAt ℝ 2 (fun x => (f x).right) root)
    (hgl : ∀ᶠ x in 𝓝 root, HasFDerivAt (fun x => (f x).left) (asMap (g x).left) x)
    (hgr : ∀ᶠ x in 𝓝 root, HasFDerivAt (fun x => (f x).right) (asMap (g x).right) x)
    (hroot : (f root).left = (f root).right) (hdet : ((g root).left - (g root).right).det ≠ 0)
    (hupd : ∀ i, res.upd i ≠ .Abs → (f root).left i ≠ 0)
    (hstop : ∀ i, res.stop i = .Rel → (f root).left i ≠ 0)
    (hf : Computes m inv D f) (hg : Differentiates m inv f g) (hD : ∀ᶠ x in 𝓝 root, D x) {R : ℝ} (hR : 0 < R) :
    ∃ ρ > 0, ∃ C > 0, C * ρ ≤ 1 / 2 ∧ ∀ tol > 0, ∃ N, ∀ c : Config ℝ n, c.la.IsExact → c.res = res →
      (c.params.method = .NewtonRaphson ∨ c.params.method = .QuasiNewton .StationaryNewton) →
      (∀ i v d, |v - root i| < R → |d| < R → (c.iters i).stepLimitation v d = v + d) →
      ‖c.guess - root‖ < ρ → c.params.tolerance = tol → N ≤ c.params.maxIter →
      ∀ s, inv s → ∃ st' s' x, solve c m .new s = .ok (st', s', .ok ()) ∧ At m inv f s' x ∧
        ‖x - root‖ ≤ (1 / 2) ^ st'.iter * ‖c.guess - root‖ ∧ amax (errorsAt c f x) ≤ tol ∧
        Rates c root C st'.iter x := by
  have hrel : ∀ i, res.upd i = .Rel → (f root).left i ≠ 0 := fun i h => hupd i (by simp [h])
  have hsum : ∀ i, res.upd i ≠ .Abs → (f root).left i + (f root).right i ≠ 0 := by
    intro i h
    rw [← hroot, ← two_mul]
    exact mul_ne_zero two_ne_zero (hupd i h)
  have hF : ContDiffAt ℝ 2 (residualsOf res f) root := residualsOf_smooth hl hr hsum
  have h0 : residualsOf res f root = 0 := by
    funext i
    rw [residualsOf, ← hroot]
    cases res.upd i <;> simp [Spec.residual]
  have hsl := strict_near hl hgl
  have hsr := strict_near hr hgr
  set J := rootMatrix (fun i => weight (res.upd i) ((f root).left i)) ((g root).left - (g root).right) with hJ
  have hJdet : J.det ≠ 0 := rootMatrix_det (fun i => weight_pos (hrel i)) hdet
  obtain ⟨C, hC, δ1, hδ1, hstep⟩ := rate_step hF h0 hJdet
  have hsums : ∀ᶠ x in 𝓝 root, ∀ i, res.upd i ≠ .Abs → (f x).left i + (f x).right i ≠ 0 := by
    refine eventually_all.2 fun i => ?_
    by_cases h : res.upd i = .Abs
    · exact Eventually.of_forall fun x h' => absurd h h'
    · have hc : ContinuousAt (fun x => (f x).left i + (f x).right i) root :=
        ((continuous_apply i).continuousAt.comp hl.continuousAt).add
          ((continuous_apply i).continuousAt.comp hr.continuousAt)
      exact (hc.eventually_ne (hsum i h)).mono fun x hx _ => hx
  obtain ⟨δ2, hδ2, hball⟩ := Metric.eventually_nhds_iff.1 (hsl.and (hsr.and hsums))
  obtain ⟨ρ, hρ, δ, hδ, hδ0, hρδ, h⟩ := local_convergence (res := res) hsl.self_of_nhds hsr.self_of_nhds hroot hdet
    hrel hstop hf hD hR (δ0 := min (min δ1 δ2) (1 / (2 * C))) (lt_min (lt_min hδ1 hδ2) (by positivity))
    (fun _ _ => True) (fun _ y M => M = (g y).normalize (f y) res.upd) (by
      intro ε hε
      obtain ⟨δ, hδ, h⟩ := analytic_near (res := res) hl.continuousAt hr.continuousAt hroot hrel
        (jacobian_continuous hl hgl) (jacobian_continuous hr hgr) hε
      refine ⟨δ, hδ, ?_⟩
      rintro ρ hρ c rfl - x hx -
      exact ⟨0, _, .analytic g hg, rfl, fun i => by simpa using half_pos hε, h c rfl x (hx.trans_le hρ)⟩)
  have hd1 : δ ≤ δ1 := hδ0.trans ((min_le_left _ _).trans (min_le_left _ _))
  have hd2 : δ ≤ δ2 := hδ0.trans ((min_le_left _ _).trans (min_le_right _ _))
  have hd3 : δ ≤ 1 / (2 * C) := hδ0.trans (min_le_right _ _)
  refine ⟨ρ, hρ, C, hC, ?_, fun tol htol => ?_⟩
  · have : C * ρ ≤ C * (1 / (2 * C)) := mul_le_mul_of_nonneg_left (hρδ.trans hd3) hC.le
    rwa [show C * (1 / (2 * C)) = 1 / 2 by field_simp] at this
  obtain ⟨N, hN⟩ := h tol htol
  refine ⟨N, ?_⟩
  rintro c hL rfl hm hlim hguess ht hmax s hs
  refine hN c hL rfl hm hlim trivial hguess ht hmax (Rates c root C) ⟨fun _ => by simp, fun _ => by simp⟩ ?_ s hs
  rintro k x y M ⟨hq1, hq2⟩ hx hxg hy rfl hM hxy
  have hder : HasFDerivAt (residualsOf c.res f) (asMap ((g y).normalize (f y) c.res.upd)) y := by
    obtain ⟨a, b, d⟩ := hball (y := y) (by rw [dist_eq_norm]; linarith)
    exact normalize_deriv a b d
  have hrate := hstep x y _ (by linarith) (by linarith) hder fun i k => (hM i k).trans_le hd1
  rw [show residualsOf c.res f x = updateAt c f x from funext fun i => (evaluateUpdate_exact _ _ _).symm] at hrate
  have hx0 := norm_nonneg (x - root)
  have hg0 := norm_nonneg (c.guess - root)
  rcases hxy with ⟨hmeth, rfl⟩ | ⟨hmeth, rfl⟩
  · refine ⟨fun _ => ?_, fun h => by simp [hmeth] at h⟩
    have h2 := hq1 hmeth
    calc C * ‖y - ((g y).normalize (f y) c.res.upd)⁻¹ *ᵥ updateAt c f y - root‖
        ≤ C * (C * ((‖y - root‖ + ‖y - root‖) / 2) * ‖y - root‖) := mul_le_mul_of_nonneg_left hrate hC.le
      _ = (C * ‖y - root‖) ^ 2 := by ring
      _ ≤ ((C * ‖c.guess - root‖) ^ 2 ^ k) ^ 2 := pow_le_pow_left₀ (by positivity) h2 2
      _ = (C * ‖c.guess - root‖) ^ 2 ^ (k + 1) := by rw [← pow_mul, pow_succ]
  · refine ⟨fun h => by simp [hmeth] at h, fun _ => ?_⟩
    have h2 := hq2 hmeth
    refine hrate.trans ?_
    calc C * ((‖x - root‖ + ‖c.guess - root‖) / 2) * ‖x - root‖
        ≤ C * ‖c.guess - root‖ * ((C * ‖c.guess - root‖) ^ k * ‖c.guess - root‖) := by
          refine mul_le_mul (mul_le_mul_of_nonneg_left (by linarith) hC.le) h2 hx0 (by positivity)
      _ = _ := by rw [pow_succ]; ring

end

end Nrf
