import Verif.Proofs.Rate

/-!
# The rate of convergence with finite differences
-/

set_option linter.unusedSectionVars false

namespace Nrf
open Spec
open scoped Exact Topology
open Matrix Filter

variable {n : Nat}

/-- The difference quotients of `F`. -/
noncomputable def quotients (F : Vec ℝ n → Vec ℝ n) (x pert : Vec ℝ n) : Mat ℝ n :=
  fun i k => (F (x + Pi.single k (pert k)) i - F x i) / pert k

/-- One pass with the difference quotients at `x`, of steps at most `h`. -/
theorem rate_step_fd {F : Vec ℝ n → Vec ℝ n} {root : Vec ℝ n} (hF : ContDiffAt ℝ 2 F root) (h0 : F root = 0)
    {J : Mat ℝ n} (hJ : J.det ≠ 0) :
    ∃ C > 0, ∃ δ > 0, ∀ x pert h, ‖x - root‖ < δ → h < δ → (∀ k, pert k ≠ 0 ∧ |pert k| ≤ h) →
      (∀ i k, |quotients F x pert i k - J i k| < δ) →
      ‖x - (quotients F x pert)⁻¹ *ᵥ F x - root‖ ≤ C * (‖x - root‖ + h) * ‖x - root‖ := by
  obtain ⟨B, hB, δ1, hδ1, hinv⟩ := inverse_bounded hJ
  have h1 : ContDiffAt ℝ 1 (fderiv ℝ F) root := hF.fderiv_right (by norm_num)
  obtain ⟨K, t, ht, hlip⟩ := h1.exists_lipschitzOnWith
  have hdiff : ∀ᶠ z in 𝓝 root, DifferentiableAt ℝ F z :=
    (hF.eventually (by simp)).mono fun z hz => hz.differentiableAt (by simp)
  obtain ⟨δ2, hδ2, hball⟩ := Metric.eventually_nhds_iff.1 (hdiff.and ht)
  refine ⟨n * B * (2 * K + n * K) + 1, by positivity, min δ1 (δ2 / 2), lt_min hδ1 (by positivity), ?_⟩
  intro x pert h hx hh hpert hMJ
  have hx2 : ‖x - root‖ < δ2 / 2 := hx.trans_le (min_le_right δ1 _)
  have hh2 : h < δ2 / 2 := hh.trans_le (min_le_right δ1 _)
  set M := quotients F x pert with hM
  obtain ⟨hdet, hb⟩ := hinv M fun i k => (hMJ i k).trans_le (min_le_left _ _)
  have hxt := hball (y := x) (by rw [dist_eq_norm]; linarith)
  -- the derivative is Lipschitz between two points of the neighbourhood
  have hmean : ‖F x - F root - fderiv ℝ F x (x - root)‖ ≤ K * (2 * ‖x - root‖) * ‖x - root‖ := by
    refine (convex_closedBall root ‖x - root‖).norm_image_sub_le_of_norm_hasFDerivWithin_le'
      (f' := fderiv ℝ F) (fun z hz => ?_) (fun z hz => ?_) (Metric.mem_closedBall_self (norm_nonneg _)) ?_
    · have hz' : dist z root < δ2 := (Metric.mem_closedBall.1 hz).trans_lt (by linarith)
      exact (hball hz').1.hasFDerivAt.hasFDerivWithinAt
    · have hz0 : dist z root ≤ ‖x - root‖ := Metric.mem_closedBall.1 hz
      rw [← dist_eq_norm]
      refine (hlip.dist_le_mul z (hball (hz0.trans_lt (by linarith))).2 x hxt.2).trans ?_
      refine mul_le_mul_of_nonneg_left ?_ K.2
      refine (dist_triangle_right z x root).trans ?_
      rw [dist_eq_norm x]
      linarith
    · rw [Metric.mem_closedBall, dist_eq_norm]
  have hcol : ∀ k, ‖F (x + Pi.single k (pert k)) - F x - fderiv ℝ F x (Pi.single k (pert k))‖ ≤
      K * |pert k| * |pert k| := by
    intro k
    have hn : ‖(Pi.single k (pert k) : Vec ℝ n)‖ = |pert k| := by rw [Pi.norm_single]; rfl
    have hz1 : ∀ z ∈ Metric.closedBall x |pert k|, dist z root < δ2 := by
      intro z hz
      have h2 := dist_triangle z x root
      have h3 : dist z x ≤ |pert k| := Metric.mem_closedBall.1 hz
      have h4 := (hpert k).2
      rw [dist_eq_norm x] at h2
      linarith
    have := (convex_closedBall x |pert k|).norm_image_sub_le_of_norm_hasFDerivWithin_le' (f := F)
      (f' := fderiv ℝ F) (φ := fderiv ℝ F x) (C := K * |pert k|)
      (fun z hz => (hball (hz1 z hz)).1.hasFDerivAt.hasFDerivWithinAt)
      (fun z hz => by
        rw [← dist_eq_norm]
        exact (hlip.dist_le_mul z (hball (hz1 z hz)).2 x hxt.2).trans
          (mul_le_mul_of_nonneg_left (Metric.mem_closedBall.1 hz) K.2))
      (Metric.mem_closedBall_self (abs_nonneg _))
      (y := x + Pi.single k (pert k)) (by rw [Metric.mem_closedBall, dist_eq_norm, add_sub_cancel_left, hn])
    rw [add_sub_cancel_left, hn] at this
    exact this
  set A : Mat ℝ n := fun i k => fderiv ℝ F x (Pi.single k 1) i with hA
  have hAv : ∀ v, fderiv ℝ F x v = A *ᵥ v := by
    intro v
    funext i
    have e : v = ∑ k, v k • (Pi.single k 1 : Vec ℝ n) := by
      funext l
      simp [Finset.sum_apply, Pi.single_apply]
    conv_lhs => rw [e]
    rw [map_sum, Finset.sum_apply]
    change _ = ∑ k, A i k * v k
    refine Finset.sum_congr rfl fun k _ => ?_
    rw [map_smul, Pi.smul_apply, smul_eq_mul, mul_comm]
  have hMA : ∀ i k, |(A - M) i k| ≤ K * h := by
    intro i k
    obtain ⟨hne, hle⟩ := hpert k
    have h2 := (norm_le_pi_norm _ i).trans (hcol k)
    rw [hAv] at h2
    have h3 : |F (x + Pi.single k (pert k)) i - F x i - A i k * pert k| ≤ K * |pert k| * |pert k| := by
      have e : (A *ᵥ Pi.single k (pert k)) i = A i k * pert k := by
        rw [Matrix.mulVec_single]; rfl
      rw [← e]; exact h2
    have hpos := abs_pos.2 hne
    have e : (A - M) i k = -((F (x + Pi.single k (pert k)) i - F x i - A i k * pert k) / pert k) := by
      change A i k - (F (x + Pi.single k (pert k)) i - F x i) / pert k = _
      field_simp
      ring
    rw [e, abs_neg, abs_div, div_le_iff₀ hpos]
    refine h3.trans (mul_le_mul_of_nonneg_right (mul_le_mul_of_nonneg_left hle K.2) hpos.le)
  have hnn : 0 ≤ ‖x - root‖ := norm_nonneg _
  rcases Nat.eq_zero_or_pos n with rfl | hn
  · have hz : ∀ v : Vec ℝ 0, ‖v‖ = 0 := fun v => by rw [Subsingleton.elim v 0, norm_zero]
    rw [hz, hz]; simp
  have hh0 : 0 ≤ h := (abs_nonneg _).trans (hpert ⟨0, hn⟩).2
  have e : x - M⁻¹ *ᵥ F x - root = -(M⁻¹ *ᵥ (F x - F root - A *ᵥ (x - root) + (A - M) *ᵥ (x - root))) := by
    rw [h0, sub_zero, Matrix.sub_mulVec, sub_add_sub_cancel, Matrix.mulVec_sub, Matrix.mulVec_mulVec,
      Matrix.nonsing_inv_mul M (isUnit_iff_ne_zero.2 hdet), Matrix.one_mulVec]
    abel
  rw [hAv] at hmean
  have hsum : ‖F x - F root - A *ᵥ (x - root) + (A - M) *ᵥ (x - root)‖ ≤
      K * (2 * ‖x - root‖) * ‖x - root‖ + n * (K * h * ‖x - root‖) :=
    (norm_add_le _ _).trans (add_le_add hmean (mulVec_le hMA (le_refl _) (by positivity)))
  rw [e, norm_neg]
  refine (mulVec_le hb hsum hB.le).trans ?_
  have hK := K.2
  have e2 : (n : ℝ) * (B * (K * (2 * ‖x - root‖) * ‖x - root‖ + n * (K * h * ‖x - root‖))) =
      n * B * (2 * K * ‖x - root‖ + n * K * h) * ‖x - root‖ := by ring
  rw [e2]
  refine mul_le_mul_of_nonneg_right ?_ hnn
  have a1 : 0 ≤ (n : ℝ) * B * (2 * K) * h := by positivity
  have a2 : 0 ≤ (n : ℝ) * B * (n * K) * ‖x - root‖ := by positivity
  nlinarith

section
variable {EI EU S : Type} {m : UserModel ℝ n EI EU S} {inv : S → Prop} {D : Vec ℝ n → Prop}
variable {f : Vec ℝ n → ResidualsValues ℝ n} {g : Vec ℝ n → JacobianValues ℝ n} {root : Vec ℝ n}
variable {res : ResConf n}

/-- The perturbations are not zero and smaller than `ρ` near the root. -/
def SmallPerturbations (c : Config ℝ n) (root : Vec ℝ n) (ρ : ℝ) : Prop :=
  ∀ i, ∃ p, (c.iters i).computePerturbation = some p ∧ ∀ v, |v - root i| < ρ → p v ≠ 0 ∧ |p v| < ρ

theorem local_rate_fd (hl : ContDiffAt ℝ 2 (fun x => (f x).left) root)
    (hr : ContDiffAt ℝ 2 (fun x => (f x).right) root)
    (hgl : ∀ᶠ x in 𝓝 root, HasFDerivAt (fun x => (f x).left) (asMap (g x).left) x)
    (hgr : ∀ᶠ x in 𝓝 root, HasFDerivAt (fun x => (f x).right) (asMap (g x).right) x)
    (hroot : (f root).left = (f root).right) (hdet : ((g root).left - (g root).right).det ≠ 0)
    (hupd : ∀ i, res.upd i ≠ .Abs → (f root).left i ≠ 0)
    (hstop : ∀ i, res.stop i = .Rel → (f root).left i ≠ 0)
    (hf : Computes m inv D f) (hu : Underived m inv f) (hD : ∀ᶠ x in 𝓝 root, D x) {R : ℝ} (hR : 0 < R) :
    ∃ ρ > 0, ∃ C > 0, C * (2 * ρ) ≤ 1 / 2 ∧ ∀ tol > 0, ∃ N, ∀ c : Config ℝ n, c.la.IsExact → c.res = res →
      c.params.method = .NewtonRaphson →
      (∀ i v d, |v - root i| < R → |d| < R → (c.iters i).stepLimitation v d = v + d) →
      SmallPerturbations c root ρ →
      ‖c.guess - root‖ < ρ → c.params.tolerance = tol → N ≤ c.params.maxIter →
      ∀ h, (∀ i p v, (c.iters i).computePerturbation = some p → |v - root i| < ρ → |p v| ≤ h) →
      ∀ s, inv s → ∃ st' s' x, solve c m .new s = .ok (st', s', .ok ()) ∧ At m inv f s' x ∧
        ‖x - root‖ ≤ (C * (‖c.guess - root‖ + h)) ^ st'.iter * ‖c.guess - root‖ := by
  have hrel : ∀ i, res.upd i = .Rel → (f root).left i ≠ 0 := fun i h => hupd i (by simp [h])
  have hsum : ∀ i, res.upd i ≠ .Abs → (f root).left i + (f root).right i ≠ 0 := by
    intro i h
    rw [← hroot, ← two_mul]
    exact mul_ne_zero two_ne_zero (hupd i h)
  have hF : ContDiffAt ℝ 2 (residualsOf res f) root := residualsOf_smooth hl hr hsum
  have h0 : residualsOf res f root = 0 := by
    funext i
    rw [residualsOf, ← hroot]
    cases res.upd i <;> simp [Spec.residual]
  have hsl := strict_near hl hgl
  have hsr := strict_near hr hgr
  set J := rootMatrix (fun i => weight (res.upd i) ((f root).left i)) ((g root).left - (g root).right) with hJ
  have hJdet : J.det ≠ 0 := rootMatrix_det (fun i => weight_pos (hrel i)) hdet
  obtain ⟨C, hC, δ1, hδ1, hstep⟩ := rate_step_fd hF h0 hJdet
  have hquot : ∀ c : Config ℝ n, c.res = res → ∀ pert x, differencesAt c f pert x = quotients (residualsOf res f) x pert := by
    rintro c rfl pert x
    ext i k
    change Scalar.div (Scalar.sub _ _) _ = _
    rw [ex_div, ex_sub, moved_eq]
    unfold updateAt
    rw [evaluateUpdate_exact, evaluateUpdate_exact]
    rfl
  obtain ⟨ρ, hρ, δ, hδ, hδ0, hρδ, h⟩ := local_convergence (res := res) hsl.self_of_nhds hsr.self_of_nhds hroot hdet
    hrel hstop hf hD hR (δ0 := min (δ1 / 2) (1 / (4 * C))) (lt_min (half_pos hδ1) (by positivity))
    (fun c ρ => SmallPerturbations c root ρ)
    (fun c y M => ∃ pert, M = quotients (residualsOf res f) y pert ∧
      ∀ i, ∃ p, (c.iters i).computePerturbation = some p ∧ pert i = p (y i)) (by
      intro ε hε
      have hU : HasStrictFDerivAt (fun x => res.evaluateUpdate (f x)) _ root :=
        (residuals_strict hsl.self_of_nhds hsr.self_of_nhds hroot res.upd hrel).congr_of_eventuallyEq
          (Eventually.of_forall fun x => funext fun i => (evaluateUpdate_exact _ _ _).symm)
      obtain ⟨δ, hδ, h⟩ := differences_near hU hε
      refine ⟨min δ (ε / 2), lt_min hδ (half_pos hε), fun ρ hρ c hc hp x hx hDz => ?_⟩
      have hx' : ∀ i, |x i - root i| < ρ := fun i => (norm_le_pi_norm (x - root) i).trans_lt hx
      have hsome : ∀ i, (c.iters i).computePerturbation.isSome := by
        intro i
        obtain ⟨p, h1, -⟩ := hp i
        rw [h1]; rfl
      have hval : ∀ i, (c.iters i).computePerturbation.get (hsome i) (x i) ≠ 0 ∧
          |(c.iters i).computePerturbation.get (hsome i) (x i)| < ρ := by
        intro i
        obtain ⟨p, h1, h2⟩ := hp i
        have e : (c.iters i).computePerturbation.get (hsome i) = p := Option.get_of_eq_some _ h1
        rw [e]
        exact h2 _ (hx' i)
      refine ⟨fun i => (c.iters i).computePerturbation.get (hsome i) (x i), _, .fd hu ?_ (fun i => (hval i).1) ?_,
        ⟨fun i => (c.iters i).computePerturbation.get (hsome i) (x i), hquot c hc _ _, fun i => ⟨_, (Option.some_get (hsome i)).symm, rfl⟩⟩,
        fun i => (hval i).2.trans_le (hρ.trans (min_le_right _ _)),
        h c hc x _ (hx.trans_le (hρ.trans (min_le_left _ _))) fun i =>
          ⟨(hval i).1, (hval i).2.trans_le (hρ.trans (min_le_left _ _))⟩⟩
      · unfold computePerturbations
        rw [dif_pos hsome]
      · intro i
        apply hDz
        rw [moved_eq, show x + Pi.single i ((c.iters i).computePerturbation.get (hsome i) (x i)) - root =
          (x - root) + Pi.single i ((c.iters i).computePerturbation.get (hsome i) (x i)) by abel]
        refine (norm_add_le _ _).trans_lt ?_
        rw [Pi.norm_single, Real.norm_eq_abs]
        have h1 := hρ.trans (min_le_right _ _)
        have h2 := (hval i).2
        linarith)
  have hd1' : δ ≤ δ1 / 2 := hδ0.trans (min_le_left _ _)
  have hd1 : δ ≤ δ1 := by linarith
  have hd3 : δ ≤ 1 / (4 * C) := hδ0.trans (min_le_right _ _)
  refine ⟨ρ, hρ, C, hC, ?_, fun tol htol => ?_⟩
  · have : C * (2 * ρ) ≤ C * (2 * (1 / (4 * C))) := mul_le_mul_of_nonneg_left (by linarith) hC.le
    rwa [show C * (2 * (1 / (4 * C))) = 1 / 2 by field_simp; norm_num] at this
  obtain ⟨N, hN⟩ := h tol htol
  refine ⟨N, ?_⟩
  rintro c hL rfl hm hlim hok hguess ht hmax b hb s hs
  obtain ⟨st', s', x, g1, g2, -, -, g5⟩ := hN c hL rfl (.inl hm) hlim hok hguess ht hmax
    (fun k x => ‖x - root‖ ≤ (C * (‖c.guess - root‖ + b)) ^ k * ‖c.guess - root‖) (by simp) (by
      rintro k x y M hq hx hxg hy ⟨pert, rfl, hpert⟩ hM hxy
      rcases hxy with ⟨-, rfl⟩ | ⟨h', -⟩
      swap
      · rw [hm] at h'; cases h'
      have hy' : ∀ i, |y i - root i| < ρ := fun i => (norm_le_pi_norm (y - root) i).trans_lt hy
      have hpb : ∀ i, pert i ≠ 0 ∧ |pert i| ≤ min b ρ := by
        intro i
        obtain ⟨p, h1, h2⟩ := hpert i
        obtain ⟨p', h1', h2'⟩ := hok i
        obtain rfl : p = p' := by rw [h1] at h1'; exact Option.some.inj h1'
        rw [h2]
        exact ⟨(h2' _ (hy' i)).1, le_min (hb i p _ h1 (hy' i)) (h2' _ (hy' i)).2.le⟩
      rcases Nat.eq_zero_or_pos n with rfl | hn
      · have hz : ∀ v : Vec ℝ 0, ‖v‖ = 0 := fun v => by rw [Subsingleton.elim v 0, norm_zero]
        rw [hz, hz]; simp
      have hb0 : 0 ≤ min b ρ := (abs_nonneg _).trans (hpb ⟨0, hn⟩).2
      have hb0' : 0 ≤ b := hb0.trans (min_le_left _ _)
      have hbρ : min b ρ < δ1 := (min_le_right b ρ).trans_lt (by linarith)
      have hrate := hstep y pert (min b ρ) (by linarith) hbρ hpb fun i k => (hM i k).trans_le hd1
      rw [show residualsOf c.res f y = updateAt c f y from funext fun i => (evaluateUpdate_exact _ _ _).symm] at hrate
      refine hrate.trans ?_
      have hg0 := norm_nonneg (c.guess - root)
      calc C * (‖y - root‖ + min b ρ) * ‖y - root‖
          ≤ C * (‖c.guess - root‖ + b) * ((C * (‖c.guess - root‖ + b)) ^ k * ‖c.guess - root‖) := by
            refine mul_le_mul (mul_le_mul_of_nonneg_left (add_le_add hxg (min_le_left _ _)) hC.le) hq (norm_nonneg _) (by positivity)
        _ = _ := by rw [pow_succ]; ring) s hs
  exact ⟨st', s', x, g1, g2, g5⟩

end
end Nrf
