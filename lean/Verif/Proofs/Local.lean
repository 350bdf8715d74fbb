import Verif.Proofs.FollowExact
import Verif.Proofs.Calculus
import Mathlib.Topology.Algebra.Module.FiniteDimension
import Mathlib.Topology.Instances.Matrix
import Mathlib.Analysis.Calculus.FDeriv.Equiv

/-!
# The local analysis of Newton steps
-/

set_option linter.unusedSectionVars false

namespace Nrf
open Spec
open scoped Exact Topology
open Matrix Filter

variable {n : Nat}

/-- The positive factor between the difference of two sides and their residual. -/
noncomputable def weight : NormalizationMethod → ℝ → ℝ
  | .Abs, _ => 1
  | .Rel, a => 1 / |a|
  | .Adapt, a => 1 / (1 + |a|)

theorem weight_pos {meth : NormalizationMethod} {a : ℝ} (h : meth = .Rel → a ≠ 0) :
    0 < weight meth a := by
  cases meth
  · exact one_pos
  · exact one_div_pos.2 (abs_pos.2 (h rfl))
  · have := abs_nonneg a
    change 0 < 1 / (1 + |a|)
    positivity

/-- The code's derivative of a residual at equal sides. -/
theorem derivNormalization_equal {meth : NormalizationMethod} {a : ℝ} (h : meth = .Rel → a ≠ 0) (dl dr : ℝ) :
    derivNormalization a a dl dr meth = weight meth a * (dl - dr) := by
  cases meth
  · change dl - dr = 1 * (dl - dr); ring
  · have ha := h rfl
    change 2 * ((dl - dr) * |a + a| - (dl + dr) * (a - a) * Scalar.signum (a + a)) / ((a + a) * (a + a)) =
      1 / |a| * (dl - dr)
    rw [← abs_mul_abs_self (a + a), ← two_mul, abs_mul, abs_two]
    have := abs_ne_zero.2 ha
    field_simp
    ring
  · change ((dl - dr) * (1 + |(a + a) / 2|) - (dl + dr) / 2 * Scalar.signum ((a + a) / 2) * (a - a)) /
        ((1 + |(a + a) / 2|) * (1 + |(a + a) / 2|)) = 1 / (1 + |a|) * (dl - dr)
    rw [show (a + a) / 2 = a by ring]
    have : (1 + |a|) ≠ 0 := by have := abs_nonneg a; positivity
    field_simp
    ring

private theorem adapt_lip (s t : ℝ) : |1 / (1 + |s| / 2) - 1 / (1 + |t| / 2)| ≤ |s - t| / 2 := by
  have hs := abs_nonneg s
  have ht := abs_nonneg t
  have h1 : 0 < 1 + |s| / 2 := by positivity
  have h2 : 0 < 1 + |t| / 2 := by positivity
  rw [div_sub_div _ _ h1.ne' h2.ne', abs_div, abs_of_pos (mul_pos h1 h2), div_le_iff₀ (mul_pos h1 h2)]
  have h3 : |1 * (1 + |t| / 2) - (1 + |s| / 2) * 1| ≤ |s - t| / 2 := by
    rw [show 1 * (1 + |t| / 2) - (1 + |s| / 2) * 1 = (|t| - |s|) / 2 by ring, abs_div, abs_two]
    have := abs_abs_sub_abs_le_abs_sub t s
    rw [abs_sub_comm t s] at this
    linarith
  refine h3.trans (le_mul_of_one_le_right (by positivity) ?_)
  nlinarith [mul_nonneg hs ht]

/-- The residual is strictly differentiable at equal sides. -/
theorem residual_strict (meth : NormalizationMethod) {a : ℝ} (h : meth = .Rel → a ≠ 0) :
    HasStrictFDerivAt (fun p : ℝ × ℝ => Spec.residual meth p.1 p.2)
      (weight meth a • (ContinuousLinearMap.fst ℝ ℝ ℝ - ContinuousLinearMap.snd ℝ ℝ ℝ)) (a, a) := by
  by_cases ha : meth ≠ .Abs → a + a ≠ 0
  · obtain ⟨D, hD, hv⟩ := strict_residual (E := ℝ × ℝ) (x := (a, a)) hasStrictFDerivAt_fst
      hasStrictFDerivAt_snd meth ha
    refine hD.congr_fderiv ?_
    ext <;>
    · simp only [ContinuousLinearMap.comp_apply]
      rw [hv]
      change derivNormalization a a _ _ meth = _
      rw [derivNormalization_equal h]
      simp
  · obtain ⟨h1, h2⟩ := Classical.not_imp.1 ha
    have h0 : a = 0 := by push Not at h2; linarith
    subst h0
    cases meth with
    | Abs => exact absurd rfl h1
    | Rel => exact absurd rfl (h rfl)
    | Adapt =>
      have hw : weight .Adapt 0 = 1 := by simp [weight]
      rw [hw, one_smul]
      refine HasStrictFDerivAt.of_isLittleO ?_
      refine Asymptotics.isLittleO_iff.2 fun ε hε => ?_
      have hnear : ∀ᶠ q : (ℝ × ℝ) × (ℝ × ℝ) in 𝓝 ((0, 0), (0, 0)), ‖q‖ < ε / 4 := by
        have := Metric.ball_mem_nhds ((0, 0) : (ℝ × ℝ) × (ℝ × ℝ)) (show 0 < ε / 4 by positivity)
        filter_upwards [this] with q hq
        rw [← dist_zero_right]
        exact hq
      filter_upwards [hnear] with q hq
      obtain ⟨⟨a, b⟩, ⟨c, d⟩⟩ := q
      set N := max |a - c| |b - d| with hN
      have hnorm : ‖((a, b) : ℝ × ℝ) - (c, d)‖ = N := by simp [Prod.norm_def, hN]
      rw [Prod.norm_def] at hq
      obtain ⟨hp, hq⟩ := max_lt_iff.1 hq
      rw [Prod.norm_def] at hp hq
      obtain ⟨ha, hb⟩ := max_lt_iff.1 hp
      obtain ⟨hc, hd⟩ := max_lt_iff.1 hq
      simp only [Real.norm_eq_abs] at ha hb hc hd
      change ‖(a - b) / (1 + |a + b| / 2) - (c - d) / (1 + |c + d| / 2) - ((a - c) - (b - d))‖ ≤ ε * ‖((a, b) : ℝ × ℝ) - (c, d)‖
      rw [hnorm]
      have e : (a - b) / (1 + |a + b| / 2) - (c - d) / (1 + |c + d| / 2) - ((a - c) - (b - d)) =
          ((a - c) - (b - d)) * (1 / (1 + |a + b| / 2) - 1 / (1 + |(0 : ℝ)| / 2)) +
          (c - d) * (1 / (1 + |a + b| / 2) - 1 / (1 + |c + d| / 2)) := by
        simp
        ring
      rw [e]
      have h1 := adapt_lip (a + b) 0
      have h2 := adapt_lip (a + b) (c + d)
      have hN1 : |a - c| ≤ N := le_max_left _ _
      have hN2 : |b - d| ≤ N := le_max_right _ _
      have hN0 : 0 ≤ N := (abs_nonneg _).trans hN1
      have h3 : |(a - c) - (b - d)| ≤ 2 * N := (abs_sub _ _).trans (by linarith)
      have h4 : |c - d| ≤ ε / 2 := (abs_sub _ _).trans (by linarith)
      have h5 : |a + b - 0| ≤ ε / 2 := by rw [sub_zero]; exact (abs_add_le _ _).trans (by linarith)
      have h6 : |a + b - (c + d)| ≤ 2 * N := by
        rw [show a + b - (c + d) = (a - c) + (b - d) by ring]
        exact (abs_add_le _ _).trans (by linarith)
      rw [Real.norm_eq_abs]
      refine (abs_add_le _ _).trans ?_
      rw [abs_mul, abs_mul]
      have g1 := mul_le_mul h3 (h1.trans (div_le_div_of_nonneg_right h5 zero_le_two)) (abs_nonneg _) (by positivity)
      have g2 := mul_le_mul h4 (h2.trans (div_le_div_of_nonneg_right h6 zero_le_two)) (abs_nonneg _) (by positivity)
      nlinarith

/-- The matrix of the update (or stopping) residuals at a root. -/
noncomputable def rootMatrix (w : Vec ℝ n) (A : Mat ℝ n) : Mat ℝ n := Matrix.diagonal w * A

theorem rootMatrix_det {w : Vec ℝ n} (hw : ∀ i, 0 < w i) {A : Mat ℝ n} (hA : A.det ≠ 0) :
    (rootMatrix w A).det ≠ 0 := by
  rw [rootMatrix, Matrix.det_mul, Matrix.det_diagonal]
  exact mul_ne_zero (Finset.prod_ne_zero_iff.2 fun i _ => (hw i).ne') hA

/-- A matrix as a continuous linear map. -/
noncomputable abbrev asMap (A : Mat ℝ n) : Vec ℝ n →L[ℝ] Vec ℝ n :=
  LinearMap.toContinuousLinearMap (Matrix.mulVecLin A)

theorem residuals_strict {f : Vec ℝ n → ResidualsValues ℝ n} {root : Vec ℝ n} {AL AR : Mat ℝ n}
    (hl : HasStrictFDerivAt (fun x => (f x).left) (asMap AL) root)
    (hr : HasStrictFDerivAt (fun x => (f x).right) (asMap AR) root)
    (hroot : (f root).left = (f root).right) (meth : Fin n → NormalizationMethod)
    (hrel : ∀ i, meth i = .Rel → (f root).left i ≠ 0) :
    HasStrictFDerivAt (fun x i => Spec.residual (meth i) ((f x).left i) ((f x).right i))
      (asMap (rootMatrix (fun i => weight (meth i) ((f root).left i)) (AL - AR))) root := by
  refine hasStrictFDerivAt_pi'.2 fun i => ?_
  have hli := hasStrictFDerivAt_pi'.1 hl i
  have hri := hasStrictFDerivAt_pi'.1 hr i
  have h1 := residual_strict (meth i) (hrel i)
  have h2 : HasStrictFDerivAt (fun x => ((f x).left i, (f x).right i)) _ root := hli.prodMk hri
  have h3 : ((f root).left i, (f root).right i) = ((f root).left i, (f root).left i) := by
    rw [← hroot]
  have h4 := HasStrictFDerivAt.comp root (by rw [h3]; exact h1) h2
  refine h4.congr_fderiv ?_
  ext v
  simp [rootMatrix, Matrix.mulVec_diagonal]

/-! ### Matrices close to an invertible one -/

theorem mulVec_le {M : Mat ℝ n} {v : Vec ℝ n} {b t : ℝ} (hM : ∀ i k, |M i k| ≤ b) (hv : ‖v‖ ≤ t)
    (hb : 0 ≤ b) : ‖M *ᵥ v‖ ≤ n * (b * t) := by
  have ht : 0 ≤ t := (norm_nonneg _).trans hv
  refine (pi_norm_le_iff_of_nonneg (by positivity)).2 fun i => ?_
  change ‖∑ k, M i k * v k‖ ≤ _
  refine (norm_sum_le _ _).trans ?_
  refine (Finset.sum_le_card_nsmul Finset.univ _ (b * t) fun k _ => ?_).trans (by simp)
  rw [norm_mul]
  exact mul_le_mul (hM i k) ((norm_le_pi_norm v k).trans hv) (norm_nonneg _) hb

theorem continuous_entry (i k : Fin n) : Continuous fun M : Mat ℝ n => M i k :=
  (continuous_apply k).comp (continuous_apply i)

/-- Near an invertible matrix all matrices are invertible with bounded inverses. -/
theorem inverse_bounded {J : Mat ℝ n} (hJ : J.det ≠ 0) :
    ∃ B > 0, ∃ δ > 0, ∀ M : Mat ℝ n, (∀ i k, |M i k - J i k| < δ) →
      M.det ≠ 0 ∧ ∀ i k, |M⁻¹ i k| ≤ B := by
  have hdet : ∀ᶠ M : Mat ℝ n in 𝓝 J, M.det ≠ 0 :=
    (Continuous.matrix_det continuous_id).continuousAt.eventually_ne hJ
  have hinv : ContinuousAt (fun M : Mat ℝ n => (M.det)⁻¹ • M.adjugate) J :=
    ContinuousAt.smul (ContinuousAt.inv₀ (Continuous.matrix_det continuous_id).continuousAt hJ)
      (Continuous.matrix_adjugate continuous_id).continuousAt
  have hbd : ∀ᶠ M : Mat ℝ n in 𝓝 J, ∀ i k, |((M.det)⁻¹ • M.adjugate) i k| ≤
      |((J.det)⁻¹ • J.adjugate) i k| + 1 := by
    refine eventually_all.2 fun i => eventually_all.2 fun k => ?_
    have h1 : ContinuousAt (fun M : Mat ℝ n => |((M.det)⁻¹ • M.adjugate) i k|) J :=
      ((continuous_entry i k).continuousAt.comp hinv).abs
    filter_upwards [h1.eventually (gt_mem_nhds (lt_add_one _))] with M hM using hM.le
  have hboth := hdet.and hbd
  obtain ⟨B, hB0, hB⟩ : ∃ B > 0, ∀ i k, |((J.det)⁻¹ • J.adjugate) i k| + 1 ≤ B := by
    refine ⟨∑ i, ∑ k, (|((J.det)⁻¹ • J.adjugate) i k| + 1) + 1, by positivity, fun i k => ?_⟩
    have h1 := Finset.single_le_sum (f := fun k => |((J.det)⁻¹ • J.adjugate) i k| + 1)
      (fun k _ => by positivity) (Finset.mem_univ k)
    have h2 := Finset.single_le_sum (f := fun i => ∑ k, (|((J.det)⁻¹ • J.adjugate) i k| + 1))
      (fun k _ => by positivity) (Finset.mem_univ i)
    linarith
  obtain ⟨P, hP⟩ : ∃ P : (Fin n → Fin n → ℝ) → Prop, P = fun M => Matrix.det (Matrix.of M) ≠ 0 ∧ ∀ i k,
    |((Matrix.det (Matrix.of M))⁻¹ • Matrix.adjugate (Matrix.of M)) i k| ≤
      |((J.det)⁻¹ • J.adjugate) i k| + 1 := ⟨_, rfl⟩
  have hboth' : ∀ᶠ M : Fin n → Fin n → ℝ in 𝓝 (Matrix.of.symm J), P M := by rw [hP]; exact hboth
  obtain ⟨δ, hδ, hball⟩ := Metric.eventually_nhds_iff.1 hboth'
  refine ⟨B, hB0, δ, hδ, fun M hM => ?_⟩
  have := hball (y := Matrix.of.symm M) ((dist_pi_lt_iff hδ).2 fun i => (dist_pi_lt_iff hδ).2 fun k => by
    rw [Real.dist_eq]; exact hM i k)
  rw [hP] at this
  refine ⟨this.1, fun i k => ?_⟩
  rw [Matrix.inv_def, Ring.inverse_eq_inv']
  exact (this.2 i k).trans (hB i k)

/-- A step with a matrix close to the derivative contracts towards the root. -/
theorem newton_contracts {U : Vec ℝ n → Vec ℝ n} {J : Mat ℝ n} {root : Vec ℝ n}
    (hU : HasFDerivAt U (asMap J) root) (h0 : U root = 0) (hJ : J.det ≠ 0) {η : ℝ} (hη : 0 < η) :
    ∃ δ > 0, ∀ M : Mat ℝ n, (∀ i k, |M i k - J i k| < δ) →
      M.det ≠ 0 ∧ ∀ x, ‖x - root‖ < δ → ‖x - M⁻¹ *ᵥ U x - root‖ ≤ η * ‖x - root‖ := by
  obtain ⟨B, hB0, δ1, hδ1, hinv⟩ := inverse_bounded hJ
  set ε := η / (n * B * (n + 1) + 1) with hε
  have hpos : 0 < n * B * ((n : ℝ) + 1) + 1 := by positivity
  have hε0 : 0 < ε := div_pos hη hpos
  have h1 := Asymptotics.isLittleO_iff.1 hU.isLittleO hε0
  obtain ⟨δ2, hδ2, hball⟩ := Metric.eventually_nhds_iff.1 h1
  refine ⟨min δ1 (min δ2 ε), lt_min hδ1 (lt_min hδ2 hε0), fun M hM => ?_⟩
  obtain ⟨hdet, hbd⟩ := hinv M fun i k => (hM i k).trans_le (min_le_left _ _)
  refine ⟨hdet, fun x hx => ?_⟩
  have hU2 := hball (y := x) (by
    rw [dist_eq_norm]; exact hx.trans_le ((min_le_right _ _).trans (min_le_left _ _)))
  rw [h0, sub_zero] at hU2
  have e : x - M⁻¹ *ᵥ U x - root = M⁻¹ *ᵥ ((M - J) *ᵥ (x - root) - (U x - J *ᵥ (x - root))) := by
    rw [Matrix.sub_mulVec, sub_sub_sub_cancel_right, Matrix.mulVec_sub, Matrix.mulVec_mulVec,
      ex_inv_mul hdet, Matrix.one_mulVec]
    abel
  rw [e]
  have h2 : ‖(M - J) *ᵥ (x - root)‖ ≤ n * (ε * ‖x - root‖) :=
    mulVec_le (fun i k => ((hM i k).trans_le ((min_le_right _ _).trans (min_le_right _ _))).le) (le_refl _) hε0.le
  have h3 : ‖(M - J) *ᵥ (x - root) - (U x - J *ᵥ (x - root))‖ ≤ (n + 1) * (ε * ‖x - root‖) := by
    refine (norm_sub_le _ _).trans ?_
    have : ‖U x - J *ᵥ (x - root)‖ ≤ ε * ‖x - root‖ := hU2
    linarith
  refine (mulVec_le hbd h3 hB0.le).trans ?_
  have h4 : ε * (n * B * (n + 1)) ≤ η := by
    rw [hε, div_mul_eq_mul_div, div_le_iff₀ hpos]
    nlinarith [hη]
  calc (n : ℝ) * (B * ((n + 1) * (ε * ‖x - root‖))) = (ε * (n * B * (n + 1))) * ‖x - root‖ := by ring
    _ ≤ _ := mul_le_mul_of_nonneg_right h4 (norm_nonneg _)

/-- The size of the residuals measures the distance to the root. -/
theorem residual_size {U : Vec ℝ n → Vec ℝ n} {J : Mat ℝ n} {root : Vec ℝ n}
    (hU : HasFDerivAt U (asMap J) root) (h0 : U root = 0) (hJ : J.det ≠ 0) :
    ∃ a > 0, ∃ b > 0, ∃ δ > 0, ∀ x, ‖x - root‖ < δ →
      a * ‖x - root‖ ≤ ‖U x‖ ∧ ‖U x‖ ≤ b * ‖x - root‖ := by
  obtain ⟨δ, hδ, h⟩ := newton_contracts hU h0 hJ (η := 1 / 2) (by norm_num)
  obtain ⟨-, h1⟩ := h J fun i k => by simpa using hδ
  have h2 := Asymptotics.isLittleO_iff.1 hU.isLittleO one_pos
  obtain ⟨δ2, hδ2, hball⟩ := Metric.eventually_nhds_iff.1 h2
  set b := ∑ i, ∑ k, |J i k| + 1 with hb
  set B := ∑ i, ∑ k, |J⁻¹ i k| + 1 with hB
  have hentry : ∀ (M : Mat ℝ n) (i k : Fin n), |M i k| ≤ ∑ i, ∑ k, |M i k| + 1 := by
    intro M i k
    have h1 := Finset.single_le_sum (f := fun k => |M i k|) (fun k _ => abs_nonneg _) (Finset.mem_univ k)
    have h2 := Finset.single_le_sum (f := fun i => ∑ k, |M i k|)
      (fun k _ => Finset.sum_nonneg fun _ _ => abs_nonneg _) (Finset.mem_univ i)
    linarith
  have hb0 : 0 < b := by positivity
  have hB0 : 0 < B := by positivity
  refine ⟨1 / (2 * ((n + 1) * B)), by positivity, n * b + 1, by positivity, min δ δ2, lt_min hδ hδ2, fun x hx => ?_⟩
  constructor
  · have h3 := h1 x (hx.trans_le (min_le_left _ _))
    have h4 : ‖x - root‖ ≤ ‖x - J⁻¹ *ᵥ U x - root‖ + ‖J⁻¹ *ᵥ U x‖ := by
      refine le_trans (le_of_eq ?_) (norm_add_le _ _)
      congr 1; abel
    have h5 := mulVec_le (M := J⁻¹) (hentry _) (le_refl ‖U x‖) hB0.le
    rw [div_mul_eq_mul_div, one_mul, div_le_iff₀ (by positivity)]
    have h6 := mul_nonneg hB0.le (norm_nonneg (U x))
    nlinarith
  · have h3 := hball (y := x) (by rw [dist_eq_norm]; exact hx.trans_le (min_le_right _ _))
    rw [h0, sub_zero, one_mul] at h3
    have h3 : ‖U x - J *ᵥ (x - root)‖ ≤ ‖x - root‖ := h3
    have h4 : ‖U x‖ ≤ ‖U x - J *ᵥ (x - root)‖ + ‖J *ᵥ (x - root)‖ := by
      refine le_trans (le_of_eq ?_) (norm_add_le _ _)
      congr 1; abel
    have h5 := mulVec_le (M := J) (hentry _) (le_refl ‖x - root‖) hb0.le
    linarith

/-! ### The computed matrices are close to the derivative -/

theorem differences_near {res : ResConf n} {f : Vec ℝ n → ResidualsValues ℝ n} {J : Mat ℝ n} {root : Vec ℝ n}
    (hU : HasStrictFDerivAt (fun x => res.evaluateUpdate (f x)) (asMap J) root) {ε : ℝ} (hε : 0 < ε) :
    ∃ δ > 0, ∀ c : Config ℝ n, c.res = res → ∀ x pert : Vec ℝ n, ‖x - root‖ < δ →
      (∀ i, pert i ≠ 0 ∧ |pert i| < δ) → ∀ i k, |differencesAt c f pert x i k - J i k| < ε := by
  have h1 := Asymptotics.isLittleO_iff.1 hU.isLittleO (half_pos hε)
  obtain ⟨δ, hδ, hball⟩ := Metric.eventually_nhds_iff.1 h1
  refine ⟨δ / 2, half_pos hδ, ?_⟩
  rintro c rfl x pert hx hp i k
  obtain ⟨hne, hlt⟩ := hp k
  have hm : moved x k (pert k) - x = Pi.single k (pert k) := by rw [moved_eq]; abel
  have hn : ‖moved x k (pert k) - x‖ = |pert k| := by rw [hm, Pi.norm_single]; rfl
  have h2 := hball (y := (moved x k (pert k), x)) (by
    rw [Prod.dist_eq, max_lt_iff, dist_eq_norm, dist_eq_norm]
    refine ⟨?_, hx.trans (by linarith)⟩
    calc ‖moved x k (pert k) - root‖ = ‖(moved x k (pert k) - x) + (x - root)‖ := by congr 1; abel
      _ ≤ _ := norm_add_le _ _
      _ < δ := by rw [hn]; linarith)
  dsimp only at h2
  rw [hn] at h2
  have h3 := (norm_le_pi_norm _ i).trans h2
  have h4 : (asMap J (moved x k (pert k) - x)) i = J i k * pert k := by
    rw [hm]
    change (J *ᵥ Pi.single k (pert k)) i = _
    rw [Matrix.mulVec_single]; rfl
  have e : differencesAt c f pert x i k - J i k =
      (updateAt c f (moved x k (pert k)) i - updateAt c f x i - J i k * pert k) / pert k := by
    unfold differencesAt
    rw [ex_div, ex_sub, eq_div_iff hne, sub_mul, div_mul_cancel₀ _ hne]
  rw [e, abs_div, div_lt_iff₀ (abs_pos.2 hne)]
  have h5 : |updateAt c f (moved x k (pert k)) i - updateAt c f x i - J i k * pert k| ≤ ε / 2 * |pert k| := by
    rw [← h4]; exact h3
  have := mul_pos hε (abs_pos.2 hne)
  linarith

private theorem tendsto_deriv {α : Type} {F : Filter α} {l r dl dr : α → ℝ} {a p q : ℝ}
    (meth : NormalizationMethod) (h : meth = .Rel → a ≠ 0)
    (hl : Tendsto l F (𝓝 a)) (hr : Tendsto r F (𝓝 a)) (hdl : Tendsto dl F (𝓝 p)) (hdr : Tendsto dr F (𝓝 q)) :
    Tendsto (fun x => derivNormalization (l x) (r x) (dl x) (dr x) meth) F (𝓝 (weight meth a * (p - q))) := by
  have hdiff : Tendsto (fun x => l x - r x) F (𝓝 0) := by simpa using hl.sub hr
  have hsg : ∀ s : α → ℝ, Tendsto (fun x => Scalar.signum (s x) * (l x - r x)) F (𝓝 0) := by
    intro s
    refine squeeze_zero_norm (fun x => ?_) (by simpa using hdiff.abs)
    rw [norm_mul, ex_signum]
    refine (mul_le_of_le_one_left (norm_nonneg _) ?_).trans (le_of_eq (Real.norm_eq_abs _))
    split <;> simp
  cases meth
  · refine (hdl.sub hdr).congr' ?_ |>.trans (by simp [weight])
    exact Eventually.of_forall fun x => rfl
  · have ha := h rfl
    have h1 := ((((hdl.sub hdr).mul (hl.add hr).abs).sub ((hdl.add hdr).mul (hsg fun x => l x + r x))).const_mul 2).div
      ((hl.add hr).mul (hl.add hr)) (mul_ne_zero (by intro h; apply ha; linarith) (by intro h; apply ha; linarith))
    have e : 2 * ((p - q) * |a + a| - (p + q) * 0) / ((a + a) * (a + a)) = weight .Rel a * (p - q) := by
      change _ = 1 / |a| * (p - q)
      rw [← abs_mul_abs_self (a + a), ← two_mul a, abs_mul, abs_two]
      have := abs_ne_zero.2 ha
      field_simp
      ring
    rw [e] at h1
    refine h1.congr fun x => ?_
    change 2 * ((dl x - dr x) * |l x + r x| - (dl x + dr x) * (Scalar.signum (l x + r x) * (l x - r x))) /
        ((l x + r x) * (l x + r x)) =
      2 * ((dl x - dr x) * |l x + r x| - (dl x + dr x) * (l x - r x) * Scalar.signum (l x + r x)) /
        ((l x + r x) * (l x + r x))
    congr 2
    ring
  · have hA : Tendsto (fun x => 1 + |(l x + r x) / 2|) F (𝓝 (1 + |(a + a) / 2|)) :=
      ((hl.add hr).div_const 2).abs.const_add 1
    have hne : 1 + |(a + a) / 2| ≠ 0 := by have := abs_nonneg ((a + a) / 2); positivity
    have h1 := (((hdl.sub hdr).mul hA).sub (((hdl.add hdr).div_const 2).mul (hsg fun x => (l x + r x) / 2))).div
      (hA.mul hA) (mul_ne_zero hne hne)
    have e : ((p - q) * (1 + |(a + a) / 2|) - (p + q) / 2 * 0) / ((1 + |(a + a) / 2|) * (1 + |(a + a) / 2|)) =
        weight .Adapt a * (p - q) := by
      change _ = 1 / (1 + |a|) * (p - q)
      rw [show (a + a) / 2 = a by ring] at hne ⊢
      field_simp
      ring
    rw [e] at h1
    refine h1.congr fun x => ?_
    change ((dl x - dr x) * (1 + |(l x + r x) / 2|) -
          (dl x + dr x) / 2 * (Scalar.signum ((l x + r x) / 2) * (l x - r x))) / _ =
      ((dl x - dr x) * (1 + |(l x + r x) / 2|) -
          (dl x + dr x) / 2 * Scalar.signum ((l x + r x) / 2) * (l x - r x)) / _
    congr 2
    ring

theorem analytic_near {res : ResConf n} {f : Vec ℝ n → ResidualsValues ℝ n} {g : Vec ℝ n → JacobianValues ℝ n}
    {root : Vec ℝ n}
    (hl : ContinuousAt (fun x => (f x).left) root) (hr : ContinuousAt (fun x => (f x).right) root)
    (hroot : (f root).left = (f root).right) (hrel : ∀ i, res.upd i = .Rel → (f root).left i ≠ 0)
    (hgl : ContinuousAt (fun x => (g x).left) root) (hgr : ContinuousAt (fun x => (g x).right) root)
    {ε : ℝ} (hε : 0 < ε) :
    ∃ δ > 0, ∀ c : Config ℝ n, c.res = res → ∀ x : Vec ℝ n, ‖x - root‖ < δ → ∀ i k, |analyticAt c f g x i k -
      rootMatrix (fun i => weight (res.upd i) ((f root).left i)) ((g root).left - (g root).right) i k| < ε := by
  have h : ∀ᶠ x in 𝓝 root, ∀ i k, |(g x).normalize (f x) res.upd i k -
      rootMatrix (fun i => weight (res.upd i) ((f root).left i)) ((g root).left - (g root).right) i k| < ε := by
    refine eventually_all.2 fun i => eventually_all.2 fun k => ?_
    have h1 : Tendsto (fun x => (f x).left i) (𝓝 root) (𝓝 ((f root).left i)) :=
      (continuous_apply i).continuousAt.tendsto.comp hl
    have h2 : Tendsto (fun x => (f x).right i) (𝓝 root) (𝓝 ((f root).left i)) := by
      rw [hroot]; exact (continuous_apply i).continuousAt.tendsto.comp hr
    have h3 : Tendsto (fun x => (g x).left i k) (𝓝 root) (𝓝 ((g root).left i k)) :=
      (continuous_entry i k).continuousAt.tendsto.comp hgl
    have h4 : Tendsto (fun x => (g x).right i k) (𝓝 root) (𝓝 ((g root).right i k)) :=
      (continuous_entry i k).continuousAt.tendsto.comp hgr
    have h5 := tendsto_deriv (res.upd i) (hrel i) h1 h2 h3 h4
    have h6 := Metric.tendsto_nhds.1 h5 ε hε
    filter_upwards [h6] with x hx
    rw [Real.dist_eq] at hx
    rw [rootMatrix, Matrix.diagonal_mul]
    exact hx
  obtain ⟨δ, hδ, hball⟩ := Metric.eventually_nhds_iff.1 h
  refine ⟨δ, hδ, ?_⟩
  rintro c rfl x hx
  exact hball (by rw [dist_eq_norm]; exact hx)

/-! ### The solve -/

theorem amax_norm (v : Vec ℝ n) (e : Vec ℝ n) (h : ∀ i, e i = |v i|) : amax e = ‖v‖ := by
  refine le_antisymm ((amax_le_iff _ (norm_nonneg _)).2 fun i => ?_)
    ((pi_norm_le_iff_of_nonneg (amax_nonneg _)).2 fun i => ?_)
  · rw [h, abs_abs]; exact norm_le_pi_norm v i
  · have := abs_le_amax e i
    rw [h, abs_abs] at this
    exact this

section
variable {EI EU S : Type} {m : UserModel ℝ n EI EU S} {inv : S → Prop} {D : Vec ℝ n → Prop}
variable {f : Vec ℝ n → ResidualsValues ℝ n} {root : Vec ℝ n} {AL AR : Mat ℝ n} {res : ResConf n}

theorem errors_norm {c : Config ℝ n} (x : Vec ℝ n) : amax (errorsAt c f x) =
    ‖fun i => Spec.residual (c.res.stop i) ((f x).left i) ((f x).right i)‖ :=
  amax_norm _ _ fun i => evaluateStopping_exact _ _ _

/-- What the solve needs to know about the neighbourhood of radius `ρ`. -/
structure Near (c : Config ℝ n) (m : UserModel ℝ n EI EU S) (inv : S → Prop) (D : Vec ℝ n → Prop)
    (f : Vec ℝ n → ResidualsValues ℝ n) (root : Vec ℝ n) (J : Mat ℝ n)
    (W : Vec ℝ n → Mat ℝ n → Prop) (ρ b δ : ℝ) : Prop where
  /-- Matrices at distance `δ` from `J` contract. -/
  contracts : ∀ M : Mat ℝ n, (∀ i k, |M i k - J i k| < δ) → M.det ≠ 0 ∧
    ∀ x, ‖x - root‖ < ρ → ‖x - M⁻¹ *ᵥ updateAt c f x - root‖ ≤ 1 / 2 * ‖x - root‖
  /-- The computed matrices are at distance `δ`. -/
  source : ∀ x, ‖x - root‖ < ρ → ∃ pert M, Source c m inv D f x pert M ∧ W x M ∧
    (∀ i k, |M i k - J i k| < δ) ∧
    (∀ x', ‖x' - root‖ < ρ → ∀ z, Base x pert z → ∀ i, (c.iters i).stepLimitation (z i) (x' i - z i) = x' i) ∧
    ∀ x' z, Base x pert z → z - M⁻¹ *ᵥ updateAt c f z = x' → amax (errorsAt c f x') ≤ amax (errorsAt c f z)
  free : ∀ x x', ‖x - root‖ < ρ → ‖x' - root‖ < ρ → ∀ i, (c.iters i).stepLimitation (x i) (x' i - x i) = x' i
  descent : ∀ M : Mat ℝ n, (∀ i k, |M i k - J i k| < δ) → ∀ x, ‖x - root‖ < ρ →
    amax (errorsAt c f (x - M⁻¹ *ᵥ updateAt c f x)) ≤ amax (errorsAt c f x)
  domain : ∀ x, ‖x - root‖ < ρ → D x
  errors : ∀ x, ‖x - root‖ < ρ → amax (errorsAt c f x) ≤ b * ‖x - root‖

/-- `Q` is kept by every pass: the matrix is computed at the current point by Newton-Raphson, and at the
guess by stationary Newton.  `W y M` says that `M` is computed at `y`. -/
def Keeps (c : Config ℝ n) (f : Vec ℝ n → ResidualsValues ℝ n) (root : Vec ℝ n) (J : Mat ℝ n)
    (W : Vec ℝ n → Mat ℝ n → Prop) (ρ δ : ℝ) (Q : Nat → Vec ℝ n → Prop) : Prop :=
  ∀ k x y M, Q k x → ‖x - root‖ < ρ → ‖x - root‖ ≤ ‖c.guess - root‖ → ‖y - root‖ < ρ → W y M →
    (∀ i k, |M i k - J i k| < δ) → ((c.params.method = .NewtonRaphson ∧ y = x) ∨
      (c.params.method = .QuasiNewton .StationaryNewton ∧ y = c.guess)) →
    Q (k + 1) (x - M⁻¹ *ᵥ updateAt c f x)

/-- Passes from a neighbourhood halve the distance to the root. -/
theorem solve_near {c : Config ℝ n} (hL : c.la.IsExact)
    (hm : c.params.method = .NewtonRaphson ∨ c.params.method = .QuasiNewton .StationaryNewton)
    (hf : Computes m inv D f) {J : Mat ℝ n} {W : Vec ℝ n → Mat ℝ n → Prop}
    {ρ b δ : ℝ} (hb : 0 < b) (hn : Near c m inv D f root J W ρ b δ)
    (hg : ‖c.guess - root‖ < ρ) (hmax : b * ((1 / 2) ^ c.params.maxIter * ρ) ≤ c.params.tolerance)
    (Q : Nat → Vec ℝ n → Prop) (hQ0 : Q 0 c.guess) (hQ : Keeps c f root J W ρ δ Q)
    {s : S} (hs : inv s) :
    ∃ st' s' x, solve c m .new s = .ok (st', s', .ok ()) ∧ At m inv f s' x ∧
      ‖x - root‖ ≤ (1 / 2) ^ st'.iter * ‖c.guess - root‖ ∧
      amax (errorsAt c f x) ≤ c.params.tolerance ∧ Q st'.iter x := by
  obtain ⟨k, st', s', h1, ⟨hd, hv, hi, x, hat, hx, hQx, -⟩, h3, h4⟩ := solve_follow (c := c) hf
    (fun k st s => st.debug = false ∧ st.valid = true ∧ st.iter = k ∧
      ∃ x, At m inv f s x ∧ ‖x - root‖ ≤ (1 / 2) ^ k * ‖c.guess - root‖ ∧
        Q k x ∧ (c.params.method = .NewtonRaphson ∨ (st.jac.computeNext = true ∧ x = c.guess) ∨
          (c.params.method = .QuasiNewton .StationaryNewton ∧ st.jac.computeNext = false ∧
            ∃ M, W c.guess M ∧ (∀ i k, |M i k - J i k| < δ) ∧ st.jac.inverse = some M⁻¹)))
    (by
      rintro k st s ⟨hd, hv, hi, x, hat, hx, hq, hj⟩ hc
      have hxρ : ‖x - root‖ < ρ := by
        refine (hx.trans ?_).trans_lt hg
        exact mul_le_of_le_one_left (norm_nonneg _) (pow_le_one₀ (by norm_num) (by norm_num))
      have hxg : ‖x - root‖ ≤ ‖c.guess - root‖ :=
        hx.trans (mul_le_of_le_one_left (norm_nonneg _) (pow_le_one₀ (by norm_num) (by norm_num)))
      have hhalf : ∀ x', ‖x' - root‖ ≤ 1 / 2 * ‖x - root‖ →
          ‖x' - root‖ < ρ ∧ ‖x' - root‖ ≤ (1 / 2) ^ (k + 1) * ‖c.guess - root‖ := by
        intro x' h
        constructor
        · have := norm_nonneg (x - root); linarith
        · rw [pow_succ']; linarith
      have hcomp : c.params.method = .NewtonRaphson ∨ (st.jac.computeNext = true ∧ x = c.guess) → ∃ st' s',
          iterate c m st s = .ok (st', s', .ok (amax (evaluateErrors c m s'))) ∧
          st'.debug = false ∧ st'.valid = true ∧ st'.iter = k + 1 ∧
          ∃ x, At m inv f s' x ∧ ‖x - root‖ ≤ (1 / 2) ^ (k + 1) * ‖c.guess - root‖ ∧
          Q (k + 1) x ∧ (c.params.method = .NewtonRaphson ∨ (st'.jac.computeNext = true ∧ x = c.guess) ∨
          (c.params.method = .QuasiNewton .StationaryNewton ∧ st'.jac.computeNext = false ∧
            ∃ M, W c.guess M ∧ (∀ i k, |M i k - J i k| < δ) ∧ st'.jac.inverse = some M⁻¹)) := by
        intro hcn
        obtain ⟨pert, M, hsrc, hW, hM, hlim, hdamp⟩ := hn.source x hxρ
        obtain ⟨hdet, hcontr⟩ := hn.contracts M hM
        obtain ⟨hx1, hx2⟩ := hhalf _ (hcontr x hxρ)
        obtain ⟨st', s', z, hs', -, hit, rfl⟩ := iterate_newton hL hf hsrc hdet rfl (hn.domain _ hx1)
          (hlim _ hx1) (fun _ z hz h => hdamp _ z hz h) hd (hcn.imp_right (·.1)) hat
        obtain ⟨g1, -, g3, g4, g5⟩ := storeSteps_fields c.params.method
          { st with iter := st.iter + 1, jac := ⟨some M, some M⁻¹, false, false⟩, valid := true }
          (x - M⁻¹ *ᵥ updateAt c f x) z (errorsAt c f (x - M⁻¹ *ᵥ updateAt c f x)) (errorsAt c f z)
        refine ⟨_, s', hit, by rw [g5]; exact hd, by rw [g4], ?_, _, hs', hx2,
          hQ k x x M hq hxρ hxg hxρ hW hM (by
            rcases hm with h | h
            · exact .inl ⟨h, rfl⟩
            · rcases hcn with h' | ⟨-, h'⟩
              · rw [h] at h'; cases h'
              · exact .inr ⟨h, h'⟩), ?_⟩
        · rw [g1]
          change st.iter + 1 = _
          rw [hi]
        · rcases hm with h | h
          · exact .inl h
          · rcases hcn with h' | ⟨-, rfl⟩
            · rw [h] at h'; cases h'
            · exact .inr (.inr ⟨h, by rw [g3], M, hW, hM, by rw [g3]⟩)
      rcases hj with h | h | ⟨hmeth, hcn, M, hW, hM, hinv⟩
      · exact hcomp (.inl h)
      · exact hcomp (.inr h)
      · obtain ⟨hdet, hcontr⟩ := hn.contracts M hM
        obtain ⟨hx1, hx2⟩ := hhalf _ (hcontr x hxρ)
        obtain ⟨s', hs', hit⟩ := iterate_kept hL hf rfl (hn.domain _ hx1) (hn.free x _ hxρ hx1)
          (fun _ => hn.descent M hM x hxρ) hd hmeth hcn hinv hat
        exact ⟨_, s', hit, hd, rfl, congrArg (· + 1) hi, _, hs', hx2,
          hQ k x c.guess M hq hxρ hxg hg hW hM (.inr ⟨hmeth, rfl⟩), .inr (.inr ⟨hmeth, hcn, M, hW, hM, hinv⟩)⟩)
    hs (hn.domain _ hg) (fun s0 h0 => ⟨rfl, rfl, rfl, _, h0, by simp, hQ0, .inr (.inl ⟨rfl, rfl⟩)⟩)
  have hxρ : ‖x - root‖ < ρ := by
    refine (hx.trans ?_).trans_lt hg
    exact mul_le_of_le_one_left (norm_nonneg _) (pow_le_one₀ (by norm_num) (by norm_num))
  have htol : amax (errorsAt c f x) ≤ c.params.tolerance := by
    by_cases hk : st'.iter < c.params.maxIter
    · rw [continues, decide_eq_true hk, Bool.and_true, ex_lt_false, hat.errors] at h3
      exact h3
    · refine (hn.errors x hxρ).trans (le_trans ?_ hmax)
      refine mul_le_mul_of_nonneg_left (hx.trans ?_) hb.le
      refine mul_le_mul (pow_le_pow_of_le_one (by norm_num) (by norm_num) (by omega)) hg.le (norm_nonneg _)
        (by positivity)
  refine ⟨st', s', x, ?_, hat, by rw [hi]; exact hx, htol, hi ▸ hQx⟩
  rw [h1]
  have hlt : Scalar.lt c.params.tolerance (amax (evaluateErrors c m s')) = false := by
    rw [hat.errors, ex_lt_false]; exact htol
  simp only [finalResult, hlt, Bool.false_eq_true, if_false, hv, if_true]

/-- The common part of the two local theorems.  `OK c ρ` are the conditions on a configuration. -/
theorem local_convergence (hl : HasStrictFDerivAt (fun x => (f x).left) (asMap AL) root)
    (hr : HasStrictFDerivAt (fun x => (f x).right) (asMap AR) root)
    (hroot : (f root).left = (f root).right) (hdet : (AL - AR).det ≠ 0)
    (hupd : ∀ i, res.upd i = .Rel → (f root).left i ≠ 0)
    (hstop : ∀ i, res.stop i = .Rel → (f root).left i ≠ 0)
    (hf : Computes m inv D f) (hD : ∀ᶠ x in 𝓝 root, D x) {R : ℝ} (hR : 0 < R) {δ0 : ℝ} (hδ0 : 0 < δ0)
    (OK : Config ℝ n → ℝ → Prop) (W : Config ℝ n → Vec ℝ n → Mat ℝ n → Prop)
    (hsrc : ∀ ε > 0, ∃ δ > 0, ∀ ρ ≤ δ, ∀ c : Config ℝ n, c.res = res → OK c ρ → ∀ x, ‖x - root‖ < ρ →
      (∀ z, ‖z - root‖ < ε → D z) →
      ∃ pert M, Source c m inv D f x pert M ∧ W c x M ∧ (∀ i, |pert i| < ε / 2) ∧ ∀ i k, |M i k -
        rootMatrix (fun i => weight (res.upd i) ((f root).left i)) (AL - AR) i k| < ε) :
    ∃ ρ > 0, ∃ δ > 0, δ ≤ δ0 ∧ ρ ≤ δ ∧ ∀ tol > 0, ∃ N, ∀ c : Config ℝ n, c.la.IsExact → c.res = res →
      (c.params.method = .NewtonRaphson ∨ c.params.method = .QuasiNewton .StationaryNewton) →
      (∀ i v d, |v - root i| < R → |d| < R → (c.iters i).stepLimitation v d = v + d) →
      OK c ρ → ‖c.guess - root‖ < ρ → c.params.tolerance = tol → N ≤ c.params.maxIter →
      ∀ Q : Nat → Vec ℝ n → Prop, Q 0 c.guess → Keeps c f root
        (rootMatrix (fun i => weight (res.upd i) ((f root).left i)) (AL - AR)) (W c) ρ δ Q →
      ∀ s, inv s → ∃ st' s' x, solve c m .new s = .ok (st', s', .ok ()) ∧ At m inv f s' x ∧
        ‖x - root‖ ≤ (1 / 2) ^ st'.iter * ‖c.guess - root‖ ∧ amax (errorsAt c f x) ≤ tol ∧ Q st'.iter x := by
  have hU := residuals_strict hl hr hroot res.upd hupd
  have hS := residuals_strict hl hr hroot res.stop hstop
  have hzero : ∀ meth : Fin n → NormalizationMethod,
      (fun i => Spec.residual (meth i) ((f root).left i) ((f root).right i)) = 0 := by
    intro meth
    funext i
    rw [← hroot]
    cases meth i <;> simp [Spec.residual]
  set J := rootMatrix (fun i => weight (res.upd i) ((f root).left i)) (AL - AR) with hJ
  have hJdet : J.det ≠ 0 := rootMatrix_det (fun i => weight_pos (hupd i)) hdet
  obtain ⟨a, ha, b, hb, δa, hδa, hsize⟩ := residual_size hS.hasFDerivAt (hzero _)
    (rootMatrix_det (fun i => weight_pos (hstop i)) hdet)
  have hη : 0 < min (1 / 2) (a / b) := lt_min (by norm_num) (div_pos ha hb)
  obtain ⟨δc, hδc, hcontr⟩ := newton_contracts hU.hasFDerivAt (hzero _) hJdet hη
  obtain ⟨δD, hδD, hball⟩ := Metric.eventually_nhds_iff.1 hD
  obtain ⟨r, hr0, hra, hrc, hrD, hrR, hr0'⟩ : ∃ r > 0, r ≤ δa ∧ r ≤ δc ∧ r ≤ δD ∧ r ≤ R / 4 ∧ r ≤ δ0 :=
    ⟨min (min δa δc) (min δD (min (R / 4) δ0)), lt_min (lt_min hδa hδc) (lt_min hδD (lt_min (by positivity) hδ0)),
      (min_le_left _ _).trans (min_le_left _ _), (min_le_left _ _).trans (min_le_right _ _),
      (min_le_right _ _).trans (min_le_left _ _),
      (min_le_right _ _).trans ((min_le_right _ _).trans (min_le_left _ _)),
      (min_le_right _ _).trans ((min_le_right _ _).trans (min_le_right _ _))⟩
  obtain ⟨δs, hδs, hsource⟩ := hsrc r hr0
  obtain ⟨ρ, hρ0, hρr, hρs⟩ : ∃ ρ > 0, ρ ≤ r / 2 ∧ ρ ≤ δs :=
    ⟨min (r / 2) δs, lt_min (by positivity) hδs, min_le_left _ _, min_le_right _ _⟩
  have hdom : ∀ z, ‖z - root‖ < r → D z := fun z hz => hball (by rw [dist_eq_norm]; exact hz.trans_le hrD)
  refine ⟨ρ, hρ0, r, hr0, hr0', by linarith, fun tol htol => ?_⟩
  obtain ⟨N, hN⟩ := exists_pow_lt_of_lt_one (show 0 < tol / (b * ρ) by positivity) (show (1 / 2 : ℝ) < 1 by norm_num)
  refine ⟨N, ?_⟩
  rintro c hLA rfl hm hlim hok hg rfl hmax Q hQ0 hQ s hs
  have hupdate : ∀ x, updateAt c f x = fun i => Spec.residual (c.res.upd i) ((f x).left i) ((f x).right i) :=
    fun x => funext fun i => evaluateUpdate_exact _ _ _
  have hdesc : ∀ M : Mat ℝ n, (∀ i k, |M i k - J i k| < r) → ∀ x, ‖x - root‖ < r →
      amax (errorsAt c f (x - M⁻¹ *ᵥ updateAt c f x)) ≤ amax (errorsAt c f x) := by
    intro M hM x hx
    obtain ⟨-, h1⟩ := hcontr M fun i k => (hM i k).trans_le hrc
    have h2 := h1 x (hx.trans_le hrc)
    rw [← hupdate] at h2
    have h3 : ‖x - M⁻¹ *ᵥ updateAt c f x - root‖ < δa := by
      have := mul_le_mul_of_nonneg_right (min_le_left (1 / 2) (a / b)) (norm_nonneg (x - root))
      have := norm_nonneg (x - root)
      linarith
    rw [errors_norm, errors_norm]
    refine (hsize _ h3).2.trans (le_trans ?_ (hsize x (hx.trans_le hra)).1)
    have h4 : b * (min (1 / 2) (a / b) * ‖x - root‖) ≤ a * ‖x - root‖ := by
      rw [← mul_assoc]
      refine mul_le_mul_of_nonneg_right ?_ (norm_nonneg _)
      calc b * min (1 / 2) (a / b) ≤ b * (a / b) := mul_le_mul_of_nonneg_left (min_le_right _ _) hb.le
        _ = a := by field_simp
    exact (mul_le_mul_of_nonneg_left h2 hb.le).trans h4
  have hstepeq : ∀ z x' : Vec ℝ n, ‖z - root‖ < r → ‖x' - root‖ < ρ → ∀ i,
      (c.iters i).stepLimitation (z i) (x' i - z i) = x' i := by
    intro z x' hz hx' i
    have h1 : |z i - root i| < r := (norm_le_pi_norm (z - root) i).trans_lt hz
    have h2 : |x' i - root i| < ρ := (norm_le_pi_norm (x' - root) i).trans_lt hx'
    rw [hlim i _ _ (by linarith) ?_]
    · ring
    · rw [show x' i - z i = (x' i - root i) - (z i - root i) by ring]
      exact (abs_sub _ _).trans_lt (by linarith)
  have hnear : Near c m inv D f root J (W c) ρ b r := by
    refine ⟨?_, ?_, ?_, ?_, ?_, ?_⟩
    · intro M hM
      obtain ⟨h1, h2⟩ := hcontr M fun i k => (hM i k).trans_le hrc
      refine ⟨h1, fun x hx => ?_⟩
      have h3 := h2 x (by linarith)
      rw [← hupdate] at h3
      exact h3.trans (mul_le_mul_of_nonneg_right (min_le_left _ _) (norm_nonneg _))
    · intro x hx
      obtain ⟨pert, M, h1, hW, h2, h3⟩ := hsource ρ hρs c rfl hok x hx hdom
      have hbase : ∀ z, Base x pert z → ‖z - root‖ < r := by
        rintro z (rfl | ⟨i, rfl⟩)
        · linarith
        · rw [moved_eq, show x + Pi.single i (pert i) - root = (x - root) + Pi.single i (pert i) by abel]
          refine (norm_add_le _ _).trans_lt ?_
          have e : ‖(Pi.single i (pert i) : Vec ℝ n)‖ = |pert i| := by rw [Pi.norm_single]; rfl
          have := h2 i
          rw [e]
          linarith
      refine ⟨pert, M, h1, hW, h3, fun x' hx' z hz => hstepeq z x' (hbase z hz) hx', ?_⟩
      rintro x' z hz rfl
      exact hdesc M h3 z (hbase z hz)
    · exact fun x x' hx hx' => hstepeq x x' (by linarith) hx'
    · exact fun M hM x hx => hdesc M hM x (by linarith)
    · exact fun x hx => hdom x (by linarith)
    · intro x hx
      rw [errors_norm]
      exact (hsize x (by linarith)).2
  refine solve_near hLA hm hf hb hnear hg ?_ Q hQ0 hQ hs
  have h1 : (1 / 2 : ℝ) ^ c.params.maxIter ≤ (1 / 2) ^ N :=
    pow_le_pow_of_le_one (by norm_num) (by norm_num) hmax
  have h2 : (1 / 2 : ℝ) ^ c.params.maxIter ≤ c.params.tolerance / (b * ρ) := h1.trans hN.le
  rw [le_div_iff₀ (by positivity)] at h2
  linarith

end
end Nrf
