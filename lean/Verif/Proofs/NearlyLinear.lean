import Verif.Proofs.KantorovichStationary
import Verif.Proofs.Damping
import Verif.Spec.NearlyLinear

/-!
# Newton steps on systems close to a linear one
-/

namespace Nrf
open Spec
open scoped Exact
open Matrix

variable {n : Nat} {F : Vec ℝ n → Vec ℝ n} {B J : Mat ℝ n} {β ε δ : ℝ}

/-- A matrix close to `B` is bounded below. -/
theorem Spec.NearlyLinear.below (h : NearlyLinear F B β ε) (hJ : NearMatrix B δ J) (v : Vec ℝ n) :
    (1 - β * δ) * ‖v‖ ≤ β * ‖J *ᵥ v‖ := by
  have h1 := h.inverse v
  have h2 : ‖B *ᵥ v‖ ≤ ‖J *ᵥ v‖ + δ * ‖v‖ := by
    have := norm_sub_le (J *ᵥ v) (J *ᵥ v - B *ᵥ v)
    rw [sub_sub_cancel] at this
    exact this.trans (add_le_add_right (hJ v) _)
  have h3 := mul_le_mul_of_nonneg_left h2 h.pos.le
  linarith

theorem Spec.NearlyLinear.det (h : NearlyLinear F B β ε) (hJ : NearMatrix B δ J) (hδ : β * δ < 1) : J.det ≠ 0 := by
  intro h0
  obtain ⟨v, hv, h1⟩ := Matrix.exists_mulVec_eq_zero_iff.2 h0
  have h2 := h.below hJ v
  rw [h1, norm_zero, mul_zero] at h2
  exact absurd h2 (not_le.2 (mul_pos (by linarith) (norm_pos_iff.2 hv)))

/-- A step with a matrix close to `B`. -/
theorem Spec.NearlyLinear.step (h : NearlyLinear F B β ε) (hJ : NearMatrix B δ J) (hδ0 : 0 ≤ δ) (hδ : β * δ < 1)
    {x d : Vec ℝ n} (hd : J *ᵥ d = - F x) : ‖F (x + d)‖ ≤ β * (ε + δ) / (1 - β * δ) * ‖F x‖ := by
  have h1 := h.below hJ d
  rw [hd, norm_neg] at h1
  have h2 := h.close x (x + d)
  rw [add_sub_cancel_left] at h2
  have e : F (x + d) = (F (x + d) - F x - B *ᵥ d) - (J *ᵥ d - B *ᵥ d) := by rw [hd]; abel
  have h3 : ‖F (x + d)‖ ≤ ε * ‖d‖ + δ * ‖d‖ := by
    rw [e]
    exact (norm_sub_le _ _).trans (add_le_add h2 (hJ d))
  have h4 : 0 < 1 - β * δ := by linarith
  rw [div_mul_eq_mul_div, le_div_iff₀ h4]
  have h5 := mul_le_mul_of_nonneg_left h1 (add_nonneg h.nonneg hδ0)
  have h6 := mul_le_mul_of_nonneg_right h3 h4.le
  calc ‖F (x + d)‖ * (1 - β * δ) ≤ (ε * ‖d‖ + δ * ‖d‖) * (1 - β * δ) := h6
    _ = (ε + δ) * ((1 - β * δ) * ‖d‖) := by ring
    _ ≤ (ε + δ) * (β * ‖F x‖) := h5
    _ = β * (ε + δ) * ‖F x‖ := by ring

/-- The matrix of the finite differences is close to `B`, whatever the displacements. -/
theorem Spec.NearlyLinear.differences (h : NearlyLinear F B β ε) {x pert : Vec ℝ n} (hne : ∀ i, pert i ≠ 0)
    (hJ : ∀ i k, J i k = (F (x + Pi.single k (pert k)) i - F x i) / pert k) : NearMatrix B (n * ε) J := by
  intro v
  have hent : ∀ i k, |J i k - B i k| ≤ ε := by
    intro i k
    have h1 := h.close x (x + Pi.single k (pert k))
    rw [add_sub_cancel_left] at h1
    have h2 := (norm_le_pi_norm _ i).trans h1
    rw [Pi.norm_single, Real.norm_eq_abs, Real.norm_eq_abs, Pi.sub_apply, Pi.sub_apply, Matrix.mulVec_single] at h2
    have hp := abs_pos.2 (hne k)
    have e : J i k - B i k = (F (x + Pi.single k (pert k)) i - F x i - B i k * pert k) / pert k := by
      rw [hJ]
      have := hne k
      field_simp
    rw [e, abs_div, div_le_iff₀ hp]
    simpa using h2
  rw [← Matrix.sub_mulVec]
  refine (pi_norm_le_iff_of_nonneg (mul_nonneg (mul_nonneg (Nat.cast_nonneg _) h.nonneg) (norm_nonneg _))).2 fun i => ?_
  rw [Real.norm_eq_abs]
  calc |((J - B) *ᵥ v) i| ≤ ∑ k, |(J - B) i k * v k| := by
        rw [show ((J - B) *ᵥ v) i = ∑ k, (J - B) i k * v k from rfl]
        exact Finset.abs_sum_le_sum_abs _ _
    _ ≤ ∑ _k : Fin n, ε * ‖v‖ := Finset.sum_le_sum fun k _ => by
        rw [abs_mul, Matrix.sub_apply]
        exact mul_le_mul (hent i k) (norm_le_pi_norm v k) (abs_nonneg _) h.nonneg
    _ = n * ε * ‖v‖ := by rw [Finset.sum_const, Finset.card_univ, Fintype.card_fin, nsmul_eq_mul]; ring

/-- Newton-Raphson with a Jacobian, damped or not, when the norm of the residuals does not grow. -/
theorem newton_run_shrinking {c : Config ℝ n} (hc : PlainNewton (undamped c)) (F : Vec ℝ n → Vec ℝ n)
    (jac : Vec ℝ n → Mat ℝ n) (I : Nat → Vec ℝ n → Prop) (N : Nat) (hN : N ≤ c.params.maxIter) (h0 : I 0 c.guess)
    (hstep : ∀ k x, k < N → I k x → (jac x).det ≠ 0 ∧ ∃ d, jac x *ᵥ d = - F x ∧
      (∀ i, (c.iters i).stepLimitation (x i) (d i) = x i + d i) ∧ ‖F (x + d)‖ ≤ ‖F x‖ ∧ I (k + 1) (x + d))
    (hend : ∀ x, I N x → ∀ i, |F x i| ≤ c.params.tolerance) (htol : 0 ≤ c.params.tolerance) (s : AdapterState ℝ n)
    (hs : s.right = 0) :
    ∃ st' s', solve c (fromFunctionAndJacobian F jac) .new s = .ok (st', s', .ok ()) ∧ st'.iter ≤ N ∧
      I st'.iter s'.inputs ∧ ∀ i, |F s'.inputs i| ≤ c.params.tolerance := by
  have herr : ∀ x i, errorsAt c (fun x => ⟨F x, 0⟩) x i = |F x i| := fun x i => hc.errors F x i
  have hupd : ∀ x, updateAt c (fun x => ⟨F x, 0⟩) x = F x := fun x => hc.update F x
  obtain ⟨st', s', x, h1, h2, h3, h4, h5⟩ := newton_run_damped (c := c) hc.exact hc.method
    (fromFunctionAndJacobian_computes F jac 0) I N hN (fun _ _ _ => trivial) h0
    (fun k x hk hI => by
      obtain ⟨hdet, d, hd, hlim, hle, hI'⟩ := hstep k x hk hI
      have hbase : ∀ z, Base x 0 z → z = x := by
        rintro z (rfl | ⟨i, rfl⟩)
        · rfl
        · rw [moved_eq]; simp
      refine ⟨0, jac x, x + d, ?_, hdet, ?_, ?_, ?_, hI'⟩
      · have := Source.analytic (c := c) (D := fun _ => True) (x := x) (pert := 0) _
          (fromFunctionAndJacobian_differentiates F jac 0)
        have e : analyticAt c (fun x => ⟨F x, 0⟩) (fun x => ⟨jac x, mzero⟩) x = jac x := hc.jacobian F jac x
        rw [e] at this
        exact this
      · rw [hupd, show F x = -(jac x *ᵥ d) by rw [hd, neg_neg], Matrix.mulVec_neg, Matrix.mulVec_mulVec, ex_inv_mul hdet,
          Matrix.one_mulVec, sub_neg_eq_add]
      · intro z hz i
        rw [hbase z hz, Pi.add_apply, add_sub_cancel_left]
        exact hlim i
      · intro _ z hz
        rw [hbase z hz]
        refine (amax_le_iff _ (amax_nonneg _)).2 fun i => ?_
        rw [herr, abs_abs]
        refine (norm_le_pi_norm (F (x + d)) i).trans (hle.trans ?_)
        refine (pi_norm_le_iff_of_nonneg (amax_nonneg _)).2 fun j => ?_
        have := abs_le_amax (errorsAt c (fun x => ⟨F x, 0⟩) x) j
        rwa [herr, abs_abs] at this)
    (fun x hI => (amax_le_iff _ htol).2 fun i => by
      rw [herr, abs_abs]
      exact hend x hI i) s hs
  obtain rfl : s'.inputs = x := h3.iteratives
  refine ⟨st', s', h1, h2, h4, fun i => ?_⟩
  have := (abs_le_amax (errorsAt c (fun x => ⟨F x, 0⟩) s'.inputs) i).trans h5
  rwa [herr, abs_abs] at this

end Nrf
