import Verif.Proofs.Calculus
import Verif.Proofs.JacOutcome
import Mathlib.Topology.Algebra.Module.FiniteDimension

/-!
# C28: the analytic Jacobian is the Jacobian of the update residuals
-/

namespace Nrf
open scoped Exact

variable {n : Nat}

/-- The matrix `M` is the Jacobian of `f` at `x`. -/
def Spec.IsJacobian (f : Vec ℝ n → Vec ℝ n) (M : Mat ℝ n) (x : Vec ℝ n) : Prop :=
  HasFDerivAt f (Matrix.mulVecLin M).toContinuousLinearMap x

/-- `normalize` turns the Jacobians of the two sides into the Jacobian of the update residuals, for
any mix of methods, at every point where the sums are not zero. -/
theorem C28_normalize (L R : Vec ℝ n → Vec ℝ n) (JL JR : Mat ℝ n) (x : Vec ℝ n)
    (hL : Spec.IsJacobian L JL x) (hR : Spec.IsJacobian R JR x) (res : ResConf n)
    (h : ∀ i, res.upd i ≠ .Abs → L x i + R x i ≠ 0) :
    Spec.IsJacobian (fun y => res.evaluateUpdate ⟨L y, R y⟩)
      (JacobianValues.normalize ⟨JL, JR⟩ ⟨L x, R x⟩ res.upd) x := by
  refine hasFDerivAt_pi'.2 fun i => ?_
  have hLi := hasFDerivAt_pi'.1 hL i
  have hRi := hasFDerivAt_pi'.1 hR i
  obtain ⟨D, hD, hv⟩ := strict_residual (E := ℝ × ℝ) (x := (L x i, R x i)) hasStrictFDerivAt_fst
    hasStrictFDerivAt_snd (res.upd i) (h i)
  have hc := hD.hasFDerivAt.comp x (hLi.prodMk hRi)
  have hc' : HasFDerivAt (fun y => res.evaluateUpdate ⟨L y, R y⟩ i) _ x :=
    hc.congr_of_eventuallyEq (Filter.Eventually.of_forall fun y => by
      simp [evaluateUpdate_exact])
  refine hc'.congr_fderiv ?_
  -- the derivative in direction `v` is the row of the normalized matrix times `v`
  have hlin : ∀ a b, D (a, b) = a * derivNormalization (L x i) (R x i) 1 0 (res.upd i) +
      b * derivNormalization (L x i) (R x i) 0 1 (res.upd i) := by
    intro a b
    have h1 := hv (1, 0)
    have h2 := hv (0, 1)
    have : ((a, b) : ℝ × ℝ) = a • (1, 0) + b • (0, 1) := by simp
    rw [this, map_add, map_smul, map_smul, h1, h2]
    rfl
  have hrow : ∀ k, derivNormalization (L x i) (R x i) (JL i k) (JR i k) (res.upd i) =
      JL i k * derivNormalization (L x i) (R x i) 1 0 (res.upd i) +
      JR i k * derivNormalization (L x i) (R x i) 0 1 (res.upd i) := fun k => by
    rw [← hlin]; exact (hv (JL i k, JR i k)).symm
  ext v
  simp only [ContinuousLinearMap.comp_apply, ContinuousLinearMap.prod_apply,
    ContinuousLinearMap.proj_apply, LinearMap.coe_toContinuousLinearMap', Matrix.mulVecLin_apply,
    Matrix.mulVec, dotProduct, JacobianValues.normalize]
  rw [hlin, Finset.sum_mul, Finset.sum_mul, ← Finset.sum_add_distrib]
  refine Finset.sum_congr rfl fun k _ => ?_
  rw [hrow]; ring

/-- The matrix that the solver stores after asking a differentiable model for its Jacobians is the
Jacobian of the update residuals at the current point. -/
theorem C28_stored {EI EU S : Type} (c : Config ℝ n) (m : UserModel ℝ n EI EU S) (s s' : S)
    (L R : Vec ℝ n → Vec ℝ n) (JL JR : Mat ℝ n) (x : Vec ℝ n)
    (hp : m.jacobianProvided s = true) (hres : m.getResiduals s = ⟨L x, R x⟩)
    (hjac : (m.getJacobian s).2 = .ok ⟨JL, JR⟩)
    (hL : Spec.IsJacobian L JL x) (hR : Spec.IsJacobian R JR x)
    (h : ∀ i, c.res.upd i ≠ .Abs → L x i + R x i ≠ 0)
    (j j' : JacobianMatrix ℝ n) (hj : computeJac c m j s = .ok (j', s', .ok ())) :
    ∃ M, j'.matrix = some M ∧
      Spec.IsJacobian (fun y => c.res.evaluateUpdate ⟨L y, R y⟩) M x := by
  refine ⟨_, ?_, C28_normalize L R JL JR x hL hR c.res h⟩
  unfold computeJac at hj
  rw [if_pos hp] at hj
  unfold analyticJacobian at hj
  rcases hg : m.getJacobian s with ⟨s2, r⟩
  rw [hg] at hjac hj
  subst hjac
  rw [hres] at hj
  dsimp only at hj
  unfold JacobianMatrix.updateExact JacobianMatrix.update at hj
  split at hj
  · cases hj
  · rename_i heq
    cases hj
    split at heq
    · rename_i hu
      cases heq
      split at hu
      · cases hu; rfl
      · cases hu
    · cases heq
  · rename_i heq
    cases hj
    split at heq
    · cases heq
    · cases heq
  · cases hj

/-- The circle and the line `x² + y² = 1`, `x = y`, with a relative residual on the first row. -/
example : ∃ (L R : Vec ℝ 2 → Vec ℝ 2) (JL JR : Mat ℝ 2) (x : Vec ℝ 2) (res : ResConf 2),
    Spec.IsJacobian L JL x ∧ Spec.IsJacobian R JR x ∧
    (∀ i, res.upd i ≠ .Abs → L x i + R x i ≠ 0) ∧ res.upd 0 = .Rel := by
  refine ⟨fun x => ![x 0 ^ 2 + x 1 ^ 2, x 0], fun x => ![1, x 1], !![2, 4; 1, 0], !![0, 0; 0, 1],
    ![1, 2], ⟨fun _ => .Abs, ![.Rel, .Abs]⟩, ?_, ?_, ?_, rfl⟩
  · refine hasFDerivAt_pi'.2 fun i => ?_
    fin_cases i
    · have h0 : HasFDerivAt (fun x : Vec ℝ 2 => x 0) (ContinuousLinearMap.proj (R := ℝ) 0) ![1, 2] :=
        hasFDerivAt_apply 0 _
      have h1 : HasFDerivAt (fun x : Vec ℝ 2 => x 1) (ContinuousLinearMap.proj (R := ℝ) 1) ![1, 2] :=
        hasFDerivAt_apply 1 _
      refine ((h0.pow 2).add (h1.pow 2)).congr_fderiv ?_
      ext v
      simp [dotProduct, Fin.sum_univ_two]
      left; norm_num
    · have h0 : HasFDerivAt (fun x : Vec ℝ 2 => x 0) (ContinuousLinearMap.proj (R := ℝ) 0) ![1, 2] :=
        hasFDerivAt_apply 0 _
      refine h0.congr_fderiv ?_
      ext v
      simp [dotProduct, Fin.sum_univ_two]
  · refine hasFDerivAt_pi'.2 fun i => ?_
    fin_cases i
    · refine (hasFDerivAt_const (1 : ℝ) _).congr_fderiv ?_
      ext v
      simp [dotProduct, Fin.sum_univ_two]
    · have h1 : HasFDerivAt (fun x : Vec ℝ 2 => x 1) (ContinuousLinearMap.proj (R := ℝ) 1) ![1, 2] :=
        hasFDerivAt_apply 1 _
      refine h1.congr_fderiv ?_
      ext v
      simp [dotProduct, Fin.sum_univ_two]
  · intro i hi
    fin_cases i
    · norm_num
    · simp at hi

end Nrf
