import Verif.Spec.Units
import Verif.Proofs.ExactMat
import Verif.Proofs.Loop

/-!
# A solve in other units
-/

set_option linter.unusedSectionVars false

namespace Nrf
open Spec
open scoped Exact
open Matrix

section
variable {K : Type} [Field K] [LinearOrder K] [IsStrictOrderedRing K] {n : Nat} {EI EU S : Type}
variable {c : Config K n} {m : UserModel K n EI EU S} {d : Vec K n}

theorem oldUnits_newUnits (hd : ∀ i, d i ≠ 0) (x : Vec K n) : oldUnits d (newUnits d x) = x := by
  funext i
  exact mul_div_cancel_left₀ _ (hd i)

theorem perUnit_eq (A : Mat K n) : perUnit d A = A * Matrix.diagonal fun i => (d i)⁻¹ := by
  funext i k
  rw [Matrix.mul_diagonal]
  exact div_eq_mul_inv _ _

theorem newUnitsRows_eq (A : Mat K n) : newUnitsRows d A = Matrix.diagonal d * A := by
  funext i k
  rw [Matrix.diagonal_mul]
  rfl

theorem newUnits_eq (x : Vec K n) : newUnits d x = Matrix.diagonal d *ᵥ x := by
  funext i
  rw [Matrix.mulVec_diagonal]
  rfl

theorem units_det (hd : ∀ i, d i ≠ 0) : (Matrix.diagonal d).det ≠ 0 := by
  rw [Matrix.det_diagonal]
  exact Finset.prod_ne_zero_iff.2 fun i _ => hd i

theorem units_diag (hd : ∀ i, d i ≠ 0) :
    (Matrix.diagonal (fun i => (d i)⁻¹) : Matrix (Fin n) (Fin n) K) = (Matrix.diagonal d)⁻¹ := by
  symm
  apply Matrix.inv_eq_right_inv
  rw [Matrix.diagonal_mul_diagonal]
  rw [← Matrix.diagonal_one]
  congr 1
  funext i
  exact mul_inv_cancel₀ (hd i)

/-! ### The inverse -/

theorem update_units (hL : c.la.IsExact) (hd : ∀ i, d i ≠ 0) (j : JacobianMatrix K n) (A : Mat K n) :
    (jacobianInUnits d j).update c.la (perUnit d A) =
      (jacobianInUnits d (j.update c.la A).1, (j.update c.la A).2) := by
  have hD := units_det hd
  unfold JacobianMatrix.update
  rw [perUnit_eq, units_diag hd]
  by_cases h : A.det = 0
  · have h' : (A * (Matrix.diagonal d)⁻¹).det = 0 := by rw [Matrix.det_mul, h, zero_mul]
    rw [hL.inv_none _ h, hL.inv_none _ h']
    rfl
  · have h' : (A * (Matrix.diagonal d)⁻¹).det ≠ 0 := by
      rw [Matrix.det_mul, Matrix.det_nonsing_inv]
      exact mul_ne_zero h (by rw [Ring.inverse_eq_inv']; exact inv_ne_zero hD)
    rw [hL.inv_some _ h, hL.inv_some _ h']
    simp only [jacobianInUnits, Option.map_some]
    rw [Matrix.mul_inv_rev, Matrix.nonsing_inv_nonsing_inv _ (isUnit_iff_ne_zero.2 hD), newUnitsRows_eq, perUnit_eq,
      units_diag hd]

theorem updateExact_units (hL : c.la.IsExact) (hd : ∀ i, d i ≠ 0) (j : JacobianMatrix K n) (A : Mat K n) :
    (jacobianInUnits d j).updateExact c.la (perUnit d A) =
      (jacobianInUnits d (j.updateExact c.la A).1, (j.updateExact c.la A).2) :=
  update_units hL hd { j with approximated := false } A

theorem updateApproximated_units (hL : c.la.IsExact) (hd : ∀ i, d i ≠ 0) (j : JacobianMatrix K n) (A : Mat K n) :
    (jacobianInUnits d j).updateApproximated c.la (perUnit d A) =
      (jacobianInUnits d (j.updateApproximated c.la A).1, (j.updateApproximated c.la A).2) :=
  update_units hL hd { j with approximated := true } A

/-! ### The Jacobian -/

theorem deriv_units (x y dx dy u : K) (meth : NormalizationMethod) :
    derivNormalization x y (dx / u) (dy / u) meth = derivNormalization x y dx dy meth / u := by
  cases meth
  · change dx / u - dy / u = (dx - dy) / u
    ring
  · change 2 * ((dx / u - dy / u) * |x + y| - (dx / u + dy / u) * (x - y) * Scalar.signum (x + y)) /
        ((x + y) * (x + y)) =
      2 * ((dx - dy) * |x + y| - (dx + dy) * (x - y) * Scalar.signum (x + y)) / ((x + y) * (x + y)) / u
    ring
  · change ((dx / u - dy / u) * (1 + |(x + y) / 2|) - (dx / u + dy / u) / 2 * Scalar.signum ((x + y) / 2) * (x - y)) /
        ((1 + |(x + y) / 2|) * (1 + |(x + y) / 2|)) =
      ((dx - dy) * (1 + |(x + y) / 2|) - (dx + dy) / 2 * Scalar.signum ((x + y) / 2) * (x - y)) /
        ((1 + |(x + y) / 2|) * (1 + |(x + y) / 2|)) / u
    ring

theorem normalize_units (J : JacobianValues K n) (v : ResidualsValues K n) (meth : Fin n → NormalizationMethod) :
    (⟨perUnit d J.left, perUnit d J.right⟩ : JacobianValues K n).normalize v meth = perUnit d (J.normalize v meth) := by
  funext i k
  exact deriv_units _ _ _ _ _ _

theorem fdLoop_units (hd : ∀ i, d i ≠ 0) (pert : Vec K n) (mem : List K) (x r : Vec K n) :
    ∀ (k i : Nat) (J : Mat K n) (s : S),
    fdLoop c.res (modelInUnits d m) (newUnits d pert) mem (newUnits d x) r k i (perUnit d J) s =
      (fdLoop c.res m pert mem x r k i J s).map fun w => (w.1, w.2.map (perUnit d)) := by
  intro k
  induction k with
  | zero => intro i J s; rfl
  | succ k ih =>
    intro i J s
    unfold fdLoop
    split
    · rename_i hi
      have hx : (modelInUnits d m).evaluate ((modelInUnits d m).setIteratives s
          (fun l => if l = ⟨i, hi⟩ then newUnits d x ⟨i, hi⟩ +ᶠ newUnits d pert ⟨i, hi⟩ else newUnits d x l)) =
          m.evaluate (m.setIteratives s (fun l => if l = ⟨i, hi⟩ then x ⟨i, hi⟩ +ᶠ pert ⟨i, hi⟩ else x l)) := by
        change m.evaluate (m.setIteratives s (oldUnits d _)) = _
        congr 2
        funext l
        simp only [oldUnits]
        split
        · rename_i hl
          subst hl
          change (d _ * x _ + d _ * pert _) / d _ = x _ + pert _
          rw [← mul_add, mul_div_cancel_left₀ _ (hd _)]
        · change d l * x l / d l = x l
          rw [mul_div_cancel_left₀ _ (hd _)]
      have hcol : ∀ s' : S, setColumn (perUnit d J) ⟨i, hi⟩
          (vdiv (vsub (c.res.evaluateUpdate (m.getResiduals s')) r) (newUnits d pert ⟨i, hi⟩)) =
          perUnit d (setColumn J ⟨i, hi⟩
            (vdiv (vsub (c.res.evaluateUpdate (m.getResiduals s')) r) (pert ⟨i, hi⟩))) := by
        intro s'
        funext a b
        simp only [setColumn, perUnit]
        split
        · rename_i hb
          subst hb
          change _ / (d _ * pert _) = _ / pert _ / d _
          rw [div_div, mul_comm]
        · rfl
      dsimp only
      rw [hx]
      generalize m.evaluate (m.setIteratives s _) = w
      rcases w with ⟨s', (e | e) | _⟩
      · change fdLoop _ _ _ _ _ _ _ _ (setColumn _ _ (vdiv (vsub (c.res.evaluateUpdate (m.getResiduals s')) _) _)) _ = _
        rw [hcol]
        exact ih _ _ _
      · rfl
      · change fdLoop _ _ _ _ _ _ _ _ (setColumn _ _ (vdiv (vsub (c.res.evaluateUpdate (m.getResiduals s')) _) _)) _ = _
        rw [hcol]
        exact ih _ _ _
    · rfl

theorem perturbations_units (hd : ∀ i, d i ≠ 0) (x : Vec K n) :
    computePerturbations (configInUnits d c).iters (newUnits d x) =
      (computePerturbations c.iters x).map (newUnits d) := by
  unfold computePerturbations
  by_cases h : ∀ i, (c.iters i).computePerturbation.isSome
  · have h' : ∀ i, ((configInUnits d c).iters i).computePerturbation.isSome := by
      intro i
      change ((c.iters i).computePerturbation.map _).isSome
      rw [Option.isSome_map]
      exact h i
    rw [dif_pos h, dif_pos h']
    simp only [Option.map_some, Option.some.injEq]
    funext i
    have key : ∀ (o : Option (K → K)) (h1 : (o.map fun p v => d i * p (v / d i)).isSome) (h2 : o.isSome),
        (o.map fun p v => d i * p (v / d i)).get h1 (d i * x i) = d i * o.get h2 (x i) := by
      intro o h1 h2
      rcases o with _ | p
      · cases h2
      · change d i * p (d i * x i / d i) = d i * p (x i)
        rw [mul_div_cancel_left₀ _ (hd i)]
    exact key _ (h' i) (h i)
  · have h' : ¬∀ i, ((configInUnits d c).iters i).computePerturbation.isSome := by
      intro h'
      refine h fun i => ?_
      have := h' i
      change ((c.iters i).computePerturbation.map _).isSome at this
      rwa [Option.isSome_map] at this
    rw [dif_neg h, dif_neg h']
    rfl

theorem computeJac_units (hL : c.la.IsExact) (hd : ∀ i, d i ≠ 0) (j : JacobianMatrix K n) (s : S) :
    computeJac (configInUnits d c) (modelInUnits d m) (jacobianInUnits d j) s =
      (computeJac c m j s).map fun w => (jacobianInUnits d w.1, w.2) := by
  have hla : (configInUnits d c).la = c.la := rfl
  have hres : (configInUnits d c).res = c.res := rfl
  have hr : (modelInUnits d m).getResiduals s = m.getResiduals s := rfl
  by_cases hp : m.jacobianProvided s = true
  · have hp' : (modelInUnits d m).jacobianProvided s = true := hp
    have hg : (modelInUnits d m).getJacobian s = ((m.getJacobian s).1,
      (m.getJacobian s).2.map fun J => ⟨perUnit d J.left, perUnit d J.right⟩) := rfl
    simp only [computeJac, hp, hp', if_true, analyticJacobian, hg, hr, hla, hres]
    rcases m.getJacobian s with ⟨s1, e | J⟩
    · cases e <;> rfl
    · simp only [Except.map, normalize_units, updateExact_units hL hd]
      rcases j.updateExact c.la (J.normalize (m.getResiduals s) c.res.upd) with ⟨j1, b⟩
      cases b <;> rfl
  · have hp0 : m.jacobianProvided s = false := by simpa using hp
    have hp' : (modelInUnits d m).jacobianProvided s = false := hp0
    have hget : (modelInUnits d m).getIteratives s = newUnits d (m.getIteratives s) := rfl
    simp only [computeJac, hp0, hp', Bool.false_eq_true, if_false, fdJacobian, hget, hla, hres,
      perturbations_units hd]
    rcases computePerturbations c.iters (m.getIteratives s) with _ | pert
    · rfl
    have hfd : fdCompute c.res (modelInUnits d m) (newUnits d pert) s =
        (fdCompute c.res m pert s).map fun w => (w.1, w.2.map (perUnit d)) := by
      have := fdLoop_units (m := m) (c := c) hd pert (m.getMemory s) (m.getIteratives s)
        (c.res.evaluateUpdate (m.getResiduals s)) (m.lenProblem s) 0 mzero s
      have h0 : perUnit d (mzero : Mat K n) = mzero := by
        funext i k
        exact zero_div _
      rw [h0] at this
      exact this
    simp only [Option.map_some, hfd]
    rcases fdCompute c.res m pert s with p | ⟨s1, e | J⟩
    · rfl
    · cases e <;> rfl
    · simp only [Except.map, updateExact_units hL hd]
      rcases j.updateExact c.la J with ⟨j1, b⟩
      cases b <;> rfl

/-! ### The approximations -/

theorem perUnit_mulVec (hd : ∀ i, d i ≠ 0) (A : Mat K n) (x : Vec K n) : perUnit d A *ᵥ newUnits d x = A *ᵥ x := by
  funext i
  change ∑ k, A i k / d k * (d k * x k) = ∑ k, A i k * x k
  refine Finset.sum_congr rfl fun k _ => ?_
  rw [← mul_assoc, div_mul_cancel₀ _ (hd k)]

theorem vecMul_perUnit (A : Mat K n) (y : Vec K n) : y ᵥ* perUnit d A = oldUnits d (y ᵥ* A) := by
  funext k
  change ∑ i, y i * (A i k / d k) = (∑ i, y i * A i k) / d k
  rw [div_eq_mul_inv, Finset.sum_mul]
  exact Finset.sum_congr rfl fun i _ => by rw [div_eq_mul_inv, mul_assoc]

theorem oldUnits_dot (hd : ∀ i, d i ≠ 0) (v w : Vec K n) : oldUnits d v ⬝ᵥ newUnits d w = v ⬝ᵥ w := by
  refine Finset.sum_congr rfl fun k _ => ?_
  change v k / d k * (d k * w k) = v k * w k
  rw [← mul_assoc, div_mul_cancel₀ _ (hd k)]

theorem mul_perUnit (M A : Mat K n) : M * perUnit d A = perUnit d (M * A) := by
  rw [perUnit_eq, perUnit_eq, Matrix.mul_assoc]

theorem newUnitsRows_mulVec (A : Mat K n) (y : Vec K n) : newUnitsRows d A *ᵥ y = newUnits d (A *ᵥ y) := by
  rw [newUnitsRows_eq, newUnits_eq, Matrix.mulVec_mulVec]

theorem newUnits_sub (x y : Vec K n) : newUnits d x - newUnits d y = newUnits d (x - y) := by
  funext i
  exact (mul_sub _ _ _).symm

theorem newUnits_dot {q : K} (hq : ∀ i, d i * d i = q) (v w : Vec K n) :
    newUnits d v ⬝ᵥ newUnits d w = q * (v ⬝ᵥ w) := by
  change ∑ i, d i * v i * (d i * w i) = q * ∑ i, v i * w i
  rw [Finset.mul_sum]
  refine Finset.sum_congr rfl fun k _ => ?_
  rw [← hq k]
  ring

theorem newUnits_vecMul {q : K} (hq : ∀ i, d i * d i = q) (v : Vec K n) (A : Mat K n) :
    newUnits d v ᵥ* newUnitsRows d A = q • (v ᵥ* A) := by
  funext k
  change ∑ i, d i * v i * (d i * A i k) = q * ∑ i, v i * A i k
  rw [Finset.mul_sum]
  refine Finset.sum_congr rfl fun k _ => ?_
  rw [← hq k]
  ring

theorem gram_units {q : K} (hq : ∀ i, d i * d i = q) (A : Mat K n) :
    (newUnitsRows d A)ᵀ * newUnitsRows d A = q • (Aᵀ * A) := by
  funext i k
  change ∑ l, d l * A l i * (d l * A l k) = q * ∑ l, A l i * A l k
  rw [Finset.mul_sum]
  refine Finset.sum_congr rfl fun k _ => ?_
  rw [← hq k]
  ring

theorem broydenSecondJac_units (hL : c.la.IsExact) (hd : ∀ i, d i ≠ 0) (A : Mat K n) (s y z : Vec K n) :
    quasiJac c.la (perUnit d A) (newUnits d s) y z = perUnit d (quasiJac c.la A s y z) := by
  simp only [quasiJac, ex_mulVec hL, ex_vecMul hL, ex_matMul hL, ex_dot hL, perUnit_mulVec hd, vecMul_perUnit,
    oldUnits_dot hd, mul_perUnit, ex_outer]
  funext i k
  change A i k / d k - _ / d k / _ = (A i k - _ / _) / d k
  rw [sub_div, div_right_comm]

theorem quasiInv_units (hL : c.la.IsExact) (A : Mat K n) (s y z : Vec K n) :
    quasiInv c.la (newUnitsRows d A) (newUnits d s) y z = newUnitsRows d (quasiInv c.la A s y z) := by
  simp only [quasiInv, ex_mulVec hL, ex_dot hL, newUnitsRows_mulVec, ex_vsub, newUnits_sub]
  funext i k
  change d i * A i k - d i * (A *ᵥ y - s) i * z k / _ = d i * (A i k - (A *ᵥ y - s) i * z k / _)
  rw [mul_sub, mul_assoc, mul_div_assoc]

theorem quasiInv_scale (hL : c.la.IsExact) {q : K} (hq : q ≠ 0) (A : Mat K n) (s y z : Vec K n) :
    quasiInv c.la A s y (q • z) = quasiInv c.la A s y z := by
  simp only [quasiInv, ex_mulVec hL, ex_dot hL, smul_dotProduct]
  funext i k
  change A i k - vsub (A *ᵥ y) s i * (q * z k) / (q * _) = A i k - vsub (A *ᵥ y) s i * z k / _
  rw [mul_left_comm, mul_div_mul_left _ _ hq]

theorem greenstadtSecondJac_units (hL : c.la.IsExact) (hd : ∀ i, d i ≠ 0) {q : K} (hq : ∀ i, d i * d i = q)
    (A : Mat K n) (s y z : Vec K n) :
    greenstadtSecondJac c.la (perUnit d A) (newUnits d s) y (newUnits d z) =
      perUnit d (greenstadtSecondJac c.la A s y z) := by
  simp only [greenstadtSecondJac, ex_mulVec hL, ex_dot hL, perUnit_mulVec hd, newUnits_dot hq]
  funext i k
  change A i k / d k - vsub (A *ᵥ s) y i * (d k * z k) / (q * (z ⬝ᵥ s)) =
    (A i k - vsub (A *ᵥ s) y i * z k / (z ⬝ᵥ s)) / d k
  rw [← hq k, mul_left_comm, mul_assoc, mul_div_mul_left _ _ (hd k), sub_div, div_div, mul_comm (d k)]

theorem broydenFirstInv_units (hL : c.la.IsExact) (hd : ∀ i, d i ≠ 0) {q : K} (hq : ∀ i, d i * d i = q)
    (A : Mat K n) (s y : Vec K n) :
    broydenFirstInv c.la (newUnitsRows d A) (newUnits d s) y = newUnitsRows d (broydenFirstInv c.la A s y) := by
  simp only [broydenFirstInv, ex_mulVec hL, ex_vecMul hL, ex_matMul hL, ex_dot hL, newUnits_vecMul hq, ex_vsub,
    newUnitsRows_mulVec, newUnits_sub, ex_outer, Matrix.vecMulVec_mul, smul_dotProduct]
  funext i k
  have hq0 : q ≠ 0 := by rw [← hq i]; exact mul_ne_zero (hd i) (hd i)
  change d i * A i k - d i * (A *ᵥ y - s) i * (q * (s ᵥ* A) k) / (q * (s ᵥ* A ⬝ᵥ y)) =
    d i * (A i k - (A *ᵥ y - s) i * (s ᵥ* A) k / (s ᵥ* A ⬝ᵥ y))
  rw [mul_left_comm, mul_div_mul_left _ _ hq0, mul_sub, mul_assoc, mul_div_assoc]

/-- Either the method does not mix units, or all units are the same up to their signs. -/
def UnitsFor (d : Vec K n) (method : ResolutionMethod) : Prop :=
  UnitFree method ∨ ∃ q, ∀ i, d i * d i = q

theorem approximateJacobian_units (hL : c.la.IsExact) (hd : ∀ i, d i ≠ 0) {u : UpdateMethod}
    (hu : UnitsFor d (.QuasiNewton (.JacobianUpdate u))) (j : JacobianMatrix K n) (s y z : Vec K n) :
    approximateJacobian c.la (jacobianInUnits d j) u (newUnits d s) y z =
      (approximateJacobian c.la j u s y z).map fun w => (jacobianInUnits d w.1, w.2) := by
  rcases j with ⟨A, H, b1, b2⟩
  rcases u
  · obtain ⟨q, hq⟩ := hu.resolve_left (by rintro (h | h) <;> cases h)
    rcases A with _ | A
    · rfl
    · exact congrArg Except.ok (by
        dsimp only
        rw [← updateApproximated_units hL hd]
        congr 1
        exact greenstadtSecondJac_units hL hd hq A s y s)
  · rcases A with _ | A
    · rfl
    · exact congrArg Except.ok (by
        dsimp only
        rw [← updateApproximated_units hL hd]
        congr 1
        exact broydenSecondJac_units hL hd A s y y)
  · rcases A with _ | A
    · rfl
    · exact congrArg Except.ok (by
        dsimp only
        rw [← updateApproximated_units hL hd]
        congr 1
        exact broydenSecondJac_units hL hd A s y z)
  · obtain ⟨q, hq⟩ := hu.resolve_left (by rintro (h | h) <;> cases h)
    rcases H with _ | H
    · rfl
    · rcases A with _ | A
      · rfl
      · exact congrArg Except.ok (by
          dsimp only
          rw [← updateApproximated_units hL hd]
          congr 1
          rw [ex_mulVec hL, ex_mulVec hL, newUnitsRows_mulVec]
          exact greenstadtSecondJac_units hL hd hq A s y _)

theorem approximateInvJacobian_units (hL : c.la.IsExact) (hd : ∀ i, d i ≠ 0) {u : UpdateMethod}
    (hu : UnitsFor d (.QuasiNewton (.InverseJacobianUpdate u))) (j : JacobianMatrix K n) (s y z : Vec K n) :
    approximateInvJacobian c.la (jacobianInUnits d j) u (newUnits d s) y z =
      (approximateInvJacobian c.la j u s y z).map (jacobianInUnits d) := by
  have key : ∀ H : Mat K n, (jacobianInUnits d j).updateInverse (newUnitsRows d H) =
    jacobianInUnits d (j.updateInverse H) := fun _ => rfl
  rcases hH : j.inverse with _ | H
  · have hH' : (jacobianInUnits d j).inverse = none := by simp only [jacobianInUnits, hH, Option.map_none]
    simp only [approximateInvJacobian, hH, hH']
    rfl
  have hH' : (jacobianInUnits d j).inverse = some (newUnitsRows d H) := by
    simp only [jacobianInUnits, hH, Option.map_some]
  rcases u
  · obtain ⟨q, hq⟩ := hu.resolve_left (by rintro (h | h) <;> cases h)
    simp only [approximateInvJacobian, hH, hH', Except.map, broydenFirstInv_units hL hd hq, key]
  · have : broydenSecondInv c.la (newUnitsRows d H) (newUnits d s) y = newUnitsRows d (broydenSecondInv c.la H s y) :=
      quasiInv_units hL H s y y
    simp only [approximateInvJacobian, hH, hH', Except.map, this, key]
  · simp only [approximateInvJacobian, hH, hH', Except.map, quasiInv_units hL, key]
  · obtain ⟨q, hq⟩ := hu.resolve_left (by rintro (h | h) <;> cases h)
    simp only [approximateInvJacobian, hH, hH', Except.map, quasiInv_units hL, ex_mulVec hL, ex_matMul hL,
      ex_mtranspose, gram_units hq, Matrix.smul_mulVec]
    rcases isEmpty_or_nonempty (Fin n) with h0 | ⟨⟨i⟩⟩
    · rw [key]
      congr 3
      funext i
      exact h0.elim i
    · have hq0 : q ≠ 0 := by rw [← hq i]; exact mul_ne_zero (hd i) (hd i)
      rw [quasiInv_scale hL hq0, key]

/-! ### The solver -/

theorem logIf_units (st : Solver K n) (e : LogEntry K n) :
    (solverInUnits d st).logIf (entryInUnits d e) = (st.logIf e).map (solverInUnits d) := by
  rcases st with ⟨_ | _, it, _ | l, j, a, b, r, v⟩
  · rfl
  · rfl
  · rfl
  · simp only [Solver.logIf, solverInUnits, if_true, Solver.toLog, Option.map_some, Except.map, List.map_append,
      List.map_cons, List.map_nil]

theorem parametersToLog_units (st : Solver K n) :
    (solverInUnits d st).parametersToLog = (st.parametersToLog).map (solverInUnits d) := by
  rcases st with ⟨_ | _, it, _ | l, j, a, b, r, v⟩
  · rfl
  · rfl
  · rfl
  · simp only [Solver.parametersToLog, solverInUnits, if_true, Solver.toLog, Option.map_some]
    split
    · rfl
    · simp only [Except.map, solverInUnits, Option.map_some, List.map_append, List.map_cons, List.map_nil, entryInUnits]

theorem computeNext_units (hL : c.la.IsExact) (hd : ∀ i, d i ≠ 0) (st : Solver K n) (s : S) :
    computeNext (configInUnits d c) (modelInUnits d m) (solverInUnits d st) s =
      (computeNext c m st s).map (newUnits d) := by
  rcases st with ⟨db, it, l, ⟨A, _ | H, b1, b2⟩, a, b, r, v⟩
  · rfl
  · refine congrArg Except.ok ?_
    funext i
    change d i * (c.iters i).stepLimitation (d i * m.getIteratives s i / d i)
      (mulVec c.la (mneg (newUnitsRows d H)) (c.res.evaluateUpdate (m.getResiduals s)) i / d i) =
      d i * (c.iters i).stepLimitation (m.getIteratives s i)
        (mulVec c.la (mneg H) (c.res.evaluateUpdate (m.getResiduals s)) i)
    have hneg : mneg (newUnitsRows d H) = newUnitsRows d (mneg H) := by
      funext i k
      exact (mul_neg _ _).symm
    rw [mul_div_cancel_left₀ _ (hd i), hneg, ex_mulVec hL, newUnitsRows_mulVec, ex_mulVec hL]
    change d i * (c.iters i).stepLimitation _ (d i * _ / d i) = _
    rw [mul_div_cancel_left₀ _ (hd i)]

/-- The outcome of the computation of a point. -/
def pointInUnits (d : Vec K n) (w : Except Panic (Solver K n × S × Except (SolverInternalError EI EU) (Vec K n))) :
    Except Panic (Solver K n × S × Except (SolverInternalError EI EU) (Vec K n)) :=
  w.map fun p => (solverInUnits d p.1, p.2.1, p.2.2.map (newUnits d))

theorem setJac_units (st : Solver K n) (j : JacobianMatrix K n) :
    ({ solverInUnits d st with jac := jacobianInUnits d j } : Solver K n) = solverInUnits d { st with jac := j } := rfl

theorem newtonRaphsonStep_units (hL : c.la.IsExact) (hd : ∀ i, d i ≠ 0) (st : Solver K n) (s : S) :
    newtonRaphsonStep (configInUnits d c) (modelInUnits d m) (solverInUnits d st) s =
      pointInUnits d (newtonRaphsonStep c m st s) := by
  have hj : (solverInUnits d st).jac = jacobianInUnits d st.jac := rfl
  simp only [newtonRaphsonStep, bind, Except.bind, pure, Except.pure, hj, computeJac_units hL hd]
  rcases computeJac c m st.jac s with p | ⟨j1, s1, r⟩
  · rfl
  · simp only [Except.map, setJac_units]
    have hl := logIf_units (d := d) { st with jac := j1 } (.jacobian j1)
    simp only [entryInUnits] at hl
    rw [hl]
    rcases ({ st with jac := j1 } : Solver K n).logIf (.jacobian j1) with p | st1
    · rfl
    · rcases r with e | _
      · rfl
      · simp only [Except.map, computeNext_units hL hd]
        rcases computeNext c m st1 s1 with p | x <;> rfl

theorem quasiNewtonJacobian_units (hL : c.la.IsExact) (hd : ∀ i, d i ≠ 0) {q : QuasiNewtonMethod}
    (hu : UnitsFor d (.QuasiNewton q)) (st : Solver K n) (s : S) :
    quasiNewtonJacobian (configInUnits d c) (modelInUnits d m) q (solverInUnits d st) s =
      outcomeInUnits d (quasiNewtonJacobian c m q st s) := by
  have hj : (solverInUnits d st).jac = jacobianInUnits d st.jac := rfl
  have hla : (configInUnits d c).la = c.la := rfl
  have hlog : ∀ (st : Solver K n) (j : JacobianMatrix K n),
      (solverInUnits d st).logIf (.jacobian (jacobianInUnits d j)) = (st.logIf (.jacobian j)).map (solverInUnits d) :=
    fun st j => logIf_units st (.jacobian j)
  have hnext : (jacobianInUnits d st.jac).computeNext = st.jac.computeNext := rfl
  simp only [quasiNewtonJacobian, bind, Except.bind, pure, Except.pure, hj, hnext, hla]
  by_cases hn : st.jac.computeNext = true
  · simp only [hn, if_true, computeJac_units hL hd]
    rcases computeJac c m st.jac s with p | ⟨j1, s1, r⟩
    · rfl
    · simp only [Except.map, setJac_units, hlog]
      rcases ({ st with jac := j1 } : Solver K n).logIf (.jacobian j1) with p | st1 <;> rfl
  · simp only [hn, Bool.false_eq_true, if_false]
    rcases q with _ | u | u
    · simp only [hlog]
      rcases st.logIf (.jacobian st.jac) with p | st1 <;> rfl
    · rcases st with ⟨db, it, l, j, _ | a, _ | b, _ | r, v⟩ <;> try rfl
      simp only [solverInUnits, Option.map_some]
      rw [approximateJacobian_units hL hd hu]
      rcases approximateJacobian c.la j u a b r with p | ⟨j1, ok⟩
      · rfl
      · cases ok
        · rfl
        · simp only [Except.map, if_true]
          have := hlog ⟨db, it, l, j1, some a, some b, some r, v⟩ j1
          simp only [solverInUnits, Option.map_some] at this
          rw [this]
          rcases Solver.logIf ⟨db, it, l, j1, some a, some b, some r, v⟩ (.jacobian j1) with p | st1 <;> rfl
    · rcases st with ⟨db, it, l, j, _ | a, _ | b, _ | r, v⟩ <;> try rfl
      simp only [solverInUnits, Option.map_some]
      rw [approximateInvJacobian_units hL hd hu]
      rcases approximateInvJacobian c.la j u a b r with p | j1
      · rfl
      · simp only [Except.map]
        have := hlog ⟨db, it, l, j1, some a, some b, some r, v⟩ j1
        simp only [solverInUnits, Option.map_some] at this
        rw [this]
        rcases Solver.logIf ⟨db, it, l, j1, some a, some b, some r, v⟩ (.jacobian j1) with p | st1 <;> rfl

theorem computeStep_units (hL : c.la.IsExact) (hd : ∀ i, d i ≠ 0) (hu : UnitsFor d c.params.method)
    (st : Solver K n) (s : S) :
    computeStep (configInUnits d c) (modelInUnits d m) (solverInUnits d st) s =
      pointInUnits d (computeStep c m st s) := by
  have hm : (configInUnits d c).params.method = c.params.method := rfl
  unfold computeStep
  rw [hm]
  rcases hmeth : c.params.method with _ | q
  · exact newtonRaphsonStep_units hL hd st s
  · rw [hmeth] at hu
    simp only [quasiNewtonStep, bind, Except.bind, pure, Except.pure, quasiNewtonJacobian_units hL hd hu]
    rcases quasiNewtonJacobian c m q st s with p | ⟨st1, s1, e | _⟩
    · rfl
    · rfl
    · simp only [outcomeInUnits, Except.map, computeNext_units hL hd]
      rcases computeNext c m st1 s1 with p | x <;> rfl

theorem dampedGuess_units (x y : Vec K n) :
    dampedGuess (newUnits d x) (newUnits d y) = newUnits d (dampedGuess x y) := by
  funext i
  change d i * x i * (1 - 1 / 2) + d i * y i * (1 / 2) = d i * (x i * (1 - 1 / 2) + y i * (1 / 2))
  ring

theorem dampingStep_units (hd : ∀ i, d i ≠ 0) (e : K) (x y err : Vec K n) (st : Solver K n) (s : S) :
    dampingStep (configInUnits d c) (modelInUnits d m) e (newUnits d x) (newUnits d y) err (solverInUnits d st) s =
      outcomeInUnits d (dampingStep c m e x y err st s) := by
  have hm : (configInUnits d c).params.method = c.params.method := rfl
  have hap : (solverInUnits d st).jac.approximated = st.jac.approximated := rfl
  have herr : ∀ s, evaluateErrors (configInUnits d c) (modelInUnits d m) s = evaluateErrors c m s := fun _ => rfl
  have hr : ∀ s, (modelInUnits d m).getResiduals s = m.getResiduals s := fun _ => rfl
  have hget : ∀ s, (modelInUnits d m).getIteratives s = newUnits d (m.getIteratives s) := fun _ => rfl
  have hev : ∀ x, (modelInUnits d m).evaluate ((modelInUnits d m).setIteratives s (newUnits d x)) =
      m.evaluate (m.setIteratives s x) := by
    intro x
    change m.evaluate (m.setIteratives s (oldUnits d (newUnits d x))) = _
    rw [oldUnits_newUnits hd]
  unfold dampingStep
  split
  · rw [hm, hap]
    split
    · have := logIf_units (d := d) { st with jac := st.jac.force } .refused
      have h2 : ({ solverInUnits d st with jac := (solverInUnits d st).jac.force } : Solver K n) =
        solverInUnits d { st with jac := st.jac.force } := rfl
      simp only [entryInUnits] at this
      simp only [bind, Except.bind, pure, Except.pure, h2, this]
      rcases ({ st with jac := st.jac.force } : Solver K n).logIf .refused with p | st1 <;> rfl
    · rw [dampedGuess_units, hev]
      rcases m.evaluate (m.setIteratives s (dampedGuess x y)) with ⟨s1, e1 | _⟩
      · rfl
      · have := logIf_units (d := d) st (.damping (m.getIteratives s1) (m.getResiduals s1) (evaluateErrors c m s1))
        simp only [entryInUnits] at this
        simp only [bind, Except.bind, pure, Except.pure, herr, hr, hget, this]
        rcases st.logIf (.damping (m.getIteratives s1) (m.getResiduals s1) (evaluateErrors c m s1)) with p | st1 <;> rfl
  · rfl

theorem storeSteps_units (method : ResolutionMethod) (st : Solver K n) (x y e e' : Vec K n) :
    storeSteps method (solverInUnits d st) (newUnits d x) (newUnits d y) e e' =
      solverInUnits d (storeSteps method st x y e e') := by
  have hs : vsub (newUnits d x) (newUnits d y) = newUnits d (vsub x y) := newUnits_sub x y
  rcases method with _ | _ | u | u
  · rfl
  · rfl
  · simp only [storeSteps, hs]; rfl
  · simp only [storeSteps, hs]; rfl

theorem finishUpdate_units (hd : ∀ i, d i ≠ 0) (err x y : Vec K n) (st : Solver K n) (s : S) :
    finishUpdate (configInUnits d c) (modelInUnits d m) err (newUnits d x) (newUnits d y) (solverInUnits d st) s =
      outcomeInUnits d (finishUpdate c m err x y st s) := by
  have herr : ∀ s, evaluateErrors (configInUnits d c) (modelInUnits d m) s = evaluateErrors c m s := fun _ => rfl
  have hr : ∀ s, (modelInUnits d m).getResiduals s = m.getResiduals s := fun _ => rfl
  have hget : ∀ s, (modelInUnits d m).getIteratives s = newUnits d (m.getIteratives s) := fun _ => rfl
  have hm : (configInUnits d c).params = c.params := rfl
  have hi : (solverInUnits d st).iter = st.iter := rfl
  have := logIf_units (d := d) st (.iteration st.iter (m.getIteratives s) (m.getResiduals s) (evaluateErrors c m s))
  simp only [entryInUnits] at this
  simp only [finishUpdate, bind, Except.bind, pure, Except.pure, herr, hr, hget, hm, hi, this]
  rcases st.logIf (.iteration st.iter (m.getIteratives s) (m.getResiduals s) (evaluateErrors c m s)) with p | st1
  · rfl
  · simp only [Except.map]
    by_cases hdm : c.params.damping = true
    · simp only [hdm, if_true, dampingStep_units hd]
      rcases dampingStep c m (amax err) x y (evaluateErrors c m s) st1 s with p | ⟨st2, s2, e2⟩
      · rfl
      · simp only [outcomeInUnits, Except.map, storeSteps_units]
    · simp only [hdm, Bool.false_eq_true, if_false, outcomeInUnits, Except.map, storeSteps_units]

theorem updateModel_units (hd : ∀ i, d i ≠ 0) (x : Vec K n) (st : Solver K n) (s : S) :
    updateModel (configInUnits d c) (modelInUnits d m) (newUnits d x) (solverInUnits d st) s =
      outcomeInUnits d (updateModel c m x st s) := by
  have herr : evaluateErrors (configInUnits d c) (modelInUnits d m) s = evaluateErrors c m s := rfl
  have hget : (modelInUnits d m).getIteratives s = newUnits d (m.getIteratives s) := rfl
  have hev : (modelInUnits d m).evaluate ((modelInUnits d m).setIteratives s (newUnits d x)) =
      m.evaluate (m.setIteratives s x) := by
    change m.evaluate (m.setIteratives s (oldUnits d (newUnits d x))) = _
    rw [oldUnits_newUnits hd]
  have hv : ∀ b, ({ solverInUnits d st with valid := b } : Solver K n) = solverInUnits d { st with valid := b } :=
    fun _ => rfl
  simp only [updateModel, hev, herr, hget, hv, finishUpdate_units hd, bind, Except.bind, pure, Except.pure]
  rcases m.evaluate (m.setIteratives s x) with ⟨s1, (e | e) | _⟩
  · simp only
    rcases finishUpdate c m (evaluateErrors c m s) (m.getIteratives s) x { st with valid := false } s1 with
      p | ⟨st2, s2, e2⟩ <;> rfl
  · rfl
  · simp only
    rcases finishUpdate c m (evaluateErrors c m s) (m.getIteratives s) x { st with valid := true } s1 with
      p | ⟨st2, s2, e2⟩ <;> rfl

theorem iterate_units (hL : c.la.IsExact) (hd : ∀ i, d i ≠ 0) (hu : UnitsFor d c.params.method)
    (st : Solver K n) (s : S) :
    iterate (configInUnits d c) (modelInUnits d m) (solverInUnits d st) s = outcomeInUnits d (iterate c m st s) := by
  have hi : ({ solverInUnits d st with iter := (solverInUnits d st).iter + 1 } : Solver K n) =
    solverInUnits d { st with iter := st.iter + 1 } := rfl
  simp only [iterate, bind, Except.bind, pure, Except.pure, hi, computeStep_units hL hd hu]
  rcases computeStep c m { st with iter := st.iter + 1 } s with p | ⟨st1, s1, e | x⟩
  · rfl
  · rfl
  · simp only [pointInUnits, Except.map, updateModel_units hd]
    rcases updateModel c m x st1 s1 with p | ⟨st2, s2, e | e⟩ <;> rfl

theorem loop_units (hL : c.la.IsExact) (hd : ∀ i, d i ≠ 0) (hu : UnitsFor d c.params.method) :
    ∀ (fuel : Nat) (st : Solver K n) (s : S) (e : K),
    loop (configInUnits d c) (modelInUnits d m) fuel (solverInUnits d st) s e =
      outcomeInUnits d (loop c m fuel st s e) := by
  intro fuel
  induction fuel with
  | zero => intro st s e; rfl
  | succ fuel ih =>
    intro st s e
    have hc : continues (configInUnits d c) (solverInUnits d st) e = continues c st e := rfl
    rw [loop.eq_2, loop.eq_2, hc, iterate_units hL hd hu]
    split
    · rcases iterate c m st s with p | ⟨st1, s1, e1 | e1⟩
      · rfl
      · rfl
      · exact ih st1 s1 e1
    · rfl

theorem solve_units (hL : c.la.IsExact) (hd : ∀ i, d i ≠ 0) (hu : UnitsFor d c.params.method)
    (st : Solver K n) (s : S) :
    solve (configInUnits d c) (modelInUnits d m) (solverInUnits d st) s = outcomeInUnits d (solve c m st s) := by
  have herr : ∀ s, evaluateErrors (configInUnits d c) (modelInUnits d m) s = evaluateErrors c m s := fun _ => rfl
  have hr : ∀ s, (modelInUnits d m).getResiduals s = m.getResiduals s := fun _ => rfl
  have hget : ∀ s, (modelInUnits d m).getIteratives s = newUnits d (m.getIteratives s) := fun _ => rfl
  have hev : (modelInUnits d m).evaluate ((modelInUnits d m).setIteratives s (configInUnits d c).guess) =
      m.evaluate (m.setIteratives s c.guess) := by
    change m.evaluate (m.setIteratives s (oldUnits d (newUnits d c.guess))) = _
    rw [oldUnits_newUnits hd]
  have hfrom : ∀ s, solveFrom (configInUnits d c) (modelInUnits d m) (solverInUnits d st) s =
      outcomeInUnits d (solveFrom c m st s) := by
    intro s
    have hm : (configInUnits d c).params = c.params := rfl
    simp only [solveFrom, bind, Except.bind, pure, Except.pure, herr, hr, hget, parametersToLog_units]
    rcases st.parametersToLog with p | st1
    · rfl
    · have := logIf_units (d := d) st1
        (.iteration st1.iter (m.getIteratives s) (m.getResiduals s) (evaluateErrors c m s))
      simp only [entryInUnits] at this
      have hi : (solverInUnits d st1).iter = st1.iter := rfl
      simp only [Except.map, hi, this]
      rcases st1.logIf (.iteration st1.iter (m.getIteratives s) (m.getResiduals s) (evaluateErrors c m s)) with p | st2
      · rfl
      · have hi : (solverInUnits d st2).iter = st2.iter := rfl
        simp only [hi, loop_units hL hd hu, hm]
        rcases loop c m (c.params.maxIter - st2.iter) st2 s (amax (evaluateErrors c m s)) with p | ⟨st3, s3, e | e⟩ <;>
          rfl
  unfold solve
  rw [hev]
  rcases m.evaluate (m.setIteratives s c.guess) with ⟨s1, (e | e) | _⟩
  · exact hfrom s1
  · rfl
  · exact hfrom s1

end
end Nrf
