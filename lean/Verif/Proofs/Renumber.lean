import Verif.Spec.Renumber
import Verif.Proofs.ExactMat
import Verif.Proofs.Loop

/-!
# A solve with renumbered variables and equations
-/

set_option linter.unusedSectionVars false

namespace Nrf
open Spec
open scoped Exact
open Matrix

section
variable {K : Type} [Field K] [LinearOrder K] [IsStrictOrderedRing K] {n : Nat} {EI EU S : Type}
variable {c : Config K n} {m : UserModel K n EI EU S} {σ τ : Equiv.Perm (Fin n)}

theorem renumber_back (x : Vec K n) : (x ∘ σ) ∘ σ.symm = x := by
  funext i
  simp only [Function.comp_apply, Equiv.apply_symm_apply]

theorem amax_renumber (v : Vec K n) : amax (v ∘ τ) = amax v := by
  refine le_antisymm ?_ ?_
  · rw [amax_le_iff _ (amax_nonneg _)]
    exact fun i => abs_le_amax v (τ i)
  · rw [amax_le_iff _ (amax_nonneg _)]
    intro i
    have := abs_le_amax (v ∘ τ) (τ.symm i)
    rwa [Function.comp_apply, Equiv.apply_symm_apply] at this

theorem det_renumber (A : Mat K n) : (renumberMat σ τ A).det = 0 ↔ A.det = 0 := by
  have h : IsUnit (Matrix.submatrix A τ σ) ↔ IsUnit A := Matrix.isUnit_submatrix_equiv τ σ
  rw [Matrix.isUnit_iff_isUnit_det, Matrix.isUnit_iff_isUnit_det, isUnit_iff_ne_zero, isUnit_iff_ne_zero] at h
  exact not_iff_not.1 h

/-! ### The inverse -/

theorem update_renumber (hL : c.la.IsExact) (j : JacobianMatrix K n) (A : Mat K n) :
    (renumberJacobian σ τ j).update c.la (renumberMat σ τ A) =
      (renumberJacobian σ τ (j.update c.la A).1, (j.update c.la A).2) := by
  unfold JacobianMatrix.update
  by_cases h : A.det = 0
  · rw [hL.inv_none _ h, hL.inv_none _ (det_renumber A |>.2 h)]
    rfl
  · rw [hL.inv_some _ h, hL.inv_some _ (fun h' => h ((det_renumber A).1 h'))]
    simp only [renumberJacobian, Option.map_some]
    have : (renumberMat σ τ A)⁻¹ = renumberMat τ σ A⁻¹ := Matrix.inv_submatrix_equiv A τ σ
    rw [this]

theorem updateExact_renumber (hL : c.la.IsExact) (j : JacobianMatrix K n) (A : Mat K n) :
    (renumberJacobian σ τ j).updateExact c.la (renumberMat σ τ A) =
      (renumberJacobian σ τ (j.updateExact c.la A).1, (j.updateExact c.la A).2) :=
  update_renumber hL { j with approximated := false } A

theorem updateApproximated_renumber (hL : c.la.IsExact) (j : JacobianMatrix K n) (A : Mat K n) :
    (renumberJacobian σ τ j).updateApproximated c.la (renumberMat σ τ A) =
      (renumberJacobian σ τ (j.updateApproximated c.la A).1, (j.updateApproximated c.la A).2) :=
  update_renumber hL { j with approximated := true } A

/-! ### The Jacobian -/

/-- Finite differences depend on the order of the variables. -/
def Ordered (m : UserModel K n EI EU S) (σ : Equiv.Perm (Fin n)) : Prop :=
  (∀ s, m.jacobianProvided s = true) ∨ σ = 1

theorem fdLoop_renumber (pert : Vec K n) (mem : List K) (x r : Vec K n) :
    ∀ (k i : Nat) (J : Mat K n) (s : S),
    fdLoop (renumberConfig 1 τ c).res (renumberModel 1 τ m) pert mem x (r ∘ τ) k i (renumberMat 1 τ J) s =
      (fdLoop c.res m pert mem x r k i J s).map fun w => (w.1, w.2.map (renumberMat 1 τ)) := by
  intro k
  induction k with
  | zero => intro i J s; rfl
  | succ k ih =>
    intro i J s
    unfold fdLoop
    split
    · rename_i hi
      dsimp only
      have hev : ∀ x, (renumberModel 1 τ m).evaluate ((renumberModel 1 τ m).setIteratives s x) =
        m.evaluate (m.setIteratives s x) := fun _ => rfl
      rw [hev]
      generalize m.evaluate (m.setIteratives s _) = w
      rcases w with ⟨s', (e | e) | _⟩
      · exact ih (i + 1) (setColumn J ⟨i, hi⟩ (vdiv (vsub (c.res.evaluateUpdate (m.getResiduals s')) r)
          (pert ⟨i, hi⟩))) (m.setMemory s' mem)
      · rfl
      · exact ih (i + 1) (setColumn J ⟨i, hi⟩ (vdiv (vsub (c.res.evaluateUpdate (m.getResiduals s')) r)
          (pert ⟨i, hi⟩))) (m.setMemory s' mem)
    · rfl

theorem computeJac_renumber (hL : c.la.IsExact) (hJ : Ordered m σ) (j : JacobianMatrix K n) (s : S) :
    computeJac (renumberConfig σ τ c) (renumberModel σ τ m) (renumberJacobian σ τ j) s =
      (computeJac c m j s).map fun w => (renumberJacobian σ τ w.1, w.2) := by
  have hla : (renumberConfig σ τ c).la = c.la := rfl
  by_cases hp : m.jacobianProvided s = true
  · have hp' : (renumberModel σ τ m).jacobianProvided s = true := hp
    have hg : (renumberModel σ τ m).getJacobian s = ((m.getJacobian s).1,
      (m.getJacobian s).2.map fun J => ⟨renumberMat σ τ J.left, renumberMat σ τ J.right⟩) := rfl
    have hn : ∀ J : JacobianValues K n,
        (⟨renumberMat σ τ J.left, renumberMat σ τ J.right⟩ : JacobianValues K n).normalize
          ((renumberModel σ τ m).getResiduals s) (renumberConfig σ τ c).res.upd =
        renumberMat σ τ (J.normalize (m.getResiduals s) c.res.upd) := fun _ => rfl
    simp only [computeJac, hp, hp', if_true, analyticJacobian, hg, hla]
    rcases m.getJacobian s with ⟨s1, e | J⟩
    · cases e <;> rfl
    · simp only [Except.map, hn, updateExact_renumber hL]
      rcases j.updateExact c.la (J.normalize (m.getResiduals s) c.res.upd) with ⟨j1, b⟩
      cases b <;> rfl
  · obtain rfl : σ = 1 := hJ.resolve_left fun h => hp (h s)
    have hp0 : m.jacobianProvided s = false := by simpa using hp
    have hp' : (renumberModel 1 τ m).jacobianProvided s = false := hp0
    have hpert : computePerturbations (renumberConfig 1 τ c).iters ((renumberModel 1 τ m).getIteratives s) =
      computePerturbations c.iters (m.getIteratives s) := rfl
    simp only [computeJac, hp0, hp', Bool.false_eq_true, if_false, fdJacobian, hla, hpert]
    rcases computePerturbations c.iters (m.getIteratives s) with _ | pert
    · rfl
    have hfd : fdCompute (renumberConfig 1 τ c).res (renumberModel 1 τ m) pert s =
        (fdCompute c.res m pert s).map fun w => (w.1, w.2.map (renumberMat 1 τ)) :=
      fdLoop_renumber (m := m) (c := c) pert (m.getMemory s) (m.getIteratives s)
        (c.res.evaluateUpdate (m.getResiduals s)) (m.lenProblem s) 0 mzero s
    simp only [hfd]
    rcases fdCompute c.res m pert s with p | ⟨s1, e | J⟩
    · rfl
    · cases e <;> rfl
    · simp only [Except.map, updateExact_renumber hL]
      rcases j.updateExact c.la J with ⟨j1, b⟩
      cases b <;> rfl

/-! ### The approximations -/

theorem renumber_mulVec (A : Mat K n) (x : Vec K n) : renumberMat σ τ A *ᵥ (x ∘ σ) = (A *ᵥ x) ∘ τ := by
  funext i
  exact Equiv.sum_comp σ fun k => A (τ i) k * x k

theorem renumber_vecMul (A : Mat K n) (y : Vec K n) : (y ∘ τ) ᵥ* renumberMat σ τ A = (y ᵥ* A) ∘ σ := by
  funext k
  exact Equiv.sum_comp τ fun i => y i * A i (σ k)

theorem renumber_dot (v w : Vec K n) : (v ∘ σ) ⬝ᵥ (w ∘ σ) = v ⬝ᵥ w := Equiv.sum_comp σ fun k => v k * w k

theorem renumber_mul {ρ : Equiv.Perm (Fin n)} (A B : Mat K n) :
    renumberMat σ τ A * renumberMat ρ σ B = renumberMat ρ τ (A * B) := by
  funext i k
  exact Equiv.sum_comp σ fun l => A (τ i) l * B l (ρ k)

theorem quasiJac_renumber (hL : c.la.IsExact) (A : Mat K n) (s y z : Vec K n) :
    quasiJac c.la (renumberMat σ τ A) (s ∘ σ) (y ∘ τ) (z ∘ τ) = renumberMat σ τ (quasiJac c.la A s y z) := by
  have ho : ∀ v : Vec K n, outer (vsub (v ∘ τ) (y ∘ τ)) (z ∘ τ) = renumberMat τ τ (outer (vsub v y) z) :=
    fun _ => rfl
  simp only [quasiJac, ex_mulVec hL, ex_vecMul hL, ex_matMul hL, ex_dot hL, renumber_mulVec, renumber_vecMul,
    renumber_dot, ho, renumber_mul]
  rfl

theorem quasiInv_renumber (hL : c.la.IsExact) (A : Mat K n) (s y z : Vec K n) :
    quasiInv c.la (renumberMat τ σ A) (s ∘ σ) (y ∘ τ) (z ∘ τ) = renumberMat τ σ (quasiInv c.la A s y z) := by
  simp only [quasiInv, ex_mulVec hL, ex_dot hL, renumber_mulVec, renumber_dot]
  rfl

theorem greenstadtSecondJac_renumber (hL : c.la.IsExact) (A : Mat K n) (s y z : Vec K n) :
    greenstadtSecondJac c.la (renumberMat σ τ A) (s ∘ σ) (y ∘ τ) (z ∘ σ) =
      renumberMat σ τ (greenstadtSecondJac c.la A s y z) := by
  simp only [greenstadtSecondJac, ex_mulVec hL, ex_dot hL, renumber_mulVec, renumber_dot]
  rfl

theorem broydenFirstInv_renumber (hL : c.la.IsExact) (A : Mat K n) (s y : Vec K n) :
    broydenFirstInv c.la (renumberMat τ σ A) (s ∘ σ) (y ∘ τ) = renumberMat τ σ (broydenFirstInv c.la A s y) := by
  have ho : ∀ v : Vec K n, outer (vsub (v ∘ σ) (s ∘ σ)) (s ∘ σ) = renumberMat σ σ (outer (vsub v s) s) :=
    fun _ => rfl
  simp only [broydenFirstInv, ex_mulVec hL, ex_vecMul hL, ex_matMul hL, ex_dot hL, renumber_mulVec, renumber_vecMul,
    renumber_dot, ho, renumber_mul]
  rfl

theorem approximateJacobian_renumber (hL : c.la.IsExact) (u : UpdateMethod) (j : JacobianMatrix K n) (s y z : Vec K n) :
    approximateJacobian c.la (renumberJacobian σ τ j) u (s ∘ σ) (y ∘ τ) (z ∘ τ) =
      (approximateJacobian c.la j u s y z).map fun w => (renumberJacobian σ τ w.1, w.2) := by
  rcases j with ⟨A, H, b1, b2⟩
  rcases u
  · rcases A with _ | A
    · rfl
    · exact congrArg Except.ok (by
        dsimp only
        rw [← updateApproximated_renumber hL]
        congr 1
        exact greenstadtSecondJac_renumber hL A s y s)
  · rcases A with _ | A
    · rfl
    · exact congrArg Except.ok (by
        dsimp only
        rw [← updateApproximated_renumber hL]
        congr 1
        exact quasiJac_renumber hL A s y y)
  · rcases A with _ | A
    · rfl
    · exact congrArg Except.ok (by
        dsimp only
        rw [← updateApproximated_renumber hL]
        congr 1
        exact quasiJac_renumber hL A s y z)
  · rcases H with _ | H
    · rfl
    · rcases A with _ | A
      · rfl
      · exact congrArg Except.ok (by
          dsimp only
          rw [← updateApproximated_renumber hL]
          congr 1
          rw [ex_mulVec hL, ex_mulVec hL, renumber_mulVec]
          exact greenstadtSecondJac_renumber hL A s y _)

theorem approximateInvJacobian_renumber (hL : c.la.IsExact) (u : UpdateMethod) (j : JacobianMatrix K n)
    (s y z : Vec K n) :
    approximateInvJacobian c.la (renumberJacobian σ τ j) u (s ∘ σ) (y ∘ τ) (z ∘ τ) =
      (approximateInvJacobian c.la j u s y z).map (renumberJacobian σ τ) := by
  have key : ∀ H : Mat K n, (renumberJacobian σ τ j).updateInverse (renumberMat τ σ H) =
    renumberJacobian σ τ (j.updateInverse H) := fun _ => rfl
  rcases hH : j.inverse with _ | H
  · have hH' : (renumberJacobian σ τ j).inverse = none := by simp only [renumberJacobian, hH, Option.map_none]
    simp only [approximateInvJacobian, hH, hH']
    rfl
  have hH' : (renumberJacobian σ τ j).inverse = some (renumberMat τ σ H) := by
    simp only [renumberJacobian, hH, Option.map_some]
  rcases u
  · simp only [approximateInvJacobian, hH, hH', Except.map, broydenFirstInv_renumber hL, key]
  · have : broydenSecondInv c.la (renumberMat τ σ H) (s ∘ σ) (y ∘ τ) = renumberMat τ σ (broydenSecondInv c.la H s y) :=
      quasiInv_renumber hL H s y y
    simp only [approximateInvJacobian, hH, hH', Except.map, this, key]
  · simp only [approximateInvJacobian, hH, hH', Except.map, quasiInv_renumber hL, key]
  · have ht : mtranspose (renumberMat τ σ H) = renumberMat σ τ (mtranspose H) := rfl
    simp only [approximateInvJacobian, hH, hH', Except.map, ex_mulVec hL, ex_matMul hL, ht, renumber_mul,
      renumber_mulVec, quasiInv_renumber hL, key]

/-! ### The solver -/

theorem logIf_renumber (st : Solver K n) (e : LogEntry K n) :
    (renumberSolver σ τ st).logIf (renumberEntry σ τ e) = (st.logIf e).map (renumberSolver σ τ) := by
  rcases st with ⟨_ | _, it, _ | l, j, a, b, r, v⟩
  · rfl
  · rfl
  · rfl
  · simp only [Solver.logIf, renumberSolver, if_true, Solver.toLog, Option.map_some, Except.map, List.map_append,
      List.map_cons, List.map_nil]

theorem parametersToLog_renumber (st : Solver K n) :
    (renumberSolver σ τ st).parametersToLog = (st.parametersToLog).map (renumberSolver σ τ) := by
  rcases st with ⟨_ | _, it, _ | l, j, a, b, r, v⟩
  · rfl
  · rfl
  · rfl
  · simp only [Solver.parametersToLog, renumberSolver, if_true, Solver.toLog, Option.map_some]
    split
    · rfl
    · simp only [Except.map, renumberSolver, Option.map_some, List.map_append, List.map_cons, List.map_nil, renumberEntry]

theorem computeNext_renumber (hL : c.la.IsExact) (st : Solver K n) (s : S) :
    computeNext (renumberConfig σ τ c) (renumberModel σ τ m) (renumberSolver σ τ st) s =
      (computeNext c m st s).map (· ∘ σ) := by
  rcases st with ⟨db, it, l, ⟨A, _ | H, b1, b2⟩, a, b, r, v⟩
  · rfl
  · refine congrArg Except.ok ?_
    funext i
    change (c.iters (σ i)).stepLimitation (m.getIteratives s (σ i))
      (mulVec c.la (renumberMat τ σ (mneg H)) (c.res.evaluateUpdate (m.getResiduals s) ∘ τ) i) =
      (c.iters (σ i)).stepLimitation (m.getIteratives s (σ i))
        (mulVec c.la (mneg H) (c.res.evaluateUpdate (m.getResiduals s)) (σ i))
    rw [ex_mulVec hL, renumber_mulVec, ex_mulVec hL]
    rfl

/-- The outcome of the computation of a point. -/
def renumberPoint (σ τ : Equiv.Perm (Fin n))
    (w : Except Panic (Solver K n × S × Except (SolverInternalError EI EU) (Vec K n))) :
    Except Panic (Solver K n × S × Except (SolverInternalError EI EU) (Vec K n)) :=
  w.map fun p => (renumberSolver σ τ p.1, p.2.1, p.2.2.map (· ∘ σ))

theorem setJac_renumber (st : Solver K n) (j : JacobianMatrix K n) :
    ({ renumberSolver σ τ st with jac := renumberJacobian σ τ j } : Solver K n) =
      renumberSolver σ τ { st with jac := j } := rfl

theorem newtonRaphsonStep_renumber (hL : c.la.IsExact) (hJ : Ordered m σ) (st : Solver K n) (s : S) :
    newtonRaphsonStep (renumberConfig σ τ c) (renumberModel σ τ m) (renumberSolver σ τ st) s =
      renumberPoint σ τ (newtonRaphsonStep c m st s) := by
  have hj : (renumberSolver σ τ st).jac = renumberJacobian σ τ st.jac := rfl
  simp only [newtonRaphsonStep, bind, Except.bind, pure, Except.pure, hj, computeJac_renumber hL hJ]
  rcases computeJac c m st.jac s with p | ⟨j1, s1, r⟩
  · rfl
  · simp only [Except.map, setJac_renumber]
    have hl := logIf_renumber (σ := σ) (τ := τ) { st with jac := j1 } (.jacobian j1)
    simp only [renumberEntry] at hl
    rw [hl]
    rcases ({ st with jac := j1 } : Solver K n).logIf (.jacobian j1) with p | st1
    · rfl
    · rcases r with e | _
      · rfl
      · simp only [Except.map, computeNext_renumber hL]
        rcases computeNext c m st1 s1 with p | x <;> rfl

theorem quasiNewtonJacobian_renumber (hL : c.la.IsExact) (hJ : Ordered m σ) (q : QuasiNewtonMethod)
    (st : Solver K n) (s : S) :
    quasiNewtonJacobian (renumberConfig σ τ c) (renumberModel σ τ m) q (renumberSolver σ τ st) s =
      renumberOutcome σ τ (quasiNewtonJacobian c m q st s) := by
  have hj : (renumberSolver σ τ st).jac = renumberJacobian σ τ st.jac := rfl
  have hla : (renumberConfig σ τ c).la = c.la := rfl
  have hlog : ∀ (st : Solver K n) (j : JacobianMatrix K n), (renumberSolver σ τ st).logIf
      (.jacobian (renumberJacobian σ τ j)) = (st.logIf (.jacobian j)).map (renumberSolver σ τ) :=
    fun st j => logIf_renumber st (.jacobian j)
  have hnext : (renumberJacobian σ τ st.jac).computeNext = st.jac.computeNext := rfl
  simp only [quasiNewtonJacobian, bind, Except.bind, pure, Except.pure, hj, hnext, hla]
  by_cases hn : st.jac.computeNext = true
  · simp only [hn, if_true, computeJac_renumber hL hJ]
    rcases computeJac c m st.jac s with p | ⟨j1, s1, r⟩
    · rfl
    · simp only [Except.map, setJac_renumber, hlog]
      rcases ({ st with jac := j1 } : Solver K n).logIf (.jacobian j1) with p | st1 <;> rfl
  · simp only [hn, Bool.false_eq_true, if_false]
    rcases q with _ | u | u
    · simp only [hlog]
      rcases st.logIf (.jacobian st.jac) with p | st1 <;> rfl
    · rcases st with ⟨db, it, l, j, _ | a, _ | b, _ | r, v⟩ <;> try rfl
      simp only [renumberSolver, Option.map_some]
      rw [approximateJacobian_renumber hL u]
      rcases approximateJacobian c.la j u a b r with p | ⟨j1, ok⟩
      · rfl
      · cases ok
        · rfl
        · simp only [Except.map, if_true]
          have := hlog ⟨db, it, l, j1, some a, some b, some r, v⟩ j1
          simp only [renumberSolver, Option.map_some] at this
          rw [this]
          rcases Solver.logIf ⟨db, it, l, j1, some a, some b, some r, v⟩ (.jacobian j1) with p | st1 <;> rfl
    · rcases st with ⟨db, it, l, j, _ | a, _ | b, _ | r, v⟩ <;> try rfl
      simp only [renumberSolver, Option.map_some]
      rw [approximateInvJacobian_renumber hL u]
      rcases approximateInvJacobian c.la j u a b r with p | j1
      · rfl
      · simp only [Except.map]
        have := hlog ⟨db, it, l, j1, some a, some b, some r, v⟩ j1
        simp only [renumberSolver, Option.map_some] at this
        rw [this]
        rcases Solver.logIf ⟨db, it, l, j1, some a, some b, some r, v⟩ (.jacobian j1) with p | st1 <;> rfl

theorem computeStep_renumber (hL : c.la.IsExact) (hJ : Ordered m σ) (st : Solver K n) (s : S) :
    computeStep (renumberConfig σ τ c) (renumberModel σ τ m) (renumberSolver σ τ st) s =
      renumberPoint σ τ (computeStep c m st s) := by
  have hm : (renumberConfig σ τ c).params.method = c.params.method := rfl
  unfold computeStep
  rw [hm]
  rcases c.params.method with _ | q
  · exact newtonRaphsonStep_renumber hL hJ st s
  · simp only [quasiNewtonStep, bind, Except.bind, pure, Except.pure, quasiNewtonJacobian_renumber hL hJ]
    rcases quasiNewtonJacobian c m q st s with p | ⟨st1, s1, e | _⟩
    · rfl
    · rfl
    · simp only [renumberOutcome, Except.map, computeNext_renumber hL]
      rcases computeNext c m st1 s1 with p | x <;> rfl

/-- The outcome of an update: the errors are renumbered. -/
def renumberErrors (σ τ : Equiv.Perm (Fin n)) (w : Except Panic (Solver K n × S × Vec K n)) :
    Except Panic (Solver K n × S × Vec K n) :=
  w.map fun p => (renumberSolver σ τ p.1, p.2.1, p.2.2 ∘ τ)

theorem evaluateErrors_renumber (s : S) :
    evaluateErrors (renumberConfig σ τ c) (renumberModel σ τ m) s = evaluateErrors c m s ∘ τ := rfl

theorem evaluate_renumber (s : S) (x : Vec K n) :
    (renumberModel σ τ m).evaluate ((renumberModel σ τ m).setIteratives s (x ∘ σ)) =
      m.evaluate (m.setIteratives s x) := by
  change m.evaluate (m.setIteratives s ((x ∘ σ) ∘ σ.symm)) = _
  rw [renumber_back]

theorem dampingStep_renumber (e : K) (x y err : Vec K n) (st : Solver K n) (s : S) :
    dampingStep (renumberConfig σ τ c) (renumberModel σ τ m) e (x ∘ σ) (y ∘ σ) (err ∘ τ) (renumberSolver σ τ st) s =
      renumberErrors σ τ (dampingStep c m e x y err st s) := by
  have hm : (renumberConfig σ τ c).params.method = c.params.method := rfl
  have hap : (renumberSolver σ τ st).jac.approximated = st.jac.approximated := rfl
  have hr : ∀ s, (renumberModel σ τ m).getResiduals s =
    ⟨(m.getResiduals s).left ∘ τ, (m.getResiduals s).right ∘ τ⟩ := fun _ => rfl
  have hget : ∀ s, (renumberModel σ τ m).getIteratives s = m.getIteratives s ∘ σ := fun _ => rfl
  have hg : dampedGuess (x ∘ σ) (y ∘ σ) = dampedGuess x y ∘ σ := rfl
  unfold dampingStep
  rw [amax_renumber]
  split
  · rw [hm, hap]
    split
    · have := logIf_renumber (σ := σ) (τ := τ) { st with jac := st.jac.force } .refused
      have h2 : ({ renumberSolver σ τ st with jac := (renumberSolver σ τ st).jac.force } : Solver K n) =
        renumberSolver σ τ { st with jac := st.jac.force } := rfl
      simp only [renumberEntry] at this
      simp only [bind, Except.bind, pure, Except.pure, h2, this]
      rcases ({ st with jac := st.jac.force } : Solver K n).logIf .refused with p | st1 <;> rfl
    · rw [hg, evaluate_renumber]
      rcases m.evaluate (m.setIteratives s (dampedGuess x y)) with ⟨s1, e1 | _⟩
      · rfl
      · have := logIf_renumber (σ := σ) (τ := τ) st
          (.damping (m.getIteratives s1) (m.getResiduals s1) (evaluateErrors c m s1))
        simp only [renumberEntry] at this
        simp only [bind, Except.bind, pure, Except.pure, evaluateErrors_renumber, hr, hget, this]
        rcases st.logIf (.damping (m.getIteratives s1) (m.getResiduals s1) (evaluateErrors c m s1)) with p | st1 <;> rfl
  · rfl

theorem storeSteps_renumber (method : ResolutionMethod) (st : Solver K n) (x y e e' : Vec K n) :
    storeSteps method (renumberSolver σ τ st) (x ∘ σ) (y ∘ σ) (e ∘ τ) (e' ∘ τ) =
      renumberSolver σ τ (storeSteps method st x y e e') := by
  rcases method with _ | _ | u | u <;> rfl

theorem finishUpdate_renumber (err x y : Vec K n) (st : Solver K n) (s : S) :
    finishUpdate (renumberConfig σ τ c) (renumberModel σ τ m) (err ∘ τ) (x ∘ σ) (y ∘ σ) (renumberSolver σ τ st) s =
      renumberErrors σ τ (finishUpdate c m err x y st s) := by
  have hr : ∀ s, (renumberModel σ τ m).getResiduals s =
    ⟨(m.getResiduals s).left ∘ τ, (m.getResiduals s).right ∘ τ⟩ := fun _ => rfl
  have hget : ∀ s, (renumberModel σ τ m).getIteratives s = m.getIteratives s ∘ σ := fun _ => rfl
  have hm : (renumberConfig σ τ c).params = c.params := rfl
  have hi : (renumberSolver σ τ st).iter = st.iter := rfl
  have := logIf_renumber (σ := σ) (τ := τ) st
    (.iteration st.iter (m.getIteratives s) (m.getResiduals s) (evaluateErrors c m s))
  simp only [renumberEntry] at this
  simp only [finishUpdate, bind, Except.bind, pure, Except.pure, evaluateErrors_renumber, hr, hget, hm, hi, this]
  rcases st.logIf (.iteration st.iter (m.getIteratives s) (m.getResiduals s) (evaluateErrors c m s)) with p | st1
  · rfl
  · simp only [Except.map]
    by_cases hdm : c.params.damping = true
    · simp only [hdm, if_true, amax_renumber, dampingStep_renumber]
      rcases dampingStep c m (amax err) x y (evaluateErrors c m s) st1 s with p | ⟨st2, s2, e2⟩
      · rfl
      · simp only [renumberErrors, Except.map, storeSteps_renumber]
    · simp only [hdm, Bool.false_eq_true, if_false, renumberErrors, Except.map, storeSteps_renumber]

theorem updateModel_renumber (x : Vec K n) (st : Solver K n) (s : S) :
    updateModel (renumberConfig σ τ c) (renumberModel σ τ m) (x ∘ σ) (renumberSolver σ τ st) s =
      (updateModel c m x st s).map fun p => (renumberSolver σ τ p.1, p.2.1, p.2.2.map (· ∘ τ)) := by
  have hget : (renumberModel σ τ m).getIteratives s = m.getIteratives s ∘ σ := rfl
  have hv : ∀ b, ({ renumberSolver σ τ st with valid := b } : Solver K n) = renumberSolver σ τ { st with valid := b } :=
    fun _ => rfl
  simp only [updateModel, evaluate_renumber, evaluateErrors_renumber, hget, hv, finishUpdate_renumber, bind,
    Except.bind, pure, Except.pure]
  rcases m.evaluate (m.setIteratives s x) with ⟨s1, (e | e) | _⟩
  · simp only
    rcases finishUpdate c m (evaluateErrors c m s) (m.getIteratives s) x { st with valid := false } s1 with
      p | ⟨st2, s2, e2⟩ <;> rfl
  · rfl
  · simp only
    rcases finishUpdate c m (evaluateErrors c m s) (m.getIteratives s) x { st with valid := true } s1 with
      p | ⟨st2, s2, e2⟩ <;> rfl

theorem iterate_renumber (hL : c.la.IsExact) (hJ : Ordered m σ) (st : Solver K n) (s : S) :
    iterate (renumberConfig σ τ c) (renumberModel σ τ m) (renumberSolver σ τ st) s =
      renumberOutcome σ τ (iterate c m st s) := by
  have hi : ({ renumberSolver σ τ st with iter := (renumberSolver σ τ st).iter + 1 } : Solver K n) =
    renumberSolver σ τ { st with iter := st.iter + 1 } := rfl
  simp only [iterate, bind, Except.bind, pure, Except.pure, hi, computeStep_renumber hL hJ]
  rcases computeStep c m { st with iter := st.iter + 1 } s with p | ⟨st1, s1, e | x⟩
  · rfl
  · rfl
  · simp only [renumberPoint, Except.map, updateModel_renumber]
    rcases updateModel c m x st1 s1 with p | ⟨st2, s2, e | e⟩
    · rfl
    · rfl
    · simp only [Except.map, amax_renumber, renumberOutcome]

theorem loop_renumber (hL : c.la.IsExact) (hJ : Ordered m σ) :
    ∀ (fuel : Nat) (st : Solver K n) (s : S) (e : K),
    loop (renumberConfig σ τ c) (renumberModel σ τ m) fuel (renumberSolver σ τ st) s e =
      renumberOutcome σ τ (loop c m fuel st s e) := by
  intro fuel
  induction fuel with
  | zero => intro st s e; rfl
  | succ fuel ih =>
    intro st s e
    have hc : continues (renumberConfig σ τ c) (renumberSolver σ τ st) e = continues c st e := rfl
    rw [loop.eq_2, loop.eq_2, hc, iterate_renumber hL hJ]
    split
    · rcases iterate c m st s with p | ⟨st1, s1, e1 | e1⟩
      · rfl
      · rfl
      · exact ih st1 s1 e1
    · rfl

theorem solve_renumber (hL : c.la.IsExact) (hJ : Ordered m σ) (st : Solver K n) (s : S) :
    solve (renumberConfig σ τ c) (renumberModel σ τ m) (renumberSolver σ τ st) s =
      renumberOutcome σ τ (solve c m st s) := by
  have hr : ∀ s, (renumberModel σ τ m).getResiduals s =
    ⟨(m.getResiduals s).left ∘ τ, (m.getResiduals s).right ∘ τ⟩ := fun _ => rfl
  have hget : ∀ s, (renumberModel σ τ m).getIteratives s = m.getIteratives s ∘ σ := fun _ => rfl
  have hguess : (renumberConfig σ τ c).guess = c.guess ∘ σ := rfl
  have hfrom : ∀ s, solveFrom (renumberConfig σ τ c) (renumberModel σ τ m) (renumberSolver σ τ st) s =
      renumberOutcome σ τ (solveFrom c m st s) := by
    intro s
    have hm : (renumberConfig σ τ c).params = c.params := rfl
    simp only [solveFrom, bind, Except.bind, pure, Except.pure, evaluateErrors_renumber, hr, hget,
      parametersToLog_renumber]
    rcases st.parametersToLog with p | st1
    · rfl
    · have := logIf_renumber (σ := σ) (τ := τ) st1
        (.iteration st1.iter (m.getIteratives s) (m.getResiduals s) (evaluateErrors c m s))
      simp only [renumberEntry] at this
      have hi : (renumberSolver σ τ st1).iter = st1.iter := rfl
      simp only [Except.map, hi, this]
      rcases st1.logIf (.iteration st1.iter (m.getIteratives s) (m.getResiduals s) (evaluateErrors c m s)) with p | st2
      · rfl
      · have hi : (renumberSolver σ τ st2).iter = st2.iter := rfl
        simp only [hi, amax_renumber, loop_renumber hL hJ, hm]
        rcases loop c m (c.params.maxIter - st2.iter) st2 s (amax (evaluateErrors c m s)) with p | ⟨st3, s3, e | e⟩ <;>
          rfl
  unfold solve
  rw [hguess, evaluate_renumber]
  rcases m.evaluate (m.setIteratives s c.guess) with ⟨s1, (e | e) | _⟩
  · exact hfrom s1
  · rfl
  · exact hfrom s1

end
end Nrf
