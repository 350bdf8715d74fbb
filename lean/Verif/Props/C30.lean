import Verif.Proofs.FiniteDiff
import Verif.Spec.Demo

/-!
# C30: finite-difference columns do not depend on each other
-/

namespace Nrf

/-- With any arithmetic, for every model obeying the memory contract, in any dimension: entry
`(row, col)` of a computed finite-difference matrix is the difference quotient taken by moving
coordinate `col` alone, with the perturbed evaluation made from the reference state `s`.  No other
column, and no order of computation, enters. -/
theorem C30_columns {F : Type} [Scalar F] {n : Nat} {EI EU S C : Type} (c : Config F n)
    (m : UserModel F n EI EU S) (ctx : S → C) (hm : Spec.Memory m ctx) (s s' : S)
    (hlen : m.lenProblem s = n) (pert : Vec F n) (J : Mat F n)
    (h : fdCompute c.res m pert s = .ok (s', .ok J)) (row col : Fin n) :
    J row col = Scalar.div (Scalar.sub
      (c.res.evaluateUpdate (Spec.residualsAt m s
        (fun l => if l = col then Scalar.add (m.getIteratives s col) (pert col)
          else m.getIteratives s l)) row)
      (c.res.evaluateUpdate (m.getResiduals s) row)) (pert col) := by
  unfold fdCompute at h
  rw [hlen] at h
  obtain ⟨-, h2, -, -⟩ := fdLoop_columns hm s pert _ _ n 0 mzero s rfl h
  rw [h2, if_pos ⟨Nat.zero_le _, by have := col.2; omega⟩]
  rfl

/-- The same of the matrix stored by the solver, together with the perturbations it used. -/
theorem C30_stored {F : Type} [Scalar F] {n : Nat} {EI EU S C : Type} (c : Config F n)
    (m : UserModel F n EI EU S) (ctx : S → C) (hm : Spec.Memory m ctx) (s s' : S)
    (hp : m.jacobianProvided s = false) (hlen : m.lenProblem s = n) (j j' : JacobianMatrix F n)
    (h : computeJac c m j s = .ok (j', s', .ok ())) :
    ∃ (J : Mat F n) (pert : Vec F n), j'.matrix = some J ∧
      (∀ i, ∃ f, (c.iters i).computePerturbation = some f ∧ pert i = f (m.getIteratives s i)) ∧
      ∀ row col, J row col = Scalar.div (Scalar.sub
        (c.res.evaluateUpdate (Spec.residualsAt m s
          (fun l => if l = col then Scalar.add (m.getIteratives s col) (pert col)
            else m.getIteratives s l)) row)
        (c.res.evaluateUpdate (m.getResiduals s) row)) (pert col) := by
  cases computeJac_outcome h with
  | success _ M inv hM hi =>
    cases hM with
    | analytic v hp' => rw [hp] at hp'; cases hp'
    | fd pert _ hpert hM =>
      refine ⟨M, pert, rfl, fun i => ?_, C30_columns c m ctx hm s s' hlen pert M hM⟩
      unfold computePerturbations at hpert
      split at hpert
      · rename_i hs
        cases hpert
        obtain ⟨f, hf⟩ := Option.isSome_iff_exists.1 (hs i)
        exact ⟨f, hf, congrFun (Option.get_of_eq_some _ hf) _⟩
      · cases hpert
  | inaccurate _ e hp' => rw [hp] at hp'; cases hp'

namespace Demo

/-- A model with memory: the state keeps a counter that the evaluation reads and changes. -/
structure Counting where
  x : Vec ℚ 1
  left : Vec ℚ 1
  memory : ℚ

/-- Residual `x² - 2 + memory`; every evaluation adds one to the memory. -/
def counting : UserModel ℚ 1 Empty Empty Counting where
  lenProblem _ := 1
  setIteratives s x := { s with x := x }
  getIteratives s := s.x
  evaluate s := ({ s with left := fun _ => s.x 0 * s.x 0 - 2 + s.memory, memory := s.memory + 1 }, .ok ())
  getResiduals s := { left := s.left, right := fun _ => 0 }
  jacobianProvided _ := false
  getJacobian s := (s, .ok ⟨fun _ _ => 0, fun _ _ => 0⟩)
  getMemory s := [s.memory]
  setMemory s v := { s with memory := v.headD 0 }
  displayUnusable e := nomatch e

/-- It obeys the contract although its evaluations depend on the past. -/
theorem counting_memory : Spec.Memory counting Counting.memory where
  residuals s s' x h := by
    simp only [counting, ResidualsValues.mk.injEq, and_true]
    rw [h]
  restore s s0 x h := rfl

end Demo

open scoped Exact in
/-- A completed computation for a model with memory. -/
example : ∃ s' J, fdCompute (Demo.cfg .NewtonRaphson false 5 (1/1000) 2).res Demo.counting
    (fun _ => 1/10) ⟨fun _ => 2, fun _ => 2, 0⟩ = .ok (s', .ok J) ∧ Demo.counting.lenProblem s' = 1 :=
  ⟨_, _, rfl, rfl⟩

end Nrf
