import Verif.Proofs.ExactMat
import Verif.Proofs.Dynamic

/-!
# The first pass of a solve whose model has more equations than configured
-/

set_option linter.unusedSectionVars false

namespace Nrf
namespace Dyn

section
variable {F : Type} [Scalar F] {n : Nat} {EI EU S : Type}
variable {la : (k : Nat) → LinAlg F k} {c : Config F n} {m : Model F EI EU S}

/-- A result that ends the solve in its first pass. -/
def Stuck {A B E : Type} (x : Except DynPanic (A × S × Except E B)) : Prop :=
  (∃ p, x = .error p) ∨ ∃ a s e, x = .ok (a, s, .error e)

/-- With a fresh cache every method computes the Jacobian. -/
theorem evaluateJacobian_fresh {st : Solver F} (hst : st.jac.computeNext = true) (hd : st.debug = false) (s : S) :
    evaluateJacobian la c m st s = (do
      let (j, s, r) ← computeJac la c m st.jac s
      return ({ st with jac := j }, s, r)) := by
  unfold evaluateJacobian
  cases c.params.method with
  | NewtonRaphson =>
    dsimp only
    congr 1
    funext x
    simp [Solver.logIf, hd]
    rfl
  | QuasiNewton q =>
    simp only [quasiNewtonJacobian, hst, if_true]
    congr 1
    funext x
    simp [Solver.logIf, hd]
    rfl

theorem computeNext_error {st : Solver F} {s : S} (h : st.jac.inverse = none ∨
    ∃ inv, st.jac.inverse = some inv ∧ ∀ v, m.getResiduals s = .ok v → v.len ≠ inv.len) :
    ∃ p, computeNext la c m st s = .error p := by
  unfold computeNext
  simp only [bind, Except.bind]
  cases hv : m.getResiduals s with
  | error p => exact ⟨p, rfl⟩
  | ok v =>
    dsimp only
    unfold evaluateUpdate
    by_cases hn : n ≤ v.len
    · simp only [hn, dite_true]
      rcases h with h | ⟨inv, h, h2⟩
      · rw [h]; exact ⟨_, rfl⟩
      · rw [h]
        have := h2 v hv
        simp only [negMulVec, this, dite_false]
        exact ⟨_, rfl⟩
    · simp only [hn, dite_false]
      exact ⟨_, rfl⟩

/-- A first Jacobian that is not usable ends the solve. -/
theorem computeStep_stuck {st : Solver F} {s : S} (hst : st.jac.computeNext = true) (hd : st.debug = false)
    (h : Stuck (computeJac la c m st.jac s) ∨ ∃ j s', computeJac la c m st.jac s = .ok (j, s', .ok ()) ∧
      (j.inverse = none ∨ ∃ inv, j.inverse = some inv ∧ ∀ v, m.getResiduals s' = .ok v → v.len ≠ inv.len)) :
    Stuck (computeStep la c m st s) := by
  unfold computeStep
  rw [evaluateJacobian_fresh hst hd]
  rcases h with (⟨p, h⟩ | ⟨j, s', e, h⟩) | ⟨j, s', h, hj⟩
  · rw [h]; exact .inl ⟨p, rfl⟩
  · rw [h]; exact .inr ⟨_, _, _, rfl⟩
  · rw [h]
    obtain ⟨p, hp⟩ := computeNext_error (la := la) (c := c) (m := m) (st := { st with jac := j }) (s := s') hj
    refine .inl ⟨p, ?_⟩
    simp only [bind, Except.bind, pure, Except.pure, hp]

theorem iterate_stuck {st : Solver F} {s : S}
    (h : Stuck (computeStep la c m { st with iter := st.iter + 1 } s)) :
    (∃ p, iterate la c m st s = .error p) ∨
      ∃ st' s' e, iterate la c m st s = .ok (st', s', .error (.jacobian e)) := by
  unfold iterate
  rcases h with ⟨p, h⟩ | ⟨j, s', e, h⟩
  · rw [h]; exact .inl ⟨p, rfl⟩
  · rw [h]; exact .inr ⟨_, _, _, rfl⟩

/-- A solve that does not enter the loop. -/
theorem solveFrom_done {st : Solver F} {s : S} {v : Values F} {e : DVec F} (hd : st.debug = false)
    (hv : m.getResiduals s = .ok v) (he : evaluateStopping c.res v = .ok e)
    (hc : ¬ (Scalar.lt c.params.tolerance (amax e.val) && decide (st.iter < c.params.maxIter)) = true) :
    solveFrom la c m st s = .ok (st, s, finalResult c st (amax e.val)) := by
  have hee : evaluateErrors c m s = .ok e := by
    unfold evaluateErrors
    rw [hv]; exact he
  have : ∀ k, loop la c m k st s (amax e.val) = .ok (st, s, .ok (amax e.val)) := by
    intro k
    cases k with
    | zero => rfl
    | succ k => unfold loop; rw [if_neg hc]
  unfold solveFrom
  rw [hee]
  simp only [bind, Except.bind, Solver.parametersToLog, tableToLog, hd, Bool.false_eq_true, if_false]
  rw [this]
  rfl

/-- A solve that ends in its first pass. -/
theorem solveFrom_ends {st : Solver F} {s : S} {v : Values F} {e : DVec F} (hd : st.debug = false)
    (hv : m.getResiduals s = .ok v) (he : evaluateStopping c.res v = .ok e)
    (hc : (Scalar.lt c.params.tolerance (amax e.val) && decide (st.iter < c.params.maxIter)) = true) :
    (∀ p, iterate la c m st s = .error p → solveFrom la c m st s = .error p) ∧
      ∀ st' s' er, iterate la c m st s = .ok (st', s', .error er) →
        solveFrom la c m st s = .ok (st', s', .error er) := by
  have hee : evaluateErrors c m s = .ok e := by
    unfold evaluateErrors
    rw [hv]; exact he
  have hlt : st.iter < c.params.maxIter := by
    simp only [Bool.and_eq_true, decide_eq_true_eq] at hc
    exact hc.2
  obtain ⟨k, hk⟩ : ∃ k, c.params.maxIter - st.iter = k + 1 :=
    ⟨c.params.maxIter - st.iter - 1, by omega⟩
  unfold solveFrom
  rw [hee]
  simp only [bind, Except.bind, Solver.parametersToLog, tableToLog, hd, Bool.false_eq_true, if_false]
  rw [hk]
  unfold loop
  rw [if_pos hc]
  constructor
  · intro p hp; rw [hp]
  · intro st' s' er hp; rw [hp]; rfl

/-- With surplus equations, the first column of the finite differences does not fit the matrix. -/
theorem fdLoop_surplus {pert xRef resRef : DVec F} (hx : xRef.len < resRef.len) (mem : List F) (k : Nat)
    (J : DMat F) (hJ : J.len = xRef.len) (s : S) :
    (∃ p, fdLoop c.res m pert mem xRef resRef (k + 1) 0 J s = .error p) ∨
      ∃ s' e, fdLoop c.res m pert mem xRef resRef (k + 1) 0 J s = .ok (s', .error (.unusable e)) := by
  unfold fdLoop
  unfold perturb
  by_cases h0 : 0 < xRef.len ∧ 0 < pert.len
  · simp only [h0, and_self, dite_true, bind, Except.bind, pure, Except.pure]
    rcases m.evaluate (m.setIteratives s _) with ⟨s', (e | e) | u⟩
    · left
      dsimp only
      cases m.getResiduals s' with
      | error p => exact ⟨p, rfl⟩
      | ok v =>
        dsimp only
        cases evaluateUpdate c.res v with
        | error p => exact ⟨p, rfl⟩
        | ok r =>
          dsimp only
          unfold sub
          by_cases hr : resRef.len = r.len
          · have : ¬ r.len = J.len := by omega
            by_cases h0 : 0 < J.len <;>
              simp only [hr, h0, this, setCol, dite_true, dite_false] <;> exact ⟨_, rfl⟩
          · simp only [hr, dite_false]; exact ⟨_, rfl⟩
    · exact .inr ⟨s', e, rfl⟩
    · left
      dsimp only
      cases m.getResiduals s' with
      | error p => exact ⟨p, rfl⟩
      | ok v =>
        dsimp only
        cases evaluateUpdate c.res v with
        | error p => exact ⟨p, rfl⟩
        | ok r =>
          dsimp only
          unfold sub
          by_cases hr : resRef.len = r.len
          · have : ¬ r.len = J.len := by omega
            by_cases h0 : 0 < J.len <;>
              simp only [hr, h0, this, setCol, dite_true, dite_false] <;> exact ⟨_, rfl⟩
          · simp only [hr, dite_false]; exact ⟨_, rfl⟩
  · simp only [h0, dite_false, bind, Except.bind]
    exact .inl ⟨_, rfl⟩

end
end Dyn
end Nrf
