import Verif.Proofs.Budget

/-!
# Solves that differ in the tolerance only
-/

set_option linter.unusedSectionVars false

namespace Nrf

section
variable {F : Type} [Scalar F] {n : Nat} {EI EU S : Type}
variable {c : Config F n} {m : UserModel F n EI EU S}
variable {st st' : Solver F n} {s s' : S}

/-- The same configuration with another tolerance. -/
def withTol (c : Config F n) (t : F) : Config F n :=
  { c with params := { c.params with tolerance := t } }

/-- A smaller tolerance continues the loop. -/
theorem loop_tol {t T : F} (ht : ∀ e, Scalar.lt T e = true → Scalar.lt t e = true) :
    ∀ (fuel : Nat) (st : Solver F n) (s : S) (e : F), c.params.maxIter - st.iter = fuel →
      loop (withTol c t) m fuel st s e =
        match loop (withTol c T) m fuel st s e with
        | .error p => .error p
        | .ok (st', s', .error err) => .ok (st', s', .error err)
        | .ok (st', s', .ok e') => loop (withTol c t) m (c.params.maxIter - st'.iter) st' s' e' := by
  intro fuel
  induction fuel with
  | zero => intro st s e hf; simp only [loop]; rw [hf]; rfl
  | succ fuel ih =>
    intro st s e hf
    have e1 := loop_eq (c := withTol c t) (m := m) st s e
    have e0 : (withTol c t).params.maxIter = c.params.maxIter := rfl
    rw [e0, hf] at e1
    rw [loop.eq_2 (withTol c T)]
    by_cases hc : continues (withTol c T) st e = true
    · have hc' : continues (withTol c t) st e = true := by
        simp only [continues, Bool.and_eq_true] at hc ⊢
        exact ⟨ht e hc.1, hc.2⟩
      rw [e1, if_pos hc, if_pos hc']
      have hi : iterate (withTol c t) m st s = iterate (withTol c T) m st s := rfl
      rw [hi]
      rcases hit : iterate (withTol c T) m st s with p | ⟨st1, s1, err | e'⟩
      · rfl
      · rfl
      · dsimp only
        have := iterate_iter hit
        have hf' : c.params.maxIter - st1.iter = fuel := by omega
        rw [hf']
        exact ih st1 s1 e' hf'
    · rw [if_neg hc]
      dsimp only
      rw [hf]

/-- A solve with a smaller tolerance: the same, or a continuation. -/
theorem solve_tol {t T : F} (ht : ∀ e, Scalar.lt T e = true → Scalar.lt t e = true) :
    match solve (withTol c T) m st s with
    | .error p => solve (withTol c t) m st s = .error p
    | .ok (st', s', .error .finalEvaluation) | .ok (st', s', .ok ()) =>
        ∃ e, solve (withTol c t) m st s =
          match loop (withTol c t) m (c.params.maxIter - st'.iter) st' s' e with
          | .error p => .error p
          | .ok (st', s', .ok e) => .ok (st', s', finalResult (withTol c t) st' e)
          | .ok (st', s', .error e) => .ok (st', s', .error e)
    | .ok x => solve (withTol c t) m st s = .ok x := by
  have main : ∀ s0, match solveFrom (withTol c T) m st s0 with
    | .error p => solveFrom (withTol c t) m st s0 = .error p
    | .ok (st', s', .error .finalEvaluation) | .ok (st', s', .ok ()) =>
        ∃ e, solveFrom (withTol c t) m st s0 =
          match loop (withTol c t) m (c.params.maxIter - st'.iter) st' s' e with
          | .error p => .error p
          | .ok (st', s', .ok e) => .ok (st', s', finalResult (withTol c t) st' e)
          | .ok (st', s', .error e) => .ok (st', s', .error e)
    | .ok x => solveFrom (withTol c t) m st s0 = .ok x := by
    intro s0
    obtain ⟨p, hp⟩ := solveFrom_eq' c m st s0
    rw [hp (withTol c T) rfl, hp (withTol c t) rfl]
    match p with
    | .error p => rfl
    | .ok l =>
      dsimp only
      have e0 : ∀ u, (withTol c u).params.maxIter = c.params.maxIter := fun _ => rfl
      rw [e0, e0]
      have hm := loop_tol (c := c) (m := m) ht (c.params.maxIter - st.iter) { st with log := l } s0
        (amax (evaluateErrors c m s0)) rfl
      rw [hm]
      rcases hlo : loop (withTol c T) m (c.params.maxIter - st.iter) { st with log := l } s0
        (amax (evaluateErrors c m s0)) with p | ⟨st', s', err | e⟩
      · rfl
      · dsimp only
        match err with
        | .finalEvaluation =>
          -- the loop itself never reports a final evaluation error
          have := loop_outcome (c := withTol c T) _ (by rw [e0]; dsimp only; omega) hlo
          cases this with
          | failed hr hc hi =>
            cases iterate_outcome hi with
            | evalFailed _ _ _ _ _ _ h1 h2 => cases h2
        | .modelInitialEvaluation msg => rfl
        | .modelEvaluation e => rfl
        | .jacobian e => rfl
        | .nonConvergence => rfl
      · dsimp only
        by_cases hlt : Scalar.lt T e = true
        · have hex := loop_outcome (c := withTol c T) _ (by rw [e0]; dsimp only; omega) hlo
          have hex' : continues (withTol c T) st' e = false := by
            cases hex with
            | exit hr hc => exact hc
          have hbud : ¬ st'.iter < c.params.maxIter := by
            intro hb
            simp [continues, withTol, hlt, hb] at hex'
          have h0 : c.params.maxIter - st'.iter = 0 := by omega
          have r1 : finalResult (EI := EI) (EU := EU) (withTol c T) st' e = .error .nonConvergence := by
            simp only [finalResult, withTol, hlt, if_true]
          have r2 : finalResult (EI := EI) (EU := EU) (withTol c t) st' e = .error .nonConvergence := by
            simp only [finalResult, withTol, ht e hlt, if_true]
          rw [r1, h0]
          dsimp only [loop]
          rw [r2]
        · have r1 : finalResult (EI := EI) (EU := EU) (withTol c T) st' e = .ok () ∨
              finalResult (EI := EI) (EU := EU) (withTol c T) st' e = .error .finalEvaluation := by
            unfold finalResult
            rw [if_neg (show ¬ Scalar.lt (withTol c T).params.tolerance e = true from hlt)]
            cases st'.valid
            · exact .inr rfl
            · exact .inl rfl
          rcases r1 with h | h <;> rw [h] <;> exact ⟨e, rfl⟩
  rcases he : m.evaluate (m.setIteratives s c.guess) with ⟨s1, rv⟩
  match rv, he with
  | .error (.unusable e), he =>
    rw [solve_unusable (c := withTol c T) he, solve_unusable (c := withTol c t) he]
  | .ok (), he =>
    rw [solve_usable (c := withTol c T) he .ok, solve_usable (c := withTol c t) he .ok]
    exact main s1
  | .error (.inaccurate e), he =>
    rw [solve_usable (c := withTol c T) he (.inaccurate e),
      solve_usable (c := withTol c t) he (.inaccurate e)]
    exact main s1

end
end Nrf
