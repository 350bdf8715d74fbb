import Verif.Proofs.Reuse
import Verif.Proofs.Calls

/-!
# Solves that differ in the budget or in the method only
-/

set_option linter.unusedSectionVars false

namespace Nrf

section
variable {F : Type} [Scalar F] {n : Nat} {EI EU S : Type}
variable {c : Config F n} {m : UserModel F n EI EU S}
variable {st st' : Solver F n} {s s' : S}

/-- A larger budget continues the loop. -/
theorem loop_more {k K : Nat} (hk : k ≤ K) :
    ∀ (fuel : Nat) (st : Solver F n) (s : S) (e : F), k - st.iter = fuel →
      loop (withMaxIter c K) m (K - st.iter) st s e =
        match loop (withMaxIter c k) m fuel st s e with
        | .error p => .error p
        | .ok (st', s', .error err) => .ok (st', s', .error err)
        | .ok (st', s', .ok e') => loop (withMaxIter c K) m (K - st'.iter) st' s' e' := by
  intro fuel
  induction fuel with
  | zero => intro st s e hf; rfl
  | succ fuel ih =>
    intro st s e hf
    have hlt : st.iter < k := by omega
    have hcK : continues (withMaxIter c K) st e = continues (withMaxIter c k) st e := by
      simp only [continues, withMaxIter, hlt, Nat.lt_of_lt_of_le hlt hk]
    have e1 := loop_eq (c := withMaxIter c K) (m := m) st s e
    have e0 : (withMaxIter c K).params.maxIter = K := rfl
    rw [e0] at e1
    rw [e1, hcK]
    rw [loop.eq_2 (withMaxIter c k)]
    have hi : iterate (withMaxIter c K) m st s = iterate (withMaxIter c k) m st s := rfl
    rw [hi]
    by_cases hc : continues (withMaxIter c k) st e = true
    · rw [if_pos hc, if_pos hc]
      rcases hit : iterate (withMaxIter c k) m st s with p | ⟨st1, s1, err | e'⟩
      · rfl
      · rfl
      · dsimp only
        have := iterate_iter hit
        exact ih st1 s1 e' (by omega)
    · rw [if_neg hc, if_neg hc]
      dsimp only
      rw [e1, hcK, if_neg hc]

/-- The outcome of `solveFrom` through the loop, with the log written at the start:
that log depends on the residual configuration only. -/
theorem solveFrom_eq' (c : Config F n) (m : UserModel F n EI EU S) (st : Solver F n) (s : S) :
    ∃ p : Except Panic (Option (List (LogEntry F n))), ∀ c' : Config F n, c'.res = c.res →
    solveFrom c' m st s =
      match p with
      | .error p => .error p
      | .ok l =>
        match loop c' m (c'.params.maxIter - st.iter) { st with log := l } s
          (amax (evaluateErrors c m s)) with
        | .error p => .error p
        | .ok (st', s', .ok e) => .ok (st', s', finalResult c' st' e)
        | .ok (st', s', .error e) => .ok (st', s', .error e) := by
  have aux : ∀ (l : Option (List (LogEntry F n))) (c' : Config F n),
      (match loop c' m (c'.params.maxIter - st.iter) { st with log := l } s
          (amax (evaluateErrors c m s)) with
        | .error p => (.error p : Except Panic (Solver F n × S × Except (SolverError EI EU) Unit))
        | .ok (st', s', .ok e) => .ok (st', s', finalResult c' st' e)
        | .ok (st', s', .error e) => .ok (st', s', .error e)) =
      (loop c' m (c'.params.maxIter - st.iter) { st with log := l } s
          (amax (evaluateErrors c m s))).bind fun x =>
        match x.2.2 with
        | .ok e => .ok (x.1, x.2.1, finalResult c' x.1 e)
        | .error e => .ok (x.1, x.2.1, .error e) := by
    intro l c'
    rcases loop c' m (c'.params.maxIter - st.iter) { st with log := l } s
          (amax (evaluateErrors c m s)) with p | ⟨a, b, e | e⟩ <;> rfl
  have hE : ∀ c' : Config F n, c'.res = c.res → evaluateErrors c' m s = evaluateErrors c m s := by
    intro c' h
    simp only [evaluateErrors, h]
  rcases hp : st.parametersToLog with p | st1
  · exact ⟨.error p, fun c' _ => by simp [solveFrom, hp, bind, Except.bind]⟩
  · obtain ⟨l, rfl⟩ := parametersToLog_fields hp
    rcases hl : ({ st with log := l } : Solver F n).logIf
      (.iteration st.iter (m.getIteratives s) (m.getResiduals s) (evaluateErrors c m s)) with p | st2
    · exact ⟨.error p, fun c' hc' => by
        simp only [solveFrom, hp, bind, Except.bind]
        rw [hE c' hc', hl]⟩
    · obtain ⟨l2, rfl⟩ := logIf_fields hl
      refine ⟨.ok l2, fun c' hc' => ?_⟩
      dsimp only
      rw [aux]
      simp only [solveFrom, hp, bind, Except.bind]
      rw [hE c' hc', hl]
      rfl

/-- The same for another budget. -/
theorem solveFrom_eq (k : Nat) (s : S) :
    ∃ p : Except Panic (Option (List (LogEntry F n))), ∀ k,
    solveFrom (withMaxIter c k) m st s =
      match p with
      | .error p => .error p
      | .ok l =>
        match loop (withMaxIter c k) m (k - st.iter) { st with log := l } s
          (amax (evaluateErrors c m s)) with
        | .error p => .error p
        | .ok (st', s', .ok e) => .ok (st', s', finalResult c st' e)
        | .ok (st', s', .error e) => .ok (st', s', .error e) := by
  obtain ⟨p, hp⟩ := solveFrom_eq' c m st s
  exact ⟨p, fun k => hp (withMaxIter c k) rfl⟩

/-- A solve with a larger budget: the same, or a continuation. -/
theorem solve_more {k K : Nat} (hk : k ≤ K) :
    match solve (withMaxIter c k) m st s with
    | .error p => solve (withMaxIter c K) m st s = .error p
    | .ok (st', s', .error .nonConvergence) =>
        ∃ e, solve (withMaxIter c K) m st s =
          match loop (withMaxIter c K) m (K - st'.iter) st' s' e with
          | .error p => .error p
          | .ok (st', s', .ok e) => .ok (st', s', finalResult c st' e)
          | .ok (st', s', .error e) => .ok (st', s', .error e)
    | .ok x => solve (withMaxIter c K) m st s = .ok x := by
  have main : ∀ s0, match solveFrom (withMaxIter c k) m st s0 with
    | .error p => solveFrom (withMaxIter c K) m st s0 = .error p
    | .ok (st', s', .error .nonConvergence) =>
        ∃ e, solveFrom (withMaxIter c K) m st s0 =
          match loop (withMaxIter c K) m (K - st'.iter) st' s' e with
          | .error p => .error p
          | .ok (st', s', .ok e) => .ok (st', s', finalResult c st' e)
          | .ok (st', s', .error e) => .ok (st', s', .error e)
    | .ok x => solveFrom (withMaxIter c K) m st s0 = .ok x := by
    intro s0
    obtain ⟨p, hp⟩ := solveFrom_eq (c := c) (m := m) (st := st) k s0
    rw [hp k, hp K]
    match p with
    | .error p => rfl
    | .ok l =>
      dsimp only
      have hm := loop_more (c := c) (m := m) hk (k - st.iter) { st with log := l } s0
        (amax (evaluateErrors c m s0)) rfl
      dsimp only at hm
      rw [hm]
      rcases hlo : loop (withMaxIter c k) m (k - st.iter) { st with log := l } s0
        (amax (evaluateErrors c m s0)) with p | ⟨st', s', err | e⟩
      · rfl
      · dsimp only
        match err with
        | .nonConvergence =>
          -- the loop itself never reports non-convergence
          have := loop_outcome (c := withMaxIter c k) _
            (by simp only [withMaxIter]; omega) hlo
          cases this with
          | failed hr hc hi =>
            cases iterate_outcome hi with
            | evalFailed _ _ _ _ _ _ h1 h2 => cases h2
        | .modelInitialEvaluation msg => rfl
        | .modelEvaluation e => rfl
        | .jacobian e => rfl
        | .finalEvaluation => rfl
      · dsimp only
        by_cases ht : Scalar.lt c.params.tolerance e = true
        · simp only [finalResult, ht, if_true]
          exact ⟨e, rfl⟩
        · have hc : continues (withMaxIter c K) st' e = false := by
            simp only [continues, withMaxIter, Bool.and_eq_false_iff]
            exact .inl (by simpa using ht)
          have e1 := loop_eq (c := withMaxIter c K) (m := m) st' s' e
          have e0 : (withMaxIter c K).params.maxIter = K := rfl
          rw [e0, hc] at e1
          rw [e1]
          simp only [Bool.false_eq_true, if_false]
          have hfr : finalResult (EI := EI) (EU := EU) c st' e = .ok () ∨
              finalResult (EI := EI) (EU := EU) c st' e = .error .finalEvaluation := by
            unfold finalResult
            rw [if_neg ht]
            cases st'.valid
            · exact .inr rfl
            · exact .inl rfl
          rcases hfr with h | h <;> rw [h]
  rcases he : m.evaluate (m.setIteratives s c.guess) with ⟨s1, rv⟩
  match rv, he with
  | .error (.unusable e), he =>
    rw [solve_unusable (c := withMaxIter c k) he, solve_unusable (c := withMaxIter c K) he]
  | .ok (), he =>
    rw [solve_usable (c := withMaxIter c k) he .ok, solve_usable (c := withMaxIter c K) he .ok]
    exact main s1
  | .error (.inaccurate e), he =>
    rw [solve_usable (c := withMaxIter c k) he (.inaccurate e),
      solve_usable (c := withMaxIter c K) he (.inaccurate e)]
    exact main s1

/-- Every (recorded) iteration only appends calls, hence so does the loop. -/
theorem loop_calls_prefix {fuel : Nat} {st st' : Solver F n} {s s' : S} {e r}
    {t t' : List (Call F n EI EU)} (hf : c.params.maxIter ≤ st.iter + fuel)
    (h : loop c (recorded m) fuel st (s, t) e = .ok (st', (s', t'), r)) : t <+: t' := by
  have inv : ∀ st1 (s1 : S × List (Call F n EI EU)) (e1 : F) st2
      (s2 : S × List (Call F n EI EU)) (e2 : F), t <+: s1.2 →
      continues c st1 e1 = true → iterate c (recorded m) st1 s1 = .ok (st2, s2, .ok e2) →
      t <+: s2.2 := by
    rintro st1 ⟨s1, t1⟩ e1 st2 ⟨s2, t2⟩ e2 hp _ hi
    obtain ⟨seg, rfl, -⟩ := iterate_calls hi
    exact hp.trans (List.prefix_append _ _)
  cases loop_outcome fuel hf h with
  | exit hr hc => exact hr.invariant (P := fun _ s _ => t <+: s.2) inv (List.prefix_refl _)
  | @failed st1 s1 e1 _ _ err hr hc hi =>
    obtain ⟨s1, t1⟩ := s1
    have : t <+: t1 := hr.invariant (P := fun _ s _ => t <+: s.2) inv (List.prefix_refl _)
    obtain ⟨seg, rfl, -⟩ := iterate_calls hi
    exact this.trans (List.prefix_append _ _)

end
end Nrf
