import Verif.Proofs.Recorded
import Verif.Proofs.JacOutcome

/-!
# Calls of one iteration and of a whole solve
-/

set_option linter.unusedSectionVars false

namespace Nrf

section
variable {F : Type} [Scalar F] {n : Nat} {EI EU S : Type}
variable {c : Config F n} {m : UserModel F n EI EU S}
variable {st st' : Solver F n} {s s' : S} {t t' : List (Call F n EI EU)}

/-- Solving a recorded model is solving the model. -/
theorem solve_recorded (c : Config F n) (m : UserModel F n EI EU S) (st : Solver F n) (s : S)
    (t : List (Call F n EI EU)) :
    solve c m st s = mapMid Prod.fst (solve c (recorded m) st (s, t)) :=
  solve_hom (recorded_hom m) st (s, t)

/-- If a solve ends without panic so does the recorded one, with the same outcome. -/
theorem solve_recorded_ok {r} (h : solve c m st s = .ok (st', s', r)) (t) :
    ∃ t', solve c (recorded m) st (s, t) = .ok (st', (s', t'), r) := by
  rw [solve_recorded c m st s t] at h
  unfold mapMid at h
  split at h
  · cases h
  · rename_i a b d he
    cases h
    exact ⟨b.2, by rw [he]⟩

theorem solve_of_recorded {r} (h : solve c (recorded m) st (s, t) = .ok (st', (s', t'), r)) :
    solve c m st s = .ok (st', s', r) := by
  rw [solve_recorded c m st s t, h]; rfl

/-- The calls of one iteration. -/
inductive IterCalls (c : Config F n) (m : UserModel F n EI EU S) (st : Solver F n) (s : S) :
    S → Bool → List (Call F n EI EU) → Except (SolverError EI EU) F → Prop where
  | step (jc uc s1 x s' v e) (h1 : StepCalls c m st s jc (.ok x))
      (h2 : UpdateCalls c m x s1 s' v uc (.ok e)) :
      IterCalls c m st s s' v (jc ++ uc) (.ok (amax e))
  | evalFailed (jc uc s1 x s' v e) (h1 : StepCalls c m st s jc (.ok x))
      (h2 : UpdateCalls c m x s1 s' v uc (.error e)) :
      IterCalls c m st s s' v (jc ++ uc) (.error e)
  | jacFailed (jc s' v e) (h1 : StepCalls c m st s jc (.error e)) :
      IterCalls c m st s s' v jc (.error (.jacobian e))

theorem iterate_calls {r} (h : iterate c (recorded m) st (s, t) = .ok (st', (s', t'), r)) :
    ∃ seg, t' = t ++ seg ∧
      IterCalls c m { st with iter := st.iter + 1 } s s' st'.valid seg r := by
  cases iterate_outcome h with
  | step st1 s1 x st2 s2 e h1 h2 =>
    obtain ⟨s1, t1⟩ := s1
    obtain ⟨jc, rfl, hj⟩ := step_recorded h1
    obtain ⟨uc, rfl, hu⟩ := update_recorded h2
    exact ⟨jc ++ uc, by simp, .step _ _ _ _ _ _ _ hj hu⟩
  | evalFailed st1 s1 x st2 s2 e h1 h2 =>
    obtain ⟨s1, t1⟩ := s1
    obtain ⟨jc, rfl, hj⟩ := step_recorded h1
    obtain ⟨uc, rfl, hu⟩ := update_recorded h2
    exact ⟨jc ++ uc, by simp, .evalFailed _ _ _ _ _ _ _ hj hu⟩
  | jacFailed st1 s1 e h1 =>
    obtain ⟨jc, rfl, hj⟩ := step_recorded h1
    exact ⟨jc, rfl, .jacFailed _ _ _ _ hj⟩

theorem StepCalls.counts {seg r N} (h : StepCalls c m st s seg r)
    (hN : ∀ s, m.jacobianProvided s = false → m.lenProblem s ≤ N) :
    countEvaluate seg ≤ N ∧ countGetJacobian seg ≤ 1 := by
  cases h with
  | computed seg rj r hm h hr =>
    have := h.counts
    refine ⟨this.1.trans ?_, this.2⟩
    split
    · omega
    · exact hN s (by simp_all)
  | none r hm hc => exact ⟨Nat.zero_le _, Nat.zero_le _⟩

theorem UpdateCalls.counts {x v seg r} (h : UpdateCalls c m x s s' v seg r) :
    countEvaluate seg ≤ 1 + (if c.params.damping then 1 else 0) ∧ countGetJacobian seg = 0 := by
  cases h with
  | unusable e he => simp [countEvaluate, countGetJacobian]
  | plain r he hu e => simp [countEvaluate, countGetJacobian]
  | damped s1 r he hu hd he2 e => simp [countEvaluate, countGetJacobian, hd]

theorem IterCalls.counts {v seg r N} (h : IterCalls c m st s s' v seg r)
    (hN : ∀ s, m.jacobianProvided s = false → m.lenProblem s ≤ N) :
    countEvaluate seg ≤ N + 1 + (if c.params.damping then 1 else 0) ∧
      countGetJacobian seg ≤ 1 := by
  cases h with
  | step jc uc s1 x s' v e h1 h2 =>
    have a := h1.counts hN
    have b := h2.counts
    rw [countEvaluate_append, countGetJacobian_append]
    omega
  | evalFailed jc uc s1 x s' v e h1 h2 =>
    have a := h1.counts hN
    have b := h2.counts
    rw [countEvaluate_append, countGetJacobian_append]
    omega
  | jacFailed jc s' v e h1 =>
    have a := h1.counts hN
    omega

/-- The first two calls of a solve. -/
theorem solve_start {r : Except (ModelError EI EU) Unit} {s0 : S × List (Call F n EI EU)}
    (he : (recorded m).evaluate ((recorded m).setIteratives (s, t) c.guess) = (s0, r)) :
    s0 = ((m.evaluate (m.setIteratives s c.guess)).1,
      t ++ [.setIteratives c.guess, .evaluate r]) ∧ (m.evaluate (m.setIteratives s c.guess)).2 = r := by
  obtain ⟨h1, h2⟩ := recorded_eval he
  rw [h1]
  exact ⟨by rw [← h2], rfl⟩

end
end Nrf
