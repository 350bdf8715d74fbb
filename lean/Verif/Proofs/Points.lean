import Verif.Proofs.Calls

/-!
# The points at which the model is evaluated
-/

set_option linter.unusedSectionVars false

namespace Nrf

section
variable {F : Type} [Scalar F] {n : Nat} {EI EU S : Type}

theorem points_append (a b : List (Call F n EI EU)) : points (a ++ b) = points a ++ points b := by
  induction a with
  | nil => rfl
  | cons e a ih => cases e <;> simp [points, ih]

variable {c : Config F n} {m : UserModel F n EI EU S}
variable {st st' : Solver F n} {s s' : S} {t t' : List (Call F n EI EU)}

/-- A proposed step is the result of the step limitation. -/
theorem StepOutcome.limited {x} (h : StepOutcome c m st s st' s' (.ok x)) :
    ∃ v raw, x = stepLimitations c.iters v raw := by
  cases h with
  | computed j l s' x hm hj hx => obtain ⟨inv, -, h⟩ := computeNext_ok hx; exact ⟨_, _, h⟩
  | kept l x hm hc hx => obtain ⟨inv, -, h⟩ := computeNext_ok hx; exact ⟨_, _, h⟩
  | updated u ds dy cur j l x hm hc h1 h2 h3 hj hx =>
    obtain ⟨inv, -, h⟩ := computeNext_ok hx; exact ⟨_, _, h⟩
  | invUpdated u ds dy cur j l x hm hc h1 h2 h3 hj hx =>
    obtain ⟨inv, -, h⟩ := computeNext_ok hx; exact ⟨_, _, h⟩

/-- With an analytic Jacobian and without damping, every point set during an
iteration is a limited one. -/
theorem iterate_points (hp : ∀ s, m.jacobianProvided s = true) (hd : c.params.damping = false)
    {r} (h : iterate c (recorded m) st (s, t) = .ok (st', (s', t'), r)) :
    ∃ seg, t' = t ++ seg ∧ ∀ x ∈ points seg, ∃ v raw, x = stepLimitations c.iters v raw := by
  have hstep : ∀ {st : Solver F n} {r jc}, StepCalls c m st s jc r → points jc = [] := by
    intro st r jc hj
    cases hj with
    | computed seg rj r hm h hr =>
      cases h with
      | analytic => rfl
      | fd seg rj hq => rw [hp s] at hq; cases hq
      | fdFailed k seg y e hq => rw [hp s] at hq; cases hq
    | none => rfl
  have hupd : ∀ {x s1 s2 v uc r}, UpdateCalls c m x s1 s2 v uc r → points uc = [x] := by
    intro x s1 s2 v uc r hu
    cases hu with
    | unusable => rfl
    | plain => rfl
    | damped s1 r he hu hd' => rw [hd] at hd'; cases hd'
  cases iterate_outcome h with
  | step st1 s1 x st2 s2 e h1 h2 =>
    obtain ⟨s1, t1⟩ := s1
    obtain ⟨jc, rfl, hj⟩ := step_recorded h1
    obtain ⟨uc, rfl, hu⟩ := update_recorded h2
    refine ⟨jc ++ uc, by simp, ?_⟩
    rw [points_append, hstep hj, hupd hu]
    intro y hy
    rw [List.nil_append, List.mem_singleton] at hy
    rw [hy]
    exact h1.limited
  | evalFailed st1 s1 x st2 s2 e h1 h2 =>
    obtain ⟨s1, t1⟩ := s1
    obtain ⟨jc, rfl, hj⟩ := step_recorded h1
    obtain ⟨uc, rfl, hu⟩ := update_recorded h2
    refine ⟨jc ++ uc, by simp, ?_⟩
    rw [points_append, hstep hj, hupd hu]
    intro y hy
    rw [List.nil_append, List.mem_singleton] at hy
    rw [hy]
    exact h1.limited
  | jacFailed st1 s1 e h1 =>
    obtain ⟨jc, rfl, hj⟩ := step_recorded h1
    refine ⟨jc, rfl, ?_⟩
    rw [hstep hj]
    simp

/-- The points of a whole solve: the guess, then limited points only. -/
theorem solve_points (hp : ∀ s, m.jacobianProvided s = true) (hd : c.params.damping = false)
    {r} (h : solve c (recorded m) st (s, []) = .ok (st', (s', t'), r)) :
    ∃ rest, points t' = c.guess :: rest ∧
      ∀ x ∈ rest, ∃ v raw, x = stepLimitations c.iters v raw := by
  let P : S × List (Call F n EI EU) → Prop := fun s1 => ∃ rest, points s1.2 = c.guess :: rest ∧
      ∀ x ∈ rest, ∃ v raw, x = stepLimitations c.iters v raw
  have step : ∀ {st1 st2 s1 s2} {t1 t2 : List (Call F n EI EU)} {r}, P (s1, t1) →
      iterate c (recorded m) st1 (s1, t1) = .ok (st2, (s2, t2), r) → P (s2, t2) := by
    rintro st1 st2 s1 s2 t1 t2 r ⟨rest, h1, h2⟩ hi
    obtain ⟨seg, rfl, hs⟩ := iterate_points hp hd hi
    refine ⟨rest ++ points seg, ?_, ?_⟩
    · dsimp only at h1 ⊢
      rw [points_append, h1]; rfl
    · intro x hx
      rcases List.mem_append.1 hx with hx | hx
      · exact h2 x hx
      · exact hs x hx
  have h0 : ∀ {s0 : S × List (Call F n EI EU)} {r0},
      (recorded m).evaluate ((recorded m).setIteratives (s, []) c.guess) = (s0, r0) → P s0 := by
    intro s0 r0 he
    obtain ⟨rfl, h2⟩ := solve_start he
    exact ⟨[], rfl, by simp⟩
  have run : ∀ {st1 : Solver F n} {s1 : S × List (Call F n EI EU)} {e1 st2 s2 e2},
      Run c (recorded m) st1 s1 e1 st2 s2 e2 → P s1 → P s2 := by
    intro st1 s1 e1 st2 s2 e2 hr h
    refine hr.invariant (P := fun _ s _ => P s) ?_ h
    rintro st ⟨s, t⟩ e st1 ⟨s1, t1⟩ e1 h _ hi
    exact step h hi
  change P (s', t')
  cases solve_outcome h with
  | initFailed he => exact h0 he
  | finished he hu hl =>
    cases hl with
    | exit hrun hc => exact run hrun (h0 he)
  | failed he hu hl =>
    cases hl with
    | @failed st1 s1 e1 _ _ _ hrun hc hi => exact step (run hrun (h0 he)) hi

end
end Nrf
