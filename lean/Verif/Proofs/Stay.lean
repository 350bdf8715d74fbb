import Verif.Proofs.Damping

/-!
# A property of one variable kept by the step limitation and by damping
-/

set_option linter.unusedSectionVars false

namespace Nrf

section
variable {F : Type} [Scalar F] {n : Nat} {EI EU S : Type}
variable {c : Config F n} {m : UserModel F n EI EU S}
variable {st st' : Solver F n} {s s' : S} {i : Fin n} {Q : F → Prop}

/-- A proposed step is the limitation of a raw step from the point where the model is. -/
theorem StepOutcome.limited_from {x} (h : StepOutcome c m st s st' s' (.ok x)) :
    ∃ raw, x = stepLimitations c.iters (m.getIteratives s') raw := by
  cases h with
  | computed j l s' x hm hj hx => obtain ⟨inv, -, h⟩ := computeNext_ok hx; exact ⟨_, h⟩
  | kept l x hm hc hx => obtain ⟨inv, -, h⟩ := computeNext_ok hx; exact ⟨_, h⟩
  | updated u ds dy cur j l x hm hc h1 h2 h3 hj hx =>
    obtain ⟨inv, -, h⟩ := computeNext_ok hx; exact ⟨_, h⟩
  | invUpdated u ds dy cur j l x hm hc h1 h2 h3 hj hx =>
    obtain ⟨inv, -, h⟩ := computeNext_ok hx; exact ⟨_, h⟩

theorem UpdateOutcome.stays (hG : Spec.GetSet m) {x r} (h : UpdateOutcome c m x st s st' s' r)
    (hx : Q (x i)) (hd : Q (dampedGuess (m.getIteratives s) x i)) : Q (m.getIteratives s' i) := by
  have key : ∀ {s : S} {y : Vec F n} {s1 r1}, m.evaluate (m.setIteratives s y) = (s1, r1) →
      m.getIteratives s1 = y := by
    intro s y s1 r1 he
    have := hG.get_evaluate (m.setIteratives s y)
    rw [he, hG.get_set] at this
    exact this
  cases h with
  | unusable s1 e he => rw [key he]; exact hx
  | plain s1 r v l he hu hd => rw [key he]; exact hx
  | refused s1 r v l he hu hd hlt hm ha => rw [key he]; exact hx
  | damped s1 r v l s2 he hu hd' hlt hm he2 => rw [key he2]; exact hd

/-- A property of the value of a variable that limited steps and midpoints keep is kept by an
iteration. -/
theorem iterate_stays (hG : Spec.GetSet m) (hA : Spec.AnalyticJacobian m)
    (hlim : ∀ v raw, Q v → Q ((c.iters i).stepLimitation v raw))
    (hdamp : ∀ x y : Vec F n, Q (x i) → Q (y i) → Q (dampedGuess x y i)) {r}
    (h : iterate c m st s = .ok (st', s', r)) (h0 : Q (m.getIteratives s i)) :
    Q (m.getIteratives s' i) := by
  have key : ∀ {st1 : Solver F n} {s1 x},
      StepOutcome c m { st with iter := st.iter + 1 } s st1 s1 (.ok x) →
      Q (m.getIteratives s1 i) ∧ Q (x i) := by
    intro st1 s1 x h1
    have e := (h1.pure hA).2
    obtain ⟨raw, rfl⟩ := h1.limited_from
    rw [e]
    exact ⟨h0, hlim _ _ h0⟩
  cases iterate_outcome h with
  | step st1 s1 x st2 s2 e h1 h2 =>
    obtain ⟨g1, g2⟩ := key h1
    exact h2.stays hG g2 (hdamp _ _ g1 g2)
  | evalFailed st1 s1 x st2 s2 e h1 h2 =>
    obtain ⟨g1, g2⟩ := key h1
    exact h2.stays hG g2 (hdamp _ _ g1 g2)
  | jacFailed st1 s1 e h1 => rw [(h1.pure hA).2]; exact h0

/-- The same for a whole solve. -/
theorem solve_stays (hG : Spec.GetSet m) (hA : Spec.AnalyticJacobian m)
    (hlim : ∀ v raw, Q v → Q ((c.iters i).stepLimitation v raw))
    (hdamp : ∀ x y : Vec F n, Q (x i) → Q (y i) → Q (dampedGuess x y i)) {r}
    (h : solve c m st s = .ok (st', s', r)) (h0 : Q (c.guess i)) :
    Q (m.getIteratives s' i) := by
  have start : ∀ {s0 r0}, m.evaluate (m.setIteratives s c.guess) = (s0, r0) →
      Q (m.getIteratives s0 i) := by
    intro s0 r0 he
    have := hG.get_evaluate (m.setIteratives s c.guess)
    rw [he, hG.get_set] at this
    rw [show m.getIteratives s0 = c.guess from this]
    exact h0
  have run : ∀ {st1 : Solver F n} {s1 : S} {e1 st2 s2 e2},
      Run c m st1 s1 e1 st2 s2 e2 → Q (m.getIteratives s1 i) → Q (m.getIteratives s2 i) := by
    intro st1 s1 e1 st2 s2 e2 hr h
    refine hr.invariant (P := fun _ s _ => Q (m.getIteratives s i)) ?_ h
    intro st s e st1 s1 e1 h _ hi
    exact iterate_stays hG hA hlim hdamp hi h
  cases solve_outcome h with
  | initFailed he => exact start he
  | finished he hu hl =>
    cases hl with
    | exit hrun hc => exact run hrun (start he)
  | failed he hu hl =>
    cases hl with
    | failed hrun hc hi => exact iterate_stays hG hA hlim hdamp hi (run hrun (start he))

end
end Nrf
