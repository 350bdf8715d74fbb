import Verif.Proofs.LogTrace

/-!
# The stored Jacobian and its inverse
-/

set_option linter.unusedSectionVars false

namespace Nrf

section
variable {F : Type} [Scalar F] {n : Nat} {EI EU S : Type}
variable {c : Config F n} {m : UserModel F n EI EU S}
variable {st st' : Solver F n} {s s' : S}

/-- A stored matrix comes with its inverse. -/
def Consistent (L : LinAlg F n) (j : JacobianMatrix F n) : Prop :=
  ∀ M, j.matrix = some M → ∃ inv, j.inverse = some inv ∧ L.inv M = some inv

/-- Every Jacobian in a list of entries satisfies `P`. -/
def AllJac (P : JacobianMatrix F n → Prop) (l : List (LogEntry F n)) : Prop :=
  ∀ j, LogEntry.jacobian j ∈ l → P j

theorem AllJac.append {P : JacobianMatrix F n → Prop} {a b} (ha : AllJac P a) (hb : AllJac P b) :
    AllJac P (a ++ b) := by
  intro j hj
  rcases List.mem_append.1 hj with h | h
  · exact ha j h
  · exact hb j h

theorem AllJac.mono {P Q : JacobianMatrix F n → Prop} {a} (ha : AllJac P a) (h : ∀ j, P j → Q j) :
    AllJac Q a := fun j hj => h j (ha j hj)

theorem computeJac_consistent {j j' : JacobianMatrix F n} {r}
    (h : computeJac c m j s = .ok (j', s', r)) (hj : Consistent c.la j) : Consistent c.la j' := by
  cases computeJac_outcome h with
  | success s' M inv hM hi => intro M' hM'; cases hM'; exact ⟨inv, rfl, hi⟩
  | singular s' M hM hi => intro M' hM'; cases hM'
  | inaccurate s' e hp hg => intro M' hM'; cases hM'
  | unusable s' e hp hg => intro M' hM'; cases hM'
  | fdUnusable s' e pert hp hpert hM => exact hj

theorem StepOutcome.consistent {r} (h : StepOutcome c m st s st' s' r)
    (hj : Consistent c.la st.jac) : Consistent c.la st'.jac := by
  cases h with
  | computed j l s' x hm hj' hx => exact computeJac_consistent hj' hj
  | computeFailed j l s' e hm hj' => exact computeJac_consistent hj' hj
  | kept l x hm hc hx => exact hj
  | updated u ds dy cur j l x hm hc h1 h2 h3 hj' hx =>
    rcases approximateJacobian_ok hj' with ⟨-, M, inv, hi, rfl⟩ | ⟨h, -⟩
    · intro M' hM'; cases hM'; exact ⟨inv, rfl, hi⟩
    · cases h
  | updateFailed u ds dy cur j hm hc h1 h2 h3 hj' =>
    rcases approximateJacobian_ok hj' with ⟨h, -⟩ | ⟨-, rfl⟩
    · cases h
    · intro M' hM'; cases hM'
  | invUpdated u ds dy cur j l x hm hc h1 h2 h3 hj' hx =>
    obtain ⟨inv, rfl⟩ := approximateInvJacobian_ok hj'
    intro M' hM'; cases hM'

theorem UpdateOutcome.consistent {x r} (h : UpdateOutcome c m x st s st' s' r)
    (hj : Consistent c.la st.jac) : Consistent c.la st'.jac := by
  cases h with
  | unusable s1 e he => exact hj
  | plain s1 r v l he hu hd => rw [(storeSteps_fields ..).2.2.1]; exact hj
  | refused s1 r v l he hu hd hlt hm ha => rw [(storeSteps_fields ..).2.2.1]; exact hj
  | damped s1 r v l s2 he hu hd' hlt hm he2 => rw [(storeSteps_fields ..).2.2.1]; exact hj

theorem iterate_jacInv {r} (h : iterate c m st s = .ok (st', s', r))
    (hj : Consistent c.la st.jac) : Consistent c.la st'.jac := by
  cases iterate_outcome h with
  | step st1 s1 x st2 s2 e h1 h2 => exact h2.consistent (h1.consistent hj)
  | evalFailed st1 s1 x st2 s2 e h1 h2 => exact h2.consistent (h1.consistent hj)
  | jacFailed st1 s1 e h1 => exact h1.consistent hj

/-- The step proposed is the one given by the inverse left in the solver. -/
theorem StepOutcome.newton {x} (h : StepOutcome c m st s st' s' (.ok x)) :
    ∃ inv, st'.jac.inverse = some inv ∧ x = stepLimitations c.iters (m.getIteratives s')
      (mulVec c.la (mneg inv) (c.res.evaluateUpdate (m.getResiduals s'))) := by
  cases h with
  | computed j l s' x hm hj hx => exact computeNext_ok hx
  | kept l x hm hc hx => exact computeNext_ok hx
  | updated u ds dy cur j l x hm hc h1 h2 h3 hj hx => exact computeNext_ok hx
  | invUpdated u ds dy cur j l x hm hc h1 h2 h3 hj hx => exact computeNext_ok hx

/-- An iteration writes the Jacobian it used first, and no other one. -/
theorem iterate_jac_log {l r} (h : Logs st l) (hs : iterate c m st s = .ok (st', s', r)) :
    ∃ new, Logs st' (l ++ new) ∧
      (∀ P : JacobianMatrix F n → Prop,
        (∀ st1 s1 r1, StepOutcome c m { st with iter := st.iter + 1 } s st1 s1 r1 → P st1.jac) →
        AllJac P new) ∧
      (((∃ e, r = .ok e) ∨ ∃ e, r = .error (.modelEvaluation e)) →
        ∃ st1 s1 x rest, new = .jacobian st1.jac :: rest ∧ AllJac (fun _ => False) rest ∧
          StepOutcome c m { st with iter := st.iter + 1 } s st1 s1 (.ok x) ∧
          ((∃ st2 r2, UpdateOutcome c m x st1 s1 st2 s' r2))) := by
  simp only [iterate, bind, Except.bind, pure, Except.pure] at hs
  have h' : Logs { st with iter := st.iter + 1 } l := h
  rcases hc : computeStep c m { st with iter := st.iter + 1 } s with p | ⟨st1, s1, e | x⟩
  · rw [hc] at hs; cases hs
  · rw [hc] at hs
    cases hs
    have ho := computeStep_outcome hc
    rcases computeStep_log h' hc with ⟨x, hx, -⟩ | ⟨e1, he1, hl | hl⟩
    · cases hx
    · refine ⟨_, hl, ?_, ?_⟩
      · intro P hP j hj
        rw [List.mem_singleton] at hj
        cases hj
        exact hP _ _ _ ho
      · rintro (⟨e, he⟩ | ⟨e, he⟩) <;> cases he
    · refine ⟨[], by simpa using hl, ?_, ?_⟩
      · intro P hP j hj; cases hj
      · rintro (⟨e, he⟩ | ⟨e, he⟩) <;> cases he
  · rw [hc] at hs
    have ho := computeStep_outcome hc
    obtain ⟨x', hx', hl⟩ | ⟨e1, he1, -⟩ := computeStep_log h' hc
    · dsimp only at hs
      split at hs
      · cases hs
      rename_i w hw
      obtain ⟨st2, s2, r2⟩ := w
      have fin : ∃ rest, Logs st2 (l ++ (.jacobian st1.jac :: rest)) ∧
          AllJac (fun _ => False) rest := by
        rcases updateModel_log hl hw with ⟨e, -, hu⟩ | ⟨e, -, hu | ⟨-, hu⟩ | ⟨-, s3, hu⟩⟩
        · exact ⟨[], hu, fun j hj => by cases hj⟩
        · refine ⟨_, by simpa using hu, ?_⟩
          intro j hj
          simp [entryOf] at hj
        · refine ⟨_, by simpa using hu, ?_⟩
          intro j hj
          simp [entryOf] at hj
        · refine ⟨_, by simpa using hu, ?_⟩
          intro j hj
          simp [entryOf] at hj
      obtain ⟨rest, h1, h2⟩ := fin
      have hs' : st' = st2 ∧ s' = s2 := by
        dsimp only at hs
        split at hs <;> (cases hs; exact ⟨rfl, rfl⟩)
      obtain ⟨rfl, rfl⟩ := hs'
      refine ⟨_, h1, ?_, fun _ => ⟨st1, s1, x, rest, rfl, h2, ho, _, _, updateModel_outcome hw⟩⟩
      intro P hP j hj
      rcases List.mem_cons.1 hj with hj | hj
      · cases hj; exact hP _ _ _ ho
      · exact (h2 j hj).elim
    · cases he1

/-- The Jacobians written by a solve with debugging: consistent ones, all with an inverse unless the
last one could not be computed. -/
theorem solve_jac_log {l0 r} (hl : Logs st l0) (hj : Consistent c.la st.jac)
    (h : solve c m st s = .ok (st', s', r)) :
    ∃ new, Logs st' (l0 ++ new) ∧ AllJac (Consistent c.la) new ∧ Consistent c.la st'.jac ∧
      ((∀ e, r ≠ .error (.jacobian e)) → AllJac (fun j => ∃ inv, j.inverse = some inv) new) := by
  rcases he : m.evaluate (m.setIteratives s c.guess) with ⟨s0, rv⟩
  by_cases hu : ∃ e, rv = .error (.unusable e)
  · obtain ⟨e, rfl⟩ := hu
    rw [solve_unusable he] at h
    cases h
    exact ⟨[], by simpa using hl, fun j hj => (by cases hj), hj, fun _ j hj => (by cases hj)⟩
  have hus : ∃ v, Usable rv v := by
    match rv, hu with
    | .ok (), _ => exact ⟨_, .ok⟩
    | .error (.inaccurate e), _ => exact ⟨_, .inaccurate e⟩
    | .error (.unusable e), hu => exact (hu ⟨e, rfl⟩).elim
  obtain ⟨v, hus⟩ := hus
  rw [solve_usable he hus] at h
  have hn : n ≠ 0 := by
    intro hn
    rw [solveFrom_zero hl hn] at h
    cases h
  have hp := solveFrom_logs (c := c) (m := m) hl hn s0 c.params.maxIter
  have hc : withMaxIter c c.params.maxIter = c := rfl
  rw [hc] at hp
  rw [hp] at h
  let I : Solver F n → Prop := fun st1 => Consistent c.la st1.jac ∧
    ∃ new, Logs st1 (l0 ++ new) ∧ AllJac (Consistent c.la) new ∧
      AllJac (fun j => ∃ inv, j.inverse = some inv) new
  have start : I { st with log := some (l0 ++ [.parameters, entryOf c m st.iter s0]) } := by
    refine ⟨hj, _, ⟨hl.1, rfl⟩, ?_, ?_⟩ <;>
    · intro j hj
      simp [entryOf] at hj
  have step : ∀ {st1 st2 : Solver F n} {s1 s2 r2}, I st1 →
      iterate c m st1 s1 = .ok (st2, s2, r2) → Consistent c.la st2.jac ∧
      ∃ new, Logs st2 (l0 ++ new) ∧ AllJac (Consistent c.la) new ∧
      (((∃ e, r2 = .ok e) ∨ ∃ e, r2 = .error (.modelEvaluation e)) →
        AllJac (fun j => ∃ inv, j.inverse = some inv) new) := by
    rintro st1 st2 s1 s2 r2 ⟨h1, new, h2, h3, h4⟩ hi
    obtain ⟨new', g1, g2, g3⟩ := iterate_jac_log h2 hi
    refine ⟨iterate_jacInv hi h1, new ++ new', by simpa using g1,
      h3.append (g2 _ fun _ _ _ ho => ho.consistent h1), fun hr => ?_⟩
    obtain ⟨st3, s3, x, rest, rfl, k1, k2, -⟩ := g3 hr
    obtain ⟨inv, k3, -⟩ := k2.newton
    refine h4.append ?_
    intro j hj
    rcases List.mem_cons.1 hj with hj | hj
    · cases hj; exact ⟨inv, k3⟩
    · exact (k1 j hj).elim
  rcases hlo : loop c m (c.params.maxIter - st.iter)
      { st with log := some (l0 ++ [.parameters, entryOf c m st.iter s0]) } s0
      (amax (evaluateErrors c m s0)) with p | ⟨st1, s1, err | e⟩
  · rw [hlo] at h; cases h
  · rw [hlo] at h
    cases h
    cases loop_outcome (c := c) _ (by dsimp only; omega) hlo with
    | failed hr hc hi =>
      have hI := hr.invariant (P := fun st _ _ => I st) (fun _ _ _ _ _ _ hI _ hi => by
        obtain ⟨k1, new, k2, k3, k4⟩ := step hI hi
        exact ⟨k1, new, k2, k3, k4 (.inl ⟨_, rfl⟩)⟩) start
      obtain ⟨k1, new, k2, k3, k4⟩ := step hI hi
      refine ⟨new, k2, k3, k1, fun hr => k4 ?_⟩
      cases iterate_outcome hi with
      | evalFailed _ _ _ _ _ _ g1 g2 => cases g2; exact .inr ⟨_, rfl⟩
      | jacFailed _ _ e g1 => exact absurd rfl (hr e)
  · rw [hlo] at h
    cases h
    cases loop_outcome (c := c) _ (by dsimp only; omega) hlo with
    | exit hr hc =>
      obtain ⟨k1, new, k2, k3, k4⟩ := hr.invariant (P := fun st _ _ => I st) (fun _ _ _ _ _ _ hI _ hi => by
        obtain ⟨k1, new, k2, k3, k4⟩ := step hI hi
        exact ⟨k1, new, k2, k3, k4 (.inl ⟨_, rfl⟩)⟩) start
      exact ⟨new, k2, k3, k1, fun _ => k4⟩

end
end Nrf
