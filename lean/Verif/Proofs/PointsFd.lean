import Verif.Proofs.Points
import Verif.Proofs.FiniteDiff

/-!
# The points at which a model without analytic Jacobian is evaluated
-/

set_option linter.unusedSectionVars false

namespace Nrf

section
variable {F : Type} [Scalar F] {n : Nat} {EI EU S : Type}
variable {c : Config F n} {m : UserModel F n EI EU S}
variable {st st' : Solver F n} {s s' : S} {t t' : List (Call F n EI EU)}

/-- The loop sets displaced points only. -/
theorem fdLoop_points (pert : Vec F n) (mem : List F) (x r : Vec F n) :
    ∀ (k i : Nat) (J : Mat F n) (s : S) (t : List (Call F n EI EU)) {s' t' v},
      fdLoop c.res (recorded m) pert mem x r k i J (s, t) = .ok ((s', t'), v) →
      ∃ seg, t' = t ++ seg ∧ ∀ y ∈ points seg, ∃ col, y = moved x col (pert col) := by
  intro k
  induction k with
  | zero =>
    intro i J s t s' t' v h
    cases h
    exact ⟨[], by simp, by simp [points]⟩
  | succ k ih =>
    intro i J s t s' t' v h
    unfold fdLoop at h
    by_cases hi : i < n
    · simp only [hi, dite_true, recorded] at h
      rcases hev : m.evaluate (m.setIteratives s _) with ⟨s1, rv⟩
      rw [hev] at h
      have key : ∀ {J' : Mat F n} {s2 : S} {e : Except (ModelError EI EU) Unit},
          fdLoop c.res (recorded m) pert mem x r k (i + 1) J'
            (s2, (t ++ [.setIteratives (moved x ⟨i, hi⟩ (pert ⟨i, hi⟩))] ++ [.evaluate e]) ++
              [.setMemory mem]) = .ok ((s', t'), v) →
          ∃ seg, t' = t ++ seg ∧ ∀ y ∈ points seg, ∃ col, y = moved x col (pert col) := by
        intro J' s2 e h
        obtain ⟨seg, rfl, hs⟩ := ih _ _ _ _ h
        refine ⟨_, by simp only [List.append_assoc]; rfl, ?_⟩
        intro y hy
        simp only [points_append, points, List.mem_append, List.mem_singleton, List.not_mem_nil,
          false_or, or_false] at hy
        rcases hy with rfl | hy
        · exact ⟨_, rfl⟩
        · exact hs y hy
      match rv with
      | .error (.unusable e) =>
        cases h
        refine ⟨_, by rw [List.append_assoc], ?_⟩
        intro y hy
        simp only [points_append, points, List.mem_append, List.mem_singleton, List.not_mem_nil,
          or_false] at hy
        exact ⟨_, hy⟩
      | .error (.inaccurate e) => exact key h
      | .ok () => exact key h
    · simp [hi] at h

/-- Where a completed loop leaves the model. -/
theorem fdLoop_final (pert : Vec F n) (mem : List F) (x r : Vec F n) :
    ∀ (k i : Nat) (J : Mat F n) (s : S) {s' J'},
      fdLoop c.res m pert mem x r k i J s = .ok (s', .ok J') →
      (k = 0 → s' = s) ∧
      (k ≠ 0 → ∃ (s1 : S) (last : Fin n), last.1 + 1 = i + k ∧
        s' = m.setMemory (m.evaluate (m.setIteratives s1 (moved x last (pert last)))).1 mem) := by
  intro k
  induction k with
  | zero =>
    intro i J s s' J' h
    cases h
    exact ⟨fun _ => rfl, fun h => absurd rfl h⟩
  | succ k ih =>
    intro i J s s' J' h
    unfold fdLoop at h
    split at h
    · rename_i hi
      dsimp only at h
      split at h
      · cases h
      · rename_i s2 u hu he
        obtain ⟨h3, h4⟩ := ih _ _ _ h
        refine ⟨fun h => absurd h (by omega), fun _ => ?_⟩
        by_cases hk : k = 0
        · refine ⟨s, ⟨i, hi⟩, by subst hk; rfl, ?_⟩
          rw [h3 hk]
          exact congrArg (fun v => m.setMemory v mem) (congrArg Prod.fst he).symm
        · obtain ⟨s1, last, g1, g3⟩ := h4 hk
          exact ⟨s1, last, by omega, g3⟩
    · cases h

/-- Computing a Jacobian sets displaced points only. -/
theorem computeJac_points {j j' : JacobianMatrix F n} {r}
    (h : computeJac c (recorded m) j (s, t) = .ok (j', (s', t'), r)) :
    ∃ seg, t' = t ++ seg ∧ ∀ y ∈ points seg, ∃ col f,
      (c.iters col).computePerturbation = some f ∧
      y = moved (m.getIteratives s) col (f (m.getIteratives s col)) := by
  have fd : ∀ {pert : Vec F n} {v},
      computePerturbations c.iters (m.getIteratives s) = some pert →
      fdCompute c.res (recorded m) pert (s, t) = .ok ((s', t'), v) →
      ∃ seg, t' = t ++ seg ∧ ∀ y ∈ points seg, ∃ col f,
        (c.iters col).computePerturbation = some f ∧
        y = moved (m.getIteratives s) col (f (m.getIteratives s col)) := by
    intro pert v hp hf
    obtain ⟨seg, rfl, hs⟩ := fdLoop_points _ _ _ _ _ _ _ _ _ (show fdLoop _ _ _ _ _ _ _ _ _ _ = _ from hf)
    refine ⟨seg, rfl, fun y hy => ?_⟩
    obtain ⟨col, rfl⟩ := hs y hy
    unfold computePerturbations at hp
    split at hp
    · rename_i hsome
      cases hp
      obtain ⟨f, hf⟩ := Option.isSome_iff_exists.1 (hsome col)
      refine ⟨col, f, hf, ?_⟩
      exact congrArg (moved _ col) (congrFun (Option.get_of_eq_some _ hf) _)
    · cases hp
  have an : ∀ {g}, (recorded m).getJacobian (s, t) = ((s', t'), g) →
      ∃ seg, t' = t ++ seg ∧ ∀ y ∈ points seg, ∃ col f,
        (c.iters col).computePerturbation = some f ∧
        y = moved (m.getIteratives s) col (f (m.getIteratives s col)) := by
    intro g hg
    simp only [recorded] at hg
    cases hg
    exact ⟨_, rfl, by simp [points]⟩
  have comp : ∀ {M : Mat F n}, Computed c (recorded m) (s, t) (s', t') M →
      ∃ seg, t' = t ++ seg ∧ ∀ y ∈ points seg, ∃ col f,
        (c.iters col).computePerturbation = some f ∧
        y = moved (m.getIteratives s) col (f (m.getIteratives s col)) := by
    intro M hM
    cases hM with
    | analytic v hp hg => exact an hg
    | fd pert hp hpert hM => exact fd hpert hM
  cases computeJac_outcome h with
  | success _ M inv hM hi => exact comp hM
  | singular _ M hM hi => exact comp hM
  | inaccurate _ e hp hg => exact an hg
  | unusable _ e hp hg => exact an hg
  | fdUnusable _ e pert hp hpert hM => exact fd hpert hM

/-- Computing a step sets displaced points only. -/
theorem step_points {r} (h : StepOutcome c (recorded m) st (s, t) st' (s', t') r) :
    ∃ seg, t' = t ++ seg ∧ ∀ y ∈ points seg, ∃ col f,
      (c.iters col).computePerturbation = some f ∧
      y = moved (m.getIteratives s) col (f (m.getIteratives s col)) := by
  cases h with
  | computed j l _ x hm hj hx => exact computeJac_points hj
  | computeFailed j l _ e hm hj => exact computeJac_points hj
  | kept => exact ⟨[], by simp, by simp [points]⟩
  | updated => exact ⟨[], by simp, by simp [points]⟩
  | updateFailed => exact ⟨[], by simp, by simp [points]⟩
  | invUpdated => exact ⟨[], by simp, by simp [points]⟩

/-- A point accepted by the solver: the guess or a limited point. -/
def Accepted (c : Config F n) (x : Vec F n) : Prop :=
  x = c.guess ∨ ∃ v raw, x = stepLimitations c.iters v raw

/-- A point used for a finite difference. -/
def Probe (c : Config F n) (x : Vec F n) : Prop :=
  ∃ y col f, Accepted c y ∧ (c.iters col).computePerturbation = some f ∧
    x = moved y col (f (y col))

/-- Without damping, the points of one iteration started from an accepted point, and
where it leaves the model. -/
theorem iterate_points_fd (hg : Spec.GetSet m) (hd : c.params.damping = false)
    (ha : Accepted c (m.getIteratives s)) {r}
    (h : iterate c (recorded m) st (s, t) = .ok (st', (s', t'), r)) :
    (∃ seg, t' = t ++ seg ∧ ∀ x ∈ points seg, Accepted c x ∨ Probe c x) ∧
      ∀ e, r = .ok e → Accepted c (m.getIteratives s') := by
  have probe : ∀ {seg : List (Call F n EI EU)}, (∀ y ∈ points seg, ∃ col f,
        (c.iters col).computePerturbation = some f ∧
        y = moved (m.getIteratives s) col (f (m.getIteratives s col))) →
      ∀ y ∈ points seg, Accepted c y ∨ Probe c y := by
    intro seg hs y hy
    obtain ⟨col, f, hf, rfl⟩ := hs y hy
    exact .inr ⟨_, col, f, ha, hf, rfl⟩
  have hupd : ∀ {x : Vec F n} {s1 s2 : S} {v uc r}, UpdateCalls c m x s1 s2 v uc r → points uc = [x] := by
    intro x s1 s2 v uc r hu
    cases hu with
    | unusable => rfl
    | plain => rfl
    | damped s1 r he hu hd' => rw [hd] at hd'; cases hd'
  have hboth : ∀ {st1 : Solver F n} {s1 : S} {t1 : List (Call F n EI EU)} {x st2 e},
      StepOutcome c (recorded m) { st with iter := st.iter + 1 } (s, t) st1 (s1, t1) (.ok x) →
      UpdateOutcome c (recorded m) x st1 (s1, t1) st2 (s', t') e →
      ∃ seg, t' = t ++ seg ∧ ∀ x ∈ points seg, Accepted c x ∨ Probe c x := by
    intro st1 s1 t1 x st2 e h1 h2
    obtain ⟨jc, rfl, hj⟩ := step_points h1
    obtain ⟨uc, rfl, hu⟩ := update_recorded h2
    refine ⟨jc ++ uc, by simp, ?_⟩
    rw [points_append, hupd hu]
    intro y hy
    rcases List.mem_append.1 hy with hy | hy
    · exact probe hj y hy
    · rw [List.mem_singleton] at hy
      rw [hy]
      exact .inl (.inr h1.limited)
  cases iterate_outcome h with
  | step st1 s1 x st2 s2 e h1 h2 =>
    obtain ⟨s1, t1⟩ := s1
    refine ⟨hboth h1 h2, fun _ _ => ?_⟩
    have : ∀ {r1}, (recorded m).evaluate ((recorded m).setIteratives (s1, t1) x) = ((s', t'), r1) →
        m.getIteratives s' = x := by
      intro r1 he
      simp only [recorded, Prod.mk.injEq] at he
      rw [← he.1.1, hg.get_evaluate, hg.get_set]
    have hx : m.getIteratives s' = x := by
      cases h2 with
      | plain s1 r v l he hu hd' => exact this he
      | refused s1 r v l he hu hd' => rw [hd] at hd'; cases hd'
      | damped s1 r v l s2 he hu hd' => rw [hd] at hd'; cases hd'
    rw [hx]
    exact .inr h1.limited
  | evalFailed st1 s1 x st2 s2 e h1 h2 =>
    obtain ⟨s1, t1⟩ := s1
    exact ⟨hboth h1 h2, fun _ h => by cases h⟩
  | jacFailed st1 s1 e h1 =>
    obtain ⟨jc, rfl, hj⟩ := step_points h1
    exact ⟨⟨jc, rfl, probe hj⟩, fun _ h => by cases h⟩

/-- The points of a whole solve. -/
theorem solve_points_fd (hg : Spec.GetSet m) (hd : c.params.damping = false)
    {r} (h : solve c (recorded m) st (s, []) = .ok (st', (s', t'), r)) :
    ∀ x ∈ points t', Accepted c x ∨ Probe c x := by
  let P : S × List (Call F n EI EU) → Prop := fun s1 =>
    Accepted c (m.getIteratives s1.1) ∧ ∀ x ∈ points s1.2, Accepted c x ∨ Probe c x
  have step : ∀ {st1 : Solver F n} {st2 s1 s2} {t1 t2 : List (Call F n EI EU)} {r}, P (s1, t1) →
      iterate c (recorded m) st1 (s1, t1) = .ok (st2, (s2, t2), r) →
      (∀ x ∈ points t2, Accepted c x ∨ Probe c x) ∧ ∀ e, r = .ok e → P (s2, t2) := by
    rintro st1 st2 s1 s2 t1 t2 r ⟨h1, h2⟩ hi
    obtain ⟨⟨seg, rfl, hs⟩, hr⟩ := iterate_points_fd hg hd h1 hi
    have : ∀ x ∈ points (t1 ++ seg), Accepted c x ∨ Probe c x := by
      intro x hx
      rw [points_append] at hx
      rcases List.mem_append.1 hx with hx | hx
      · exact h2 x hx
      · exact hs x hx
    exact ⟨this, fun e he => ⟨hr e he, this⟩⟩
  have h0 : ∀ {s0 : S × List (Call F n EI EU)} {r0},
      (recorded m).evaluate ((recorded m).setIteratives (s, []) c.guess) = (s0, r0) → P s0 := by
    intro s0 r0 he
    obtain ⟨rfl, h2⟩ := solve_start he
    refine ⟨.inl ?_, ?_⟩
    · change m.getIteratives _ = _
      rw [hg.get_evaluate, hg.get_set]
    · intro x hx
      simp only [points, List.nil_append, List.mem_singleton] at hx
      exact .inl (.inl hx)
  have run : ∀ {st1 : Solver F n} {s1 : S × List (Call F n EI EU)} {e1 st2 s2 e2},
      Run c (recorded m) st1 s1 e1 st2 s2 e2 → P s1 → P s2 := by
    intro st1 s1 e1 st2 s2 e2 hr h
    refine hr.invariant (P := fun _ s _ => P s) ?_ h
    rintro st ⟨s, t⟩ e st1 ⟨s1, t1⟩ e1 h _ hi
    exact (step h hi).2 _ rfl
  cases solve_outcome h with
  | initFailed he => exact (h0 he).2
  | finished he hu hl =>
    cases hl with
    | exit hrun hc => exact (run hrun (h0 he)).2
  | failed he hu hl =>
    cases hl with
    | @failed st1 s1 e1 _ _ _ hrun hc hi => exact (step (run hrun (h0 he)) hi).1

end
end Nrf
