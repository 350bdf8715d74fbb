import Verif.Proofs.Loop

/-!
# Outcomes of a Jacobian computation
-/

set_option linter.unusedSectionVars false

namespace Nrf

section
variable {F : Type} [Scalar F] {n : Nat} {EI EU S : Type}
variable {c : Config F n} {m : UserModel F n EI EU S}
variable {st st' : Solver F n} {s s' : S}

/-- `M` is a matrix computed from the model at `s`, leaving it at `s'`. -/
inductive Computed (c : Config F n) (m : UserModel F n EI EU S) (s s' : S) (M : Mat F n) :
    Prop where
  | analytic (v) (hp : m.jacobianProvided s = true) (hg : m.getJacobian s = (s', .ok v))
      (hM : M = v.normalize (m.getResiduals s) c.res.upd)
  | fd (pert) (hp : m.jacobianProvided s = false)
      (hpert : computePerturbations c.iters (m.getIteratives s) = some pert)
      (hM : fdCompute c.res m pert s = .ok (s', .ok M))

/-- Outcome of `compute_jac` that did not panic. -/
inductive JacOutcome (c : Config F n) (m : UserModel F n EI EU S) (j : JacobianMatrix F n) (s : S) :
    JacobianMatrix F n → S → Except (SolverInternalError EI EU) Unit → Prop where
  | success (s' M inv) (hM : Computed c m s s' M) (hi : c.la.inv M = some inv) :
      JacOutcome c m j s
        { matrix := some M, inverse := some inv, computeNext := false, approximated := false }
        s' (.ok ())
  | singular (s' M) (hM : Computed c m s s' M) (hi : c.la.inv M = none) :
      JacOutcome c m j s
        { matrix := none, inverse := none, computeNext := j.computeNext, approximated := false }
        s' (.error .invalidJacobianInverse)
  | inaccurate (s' e) (hp : m.jacobianProvided s = true)
      (hg : m.getJacobian s = (s', .error (.inaccurate e))) :
      JacOutcome c m j s j.invalidate s' (.ok ())
  | unusable (s' e) (hp : m.jacobianProvided s = true)
      (hg : m.getJacobian s = (s', .error (.unusable e))) :
      JacOutcome c m j s j.invalidate s' (.error (.invalidJacobian (.unusable e)))
  | fdUnusable (s' e pert) (hp : m.jacobianProvided s = false)
      (hpert : computePerturbations c.iters (m.getIteratives s) = some pert)
      (hM : fdCompute c.res m pert s = .ok (s', .error (.unusable e))) :
      JacOutcome c m j s j s' (.error (.invalidJacobian (.unusable e)))

theorem fdLoop_error (pert : Vec F n) (mem : List F) (x r : Vec F n) :
    ∀ (k i : Nat) (J : Mat F n) (s : S) {s' e},
      fdLoop c.res m pert mem x r k i J s = .ok (s', .error e) → ∃ e', e = .unusable e' := by
  intro k
  induction k with
  | zero => intro i J s s' e h; cases h
  | succ k ih =>
    intro i J s s' e h
    unfold fdLoop at h
    split at h
    · dsimp only at h
      split at h
      · cases h; exact ⟨_, rfl⟩
      · exact ih _ _ _ h
    · cases h

theorem computeJac_outcome {j j' : JacobianMatrix F n} {r}
    (h : computeJac c m j s = .ok (j', s', r)) : JacOutcome c m j s j' s' r := by
  have upd : ∀ {s2 : S} {M : Mat F n} {j2 : JacobianMatrix F n} {b : Bool},
      Computed c m s s2 M → j.updateExact c.la M = (j2, b) →
      JacOutcome c m j s j2 s2 (if b then .ok () else .error .invalidJacobianInverse) := by
    intro s2 M j2 b hM hu
    unfold JacobianMatrix.updateExact JacobianMatrix.update at hu
    split at hu
    · rename_i inv hi
      cases hu
      exact .success s2 M inv hM hi
    · rename_i hi
      cases hu
      exact .singular s2 M hM hi
  unfold computeJac at h
  by_cases hp : m.jacobianProvided s = true
  · simp only [hp, if_true] at h
    unfold analyticJacobian at h
    rcases hg : m.getJacobian s with ⟨s2, g⟩
    rw [hg] at h
    match g, hg with
    | .error (.inaccurate e), hg => cases h; exact .inaccurate _ _ hp hg
    | .error (.unusable e), hg => cases h; exact .unusable _ _ hp hg
    | .ok v, hg =>
      dsimp only at h
      rcases hu : j.updateExact c.la (v.normalize (m.getResiduals s) c.res.upd) with ⟨j2, b⟩
      rw [hu] at h
      have := upd (.analytic v hp hg rfl) hu
      cases b <;> (cases h; exact this)
  · have hp : m.jacobianProvided s = false := by simpa using hp
    simp only [hp, Bool.false_eq_true, if_false] at h
    unfold fdJacobian at h
    cases hpert : computePerturbations c.iters (m.getIteratives s) with
    | none => simp [hpert] at h
    | some pert =>
      simp only [hpert] at h
      cases hfd : fdCompute c.res m pert s with
      | error p => simp [hfd] at h
      | ok w =>
        obtain ⟨s2, v⟩ := w
        simp only [hfd] at h
        match v, hfd with
        | .ok M, hfd =>
          dsimp only at h
          rcases hu : j.updateExact c.la M with ⟨j2, b⟩
          rw [hu] at h
          have := upd (.fd pert hp hpert hfd) hu
          cases b <;> (cases h; exact this)
        | .error e, hfd =>
          obtain ⟨e', rfl⟩ := fdLoop_error _ _ _ _ _ _ _ _ (show fdLoop _ _ _ _ _ _ _ _ _ _ = _ from hfd)
          cases h
          exact .fdUnusable _ _ _ hp hpert hfd

theorem computeNext_ok {x} (h : computeNext c m st s = .ok x) :
    ∃ inv, st.jac.inverse = some inv ∧
      x = stepLimitations c.iters (m.getIteratives s)
        (mulVec c.la (mneg inv) (c.res.evaluateUpdate (m.getResiduals s))) := by
  unfold computeNext at h
  dsimp only at h
  split at h
  · cases h
  · rename_i inv hi
    cases h
    exact ⟨inv, hi, rfl⟩

/-- When a step was proposed after computing the Jacobian, that computation
succeeded. -/
theorem computed_success {j j' : JacobianMatrix F n} {l x}
    (hj : computeJac c m j s = .ok (j', s', .ok ()))
    (hx : computeNext c m { st with jac := j', log := l } s' = .ok x) :
    ∃ M inv, Computed c m s s' M ∧ c.la.inv M = some inv ∧
      j' = { matrix := some M, inverse := some inv, computeNext := false, approximated := false } := by
  cases computeJac_outcome hj with
  | success _ M inv hM hi => exact ⟨M, inv, hM, hi, rfl⟩
  | inaccurate _ e hp hg =>
    obtain ⟨inv, hi, -⟩ := computeNext_ok hx
    simp [JacobianMatrix.invalidate] at hi

theorem approximateJacobian_ok {j j' : JacobianMatrix F n} {u ds dy cur b}
    (h : approximateJacobian c.la j u ds dy cur = .ok (j', b)) :
    (b = true ∧ ∃ M inv, c.la.inv M = some inv ∧
      j' = { matrix := some M, inverse := some inv, computeNext := false, approximated := true }) ∨
    (b = false ∧ j' = { j with matrix := none, inverse := none, approximated := true }) := by
  have upd : ∀ {M : Mat F n}, j.updateApproximated c.la M = (j', b) →
      (b = true ∧ ∃ M inv, c.la.inv M = some inv ∧
      j' = { matrix := some M, inverse := some inv, computeNext := false, approximated := true }) ∨
    (b = false ∧ j' = { j with matrix := none, inverse := none, approximated := true }) := by
    intro M hu
    unfold JacobianMatrix.updateApproximated JacobianMatrix.update at hu
    split at hu
    · rename_i inv hi
      cases hu
      exact .inl ⟨rfl, M, inv, hi, rfl⟩
    · cases hu
      exact .inr ⟨rfl, rfl⟩
  unfold approximateJacobian at h
  split at h
  all_goals
    split at h
    · cases h
    · first
      | exact upd (Except.ok.inj h)
      | (dsimp only at h
         split at h
         · cases h
         · exact upd (Except.ok.inj h))

theorem approximateInvJacobian_ok {j j' : JacobianMatrix F n} {u ds dy cur}
    (h : approximateInvJacobian c.la j u ds dy cur = .ok j') :
    ∃ inv, j' = j.updateInverse inv := by
  unfold approximateInvJacobian at h
  split at h
  · cases h
  · split at h <;> exact ⟨_, (Except.ok.inj h).symm⟩

/-- After a proposed step the next Jacobian computation is not pending, and the
Jacobian is flagged approximated exactly when it was not computed (stationary
Newton keeps its flag). -/
theorem StepOutcome.flags {x} (h : StepOutcome c m st s st' s' (.ok x)) :
    st'.jac.computeNext = false ∧ (∃ inv, st'.jac.inverse = some inv) := by
  cases h with
  | computed j l s' x hm hj hx =>
    obtain ⟨M, inv, -, -, rfl⟩ := computed_success hj hx
    exact ⟨rfl, inv, rfl⟩
  | kept l x hm hc hx =>
    obtain ⟨inv, hi, -⟩ := computeNext_ok hx
    exact ⟨hc, inv, hi⟩
  | updated u ds dy cur j l x hm hc h1 h2 h3 hj hx =>
    rcases approximateJacobian_ok hj with ⟨-, M, inv, -, rfl⟩ | ⟨h, -⟩
    · exact ⟨rfl, inv, rfl⟩
    · cases h
  | invUpdated u ds dy cur j l x hm hc h1 h2 h3 hj hx =>
    obtain ⟨inv, rfl⟩ := approximateInvJacobian_ok hj
    exact ⟨hc, inv, rfl⟩

end
end Nrf
