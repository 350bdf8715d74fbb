import Verif.Proofs.Budget
import Verif.Proofs.Economy
import Verif.Spec.Contract

/-!
# Iterations with and without damping
-/

set_option linter.unusedSectionVars false

namespace Nrf

section
variable {F : Type} [Scalar F] {n : Nat} {EI EU S : Type}
variable {c : Config F n} {m : UserModel F n EI EU S}
variable {st st' : Solver F n} {s s' : S}

/-- The same configuration without damping. -/
def undamped (c : Config F n) : Config F n :=
  { c with params := { c.params with damping := false } }

theorem Run.snoc {e e' st2 s2 e2} (hr : Run c m st s e st' s' e') (hc : continues c st' e' = true)
    (hi : iterate c m st' s' = .ok (st2, s2, .ok e2)) : Run c m st s e st2 s2 e2 := by
  induction hr with
  | done => exact .pass hc hi (.done _ _ _)
  | pass hc' hi' _ ih => exact .pass hc' hi' (ih hc hi)

/-- The passes made by the loop are those of the loop with just enough budget. -/
theorem Run.truncate {e e'} (hr : Run c m st s e st' s' e') :
    loop (withMaxIter c st'.iter) m (st'.iter - st.iter) st s e = .ok (st', s', .ok e') := by
  induction hr with
  | done => rw [Nat.sub_self]; rfl
  | @pass st s e st1 s1 e1 st2 s2 e2 hc hi hr ih =>
    have h1 := iterate_iter hi
    have h2 := hr.iter_le
    obtain ⟨k, hk⟩ : ∃ k, st2.iter - st.iter = k + 1 := ⟨st2.iter - st.iter - 1, by omega⟩
    have hk' : st2.iter - st1.iter = k := by omega
    rw [hk', ] at ih
    rw [hk, loop.eq_2]
    have : continues (withMaxIter c st2.iter) st e = true := by
      simp only [continues, Bool.and_eq_true, decide_eq_true_eq] at hc ⊢
      exact ⟨hc.1, by simp only [withMaxIter]; omega⟩
    rw [if_pos this]
    have hi' : iterate (withMaxIter c st2.iter) m st s = .ok (st1, s1, .ok e1) := hi
    rw [hi']
    exact ih

/-- Asking an analytic Jacobian does not disturb the model. -/
theorem StepOutcome.pure {r} (hA : Spec.AnalyticJacobian m) (h : StepOutcome c m st s st' s' r) :
    m.getResiduals s' = m.getResiduals s ∧ m.getIteratives s' = m.getIteratives s := by
  have key : ∀ {j r}, computeJac c m st.jac s = .ok (j, s', r) →
      m.getResiduals s' = m.getResiduals s ∧ m.getIteratives s' = m.getIteratives s := by
    intro j r hj
    have hs : s' = (m.getJacobian s).1 := by
      cases computeJac_outcome hj with
      | success s' M inv hM hi =>
        cases hM with
        | analytic v hp hg hM => rw [hg]
        | fd pert hp => rw [hA.provided] at hp; cases hp
      | singular s' M hM hi =>
        cases hM with
        | analytic v hp hg hM => rw [hg]
        | fd pert hp => rw [hA.provided] at hp; cases hp
      | inaccurate s' e hp hg => rw [hg]
      | unusable s' e hp hg => rw [hg]
      | fdUnusable s' e pert hp => rw [hA.provided] at hp; cases hp
    subst hs
    exact ⟨hA.residuals s, hA.iteratives s⟩
  cases h with
  | computed j l s' x hm hj hx => exact key hj
  | computeFailed j l s' e hm hj => exact key hj
  | kept l x hm hc hx => exact ⟨rfl, rfl⟩
  | updated u ds dy cur j l x hm hc h1 h2 h3 hj hx => exact ⟨rfl, rfl⟩
  | updateFailed u ds dy cur j hm hc h1 h2 h3 hj => exact ⟨rfl, rfl⟩
  | invUpdated u ds dy cur j l x hm hc h1 h2 h3 hj hx => exact ⟨rfl, rfl⟩

/-- `finish_update` when the error did not grow. -/
theorem finishUpdate_idle {errors cur x : Vec F n}
    (h : Scalar.lt (amax errors) (amax (evaluateErrors c m s)) = false) :
    finishUpdate c m errors cur x st s = finishUpdate (undamped c) m errors cur x st s := by
  simp only [finishUpdate, bind, Except.bind]
  have e1 : evaluateErrors (undamped c) m s = evaluateErrors c m s := rfl
  rw [e1]
  rcases st.logIf (.iteration st.iter (m.getIteratives s) (m.getResiduals s)
    (evaluateErrors c m s)) with p | st1
  · rfl
  · dsimp only
    have e2 : (undamped c).params.damping = false := rfl
    have e3 : (undamped c).params.method = c.params.method := rfl
    rw [e2, e3]
    cases c.params.damping
    · rfl
    · simp only [if_true, dampingStep, h, Bool.false_eq_true, if_false]

/-- An iteration whose error does not grow is the undamped one; so is a failed one. -/
theorem iterate_idle (hA : Spec.AnalyticJacobian m)
    (h : ∀ st' s' e', iterate (undamped c) m st s = .ok (st', s', .ok e') →
      Scalar.lt (amax (evaluateErrors c m s)) e' = false) :
    iterate c m st s = iterate (undamped c) m st s := by
  simp only [iterate, bind, Except.bind] at h ⊢
  have e1 : computeStep (undamped c) m { st with iter := st.iter + 1 } s =
      computeStep c m { st with iter := st.iter + 1 } s := rfl
  rw [e1] at h ⊢
  rcases hc : computeStep c m { st with iter := st.iter + 1 } s with p | ⟨st1, s1, e | x⟩
  · rfl
  · rfl
  · rw [hc] at h
    dsimp only at h ⊢
    have hp := (computeStep_outcome hc).pure hA
    have herr : evaluateErrors c m s1 = evaluateErrors c m s := by
      simp only [evaluateErrors, hp.1]
    rcases he : m.evaluate (m.setIteratives s1 x) with ⟨s2, rv⟩
    have fin : ∀ v, Usable rv v → updateModel c m x st1 s1 = updateModel (undamped c) m x st1 s1 := by
      intro v hu
      rw [updateModel_usable he hu, updateModel_usable he hu]
      have e3 : evaluateErrors (undamped c) m s1 = evaluateErrors c m s1 := rfl
      rw [e3]
      by_cases hlt : Scalar.lt (amax (evaluateErrors c m s1)) (amax (evaluateErrors c m s2)) = false
      · rw [finishUpdate_idle hlt]
      · have hlt : Scalar.lt (amax (evaluateErrors c m s1)) (amax (evaluateErrors c m s2)) = true := by
          simpa using hlt
        rcases hf : finishUpdate (undamped c) m (evaluateErrors c m s1) (m.getIteratives s1) x
          { st1 with valid := v } s2 with p | ⟨st3, s3, e3⟩
        · simp only [finishUpdate, bind, Except.bind] at hf ⊢
          have e1 : evaluateErrors (undamped c) m s2 = evaluateErrors c m s2 := rfl
          rw [e1] at hf
          rcases hl : ({ st1 with valid := v } : Solver F n).logIf (.iteration st1.iter
            (m.getIteratives s2) (m.getResiduals s2) (evaluateErrors c m s2)) with p' | st4
          · rw [hl] at hf
            cases hf
            rfl
          · rw [hl] at hf
            have e2 : (undamped c).params.damping = false := rfl
            dsimp only at hf
            rw [e2] at hf
            cases hf
        · exfalso
          have hs3 : e3 = evaluateErrors c m s2 := by
            simp only [finishUpdate, bind, Except.bind] at hf
            have e2 : (undamped c).params.damping = false := rfl
            rw [e2] at hf
            split at hf
            · cases hf
            · cases hf; rfl
          have := h st3 s3 (amax e3) (by
            rw [updateModel_usable he hu]
            have e3 : evaluateErrors (undamped c) m s1 = evaluateErrors c m s1 := rfl
            rw [e3, hf]
            rfl)
          rw [hs3, ← herr, hlt] at this
          cases this
    match rv, he, fin with
    | .error (.unusable e), he, _ => rw [updateModel_unusable he, updateModel_unusable he]
    | .ok (), he, fin => rw [fin true .ok]
    | .error (.inaccurate e), he, fin => rw [fin false (.inaccurate e)]

/-- An iteration whose error grows after a Jacobian computation goes to the midpoint. -/
theorem iterate_damped (hA : Spec.AnalyticJacobian m) (hG : Spec.GetSet m)
    (hd : c.params.damping = true)
    (hj : c.params.method = .NewtonRaphson ∨ st.jac.computeNext = true) {e'}
    (h : iterate (undamped c) m st s = .ok (st', s', .ok e'))
    (hlt : Scalar.lt (amax (evaluateErrors c m s)) e' = true) :
    match m.evaluate (m.setIteratives s' (dampedGuess (m.getIteratives s) (m.getIteratives s'))) with
    | (s2, .ok ()) => ∃ st2, iterate c m st s = .ok (st2, s2, .ok (amax (evaluateErrors c m s2)))
    | (_, .error _) => iterate c m st s = .error .dampingEvaluateUnwrap := by
  simp only [iterate, bind, Except.bind] at h ⊢
  have e1 : computeStep (undamped c) m { st with iter := st.iter + 1 } s =
      computeStep c m { st with iter := st.iter + 1 } s := rfl
  rw [e1] at h
  rcases hc : computeStep c m { st with iter := st.iter + 1 } s with p | ⟨st1, s1, e | x⟩
  · rw [hc] at h; cases h
  · rw [hc] at h; cases h
  · rw [hc] at h
    dsimp only at h ⊢
    have ho := computeStep_outcome hc
    have hp := ho.pure hA
    have herr : evaluateErrors c m s1 = evaluateErrors c m s := by
      simp only [evaluateErrors, hp.1]
    have happ : ¬ (c.params.method ≠ .NewtonRaphson ∧ st1.jac.approximated = true) := by
      rintro ⟨h1, h2⟩
      have hj : st.jac.computeNext = true := hj.resolve_left h1
      cases ho with
      | computed j l s' x hm hjc hx =>
        obtain ⟨M, inv, -, -, rfl⟩ := computed_success hjc hx
        cases h2
      | kept l x hm hcn hx => exact absurd (hj.symm.trans hcn) (by simp)
      | updated u ds dy cur j l x hm hcn => exact absurd (hj.symm.trans hcn) (by simp)
      | invUpdated u ds dy cur j l x hm hcn => exact absurd (hj.symm.trans hcn) (by simp)
    rcases he : m.evaluate (m.setIteratives s1 x) with ⟨s2, rv⟩
    have fin : ∀ v, Usable rv v →
        match m.evaluate (m.setIteratives s' (dampedGuess (m.getIteratives s) (m.getIteratives s')))
          with
        | (s2, .ok ()) => ∃ st2, updateModel c m x st1 s1 = .ok (st2, s2, .ok (evaluateErrors c m s2))
        | (_, .error _) => updateModel c m x st1 s1 = .error .dampingEvaluateUnwrap := by
      intro v hu
      rw [updateModel_usable he hu] at h ⊢
      have e3 : evaluateErrors (undamped c) m s1 = evaluateErrors c m s1 := rfl
      have e4 : evaluateErrors (undamped c) m s2 = evaluateErrors c m s2 := rfl
      have e5 : (undamped c).params.damping = false := rfl
      simp only [finishUpdate, bind, Except.bind] at h ⊢
      rw [e3, e4, e5] at h
      rcases hl : ({ st1 with valid := v } : Solver F n).logIf (.iteration st1.iter
        (m.getIteratives s2) (m.getResiduals s2) (evaluateErrors c m s2)) with p' | st4
      · rw [hl] at h; cases h
      · rw [hl] at h
        cases h
        have hg : m.getIteratives s2 = x := by
          have a := hG.get_evaluate (m.setIteratives s1 x)
          rw [he, hG.get_set] at a
          exact a
        rw [← herr] at hlt
        dsimp only
        rw [hd, if_pos rfl]
        obtain ⟨ll, rfl⟩ := logIf_fields hl
        simp only [dampingStep, hlt, if_true, if_neg happ]
        rw [hg, ← hp.2]
        rcases m.evaluate (m.setIteratives s2 (dampedGuess (m.getIteratives s1) x)) with ⟨s5, r5⟩
        match r5 with
        | .error e => rfl
        | .ok () =>
          dsimp only [bind, Except.bind]
          have hlog : ∀ en, ∃ st6, ({ st1 with valid := v, log := ll } : Solver F n).logIf en =
              .ok st6 := by
            intro en
            unfold Solver.logIf
            rcases logIf_ok hl with ⟨h1, -⟩ | ⟨h1, l, -, h3⟩
            · simp only at h1
              simp [h1]
            · simp only at h1
              simp only [Solver.mk.injEq] at h3
              simp [h1, Solver.toLog, h3]
          obtain ⟨st6, h6⟩ := hlog (.damping (m.getIteratives s5) (m.getResiduals s5)
            (evaluateErrors c m s5))
          rw [h6]
          exact ⟨_, rfl⟩
    match rv, he, fin with
    | .error (.unusable e), he, _ => rw [updateModel_unusable he] at h; cases h
    | .ok (), he, fin =>
      have := fin true .ok
      revert this
      rcases m.evaluate (m.setIteratives s' (dampedGuess (m.getIteratives s) (m.getIteratives s')))
        with ⟨s5, r5⟩
      match r5 with
      | .error e => intro h; dsimp only at h ⊢; rw [h]
      | .ok () =>
        rintro ⟨st2, h2⟩
        exact ⟨st2, by rw [h2]; rfl⟩
    | .error (.inaccurate e), he, fin =>
      have := fin false (.inaccurate e)
      revert this
      rcases m.evaluate (m.setIteratives s' (dampedGuess (m.getIteratives s) (m.getIteratives s')))
        with ⟨s5, r5⟩
      match r5 with
      | .error e => intro h; dsimp only at h ⊢; rw [h]
      | .ok () =>
        rintro ⟨st2, h2⟩
        exact ⟨st2, by rw [h2]; rfl⟩

/-- An iteration of an updating method that does not compute the Jacobian and in which
the error grows is not damped, and a Jacobian computation is pending after it. -/
theorem iterate_refused {t1 : List (Call F n EI EU)} {e1 : F} (hd : c.params.damping = true)
    (hm : c.params.method ≠ .NewtonRaphson ∧ c.params.method ≠ .QuasiNewton .StationaryNewton)
    (hcn : st.jac.computeNext = false)
    (h1 : iterate c (recorded m) st (s, []) = .ok (st', (s', t1), .ok e1))
    (hlt : Scalar.lt (amax (evaluateErrors c m s)) (amax (evaluateErrors c m s')) = true) :
    (∃ x r, t1 = [.setIteratives x, .evaluate r]) ∧ st'.jac.computeNext = true := by
  cases iterate_outcome h1 with
  | step sta sa x stb sb e hs hu =>
    have hsa : sa = (s, []) ∧ sta.jac.approximated = true := by
      cases hs with
      | computed j l s' x hm' hj hx =>
        rcases hm' with h | h
        · exact absurd h hm.1
        · exact absurd (h.symm.trans hcn) (by simp)
      | kept l x hm' => exact absurd hm' hm.2
      | updated u ds dy cur j l x hm' hc g1 g2 g3 hj hx =>
        refine ⟨rfl, ?_⟩
        rcases approximateJacobian_ok hj with ⟨-, M, inv, -, rfl⟩ | ⟨h, -⟩
        · rfl
        · cases h
      | invUpdated u ds dy cur j l x hm' hc g1 g2 g3 hj hx =>
        obtain ⟨inv, rfl⟩ := approximateInvJacobian_ok hj
        exact ⟨rfl, rfl⟩
    obtain ⟨rfl, ha⟩ := hsa
    cases hu with
    | plain s1 r v l he hu hd' =>
      rcases hd' with h | h
      · rw [hd] at h; cases h
      · exact absurd (hlt.symm.trans h) (by simp)
    | refused s1 r v l he hu hd hlt hm ha =>
      refine ⟨⟨x, r, (recorded_eval he).2⟩, ?_⟩
      rw [(storeSteps_fields ..).2.2.1]
      rfl
    | damped s1 r v l s2 he hu hd hlt hm' he2 => exact absurd ⟨hm.1, ha⟩ hm'

/-- The points of the loop are reached by solves with smaller budgets. -/
theorem solve_of_run {s0 rv v l e'}
    (he : m.evaluate (m.setIteratives s c.guess) = (s0, rv)) (hu : Usable rv v)
    (hp : ∀ k, solveFrom (withMaxIter c k) m st s0 =
        match loop (withMaxIter c k) m (k - st.iter) { st with log := l } s0
          (amax (evaluateErrors c m s0)) with
        | .error p => .error p
        | .ok (st', s', .ok e) => .ok (st', s', finalResult c st' e)
        | .ok (st', s', .error e) => .ok (st', s', .error e))
    (hr : Run c m { st with log := l } s0 (amax (evaluateErrors c m s0)) st' s' e') :
    solve (withMaxIter c st'.iter) m st s = .ok (st', s', finalResult c st' e') := by
  rw [solve_usable (c := withMaxIter c st'.iter) he hu, hp]
  have := hr.truncate
  dsimp only at this
  rw [this]

/-- A solve in which the error never grows is the same with and without damping. -/
theorem solve_idle (hA : Spec.AnalyticJacobian m)
    (h : ∀ k st1 s1 st2 s2 r,
      solve (withMaxIter (undamped c) k) m st s = .ok (st1, s1, .error .nonConvergence) →
      solve (withMaxIter (undamped c) (k + 1)) m st s = .ok (st2, s2, r) →
      r = .ok () ∨ r = .error .nonConvergence ∨ r = .error .finalEvaluation →
      Scalar.lt (amax (evaluateErrors c m s1)) (amax (evaluateErrors c m s2)) = false) :
    solve c m st s = solve (undamped c) m st s := by
  have main : ∀ s0 rv v, m.evaluate (m.setIteratives s c.guess) = (s0, rv) → Usable rv v →
      solveFrom c m st s0 = solveFrom (undamped c) m st s0 := by
    intro s0 rv v he hu
    obtain ⟨p, hp⟩ := solveFrom_eq' c m st s0
    rw [hp c rfl, hp (undamped c) rfl]
    match p, hp with
    | .error p, _ => rfl
    | .ok l, hp =>
      dsimp only
      have hpu : ∀ k, solveFrom (withMaxIter (undamped c) k) m st s0 =
        match loop (withMaxIter (undamped c) k) m (k - st.iter) { st with log := l } s0
          (amax (evaluateErrors (undamped c) m s0)) with
        | .error p => .error p
        | .ok (st', s', .ok e) => .ok (st', s', finalResult (undamped c) st' e)
        | .ok (st', s', .error e) => .ok (st', s', .error e) :=
        fun k => hp (withMaxIter (undamped c) k) rfl
      have key : ∀ fuel st1 s1 e1,
          Run (undamped c) m { st with log := l } s0 (amax (evaluateErrors (undamped c) m s0))
            st1 s1 e1 → loop c m fuel st1 s1 e1 = loop (undamped c) m fuel st1 s1 e1 := by
        intro fuel
        induction fuel with
        | zero => intro st1 s1 e1 _; rfl
        | succ fuel ih =>
          intro st1 s1 e1 hr
          rw [loop.eq_2, loop.eq_2]
          have hcc : continues (undamped c) st1 e1 = continues c st1 e1 := rfl
          rw [hcc]
          by_cases hc : continues c st1 e1 = true
          · rw [if_pos hc, if_pos hc]
            have hi : iterate c m st1 s1 = iterate (undamped c) m st1 s1 := by
              refine iterate_idle hA fun st2 s2 e2 hi => ?_
              have hr2 := hr.snoc (hcc.trans hc) hi
              have h1 := solve_of_run (c := undamped c) he hu hpu hr
              have h2 := solve_of_run (c := undamped c) he hu hpu hr2
              have hn : finalResult (EI := EI) (EU := EU) (undamped c) st1 e1 =
                  .error .nonConvergence := by
                simp only [continues, Bool.and_eq_true] at hc
                exact if_pos hc.1
              rw [hn] at h1
              rw [iterate_iter hi] at h2
              have := h _ _ _ _ _ _ h1 h2 ?_
              · rw [hr2.error_eq rfl]
                exact this
              · unfold finalResult
                split
                · exact .inr (.inl rfl)
                · split
                  · exact .inl rfl
                  · exact .inr (.inr rfl)
            rw [hi]
            rcases hit : iterate (undamped c) m st1 s1 with p | ⟨st2, s2, e2 | e2⟩
            · rfl
            · rfl
            · exact ih _ _ _ (hr.snoc (hcc.trans hc) hit)
          · rw [if_neg hc, if_neg hc]
      have hk := key (c.params.maxIter - st.iter) _ _ _ (.done _ _ _)
      rw [show evaluateErrors (undamped c) m s0 = evaluateErrors c m s0 from rfl] at hk
      rw [hk]
      rfl
  rcases he : m.evaluate (m.setIteratives s c.guess) with ⟨s1, rv⟩
  match rv, he with
  | .error (.unusable e), he =>
    rw [solve_unusable he, solve_unusable (c := undamped c) he]
  | .ok (), he =>
    rw [solve_usable he .ok, solve_usable (c := undamped c) he .ok, main _ _ _ he .ok]
  | .error (.inaccurate e), he =>
    rw [solve_usable he (.inaccurate e), solve_usable (c := undamped c) he (.inaccurate e),
      main _ _ _ he (.inaccurate e)]

end
end Nrf
