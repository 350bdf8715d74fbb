import Verif.Proofs.Calls

/-!
# Exact counts of Jacobian computations
-/

set_option linter.unusedSectionVars false

namespace Nrf

section
variable {F : Type} [Scalar F] {n : Nat} {EI EU S : Type}
variable {c : Config F n} {m : UserModel F n EI EU S}
variable {st st' : Solver F n} {s s' : S} {t t' : List (Call F n EI EU)}

/-- 1 when the iteration computes the Jacobian from the model, 0 otherwise. -/
def computes (c : Config F n) (st : Solver F n) : Nat :=
  if c.params.method = .NewtonRaphson ∨ st.jac.computeNext = true then 1 else 0

/-- Stationary Newton with any damping, or no damping at all. -/
def Economic (c : Config F n) (st : Solver F n) : Prop :=
  c.params.damping = false ∨
    (c.params.method = .QuasiNewton .StationaryNewton ∧ st.jac.approximated = false)

theorem StepOutcome.approximated {r} (h : StepOutcome c m st s st' s' r)
    (hm : c.params.method = .QuasiNewton .StationaryNewton) (ha : st.jac.approximated = false) :
    st'.jac.approximated = false := by
  cases h with
  | computed j l s' x hm' hj hx =>
    obtain ⟨M, inv, -, -, rfl⟩ := computed_success hj hx
    rfl
  | computeFailed j l s' e hm' hj => cases computeJac_outcome hj <;> first | rfl | exact ha
  | kept l x hm' hc hx => exact ha
  | updated u ds dy cur j l x hm' => rw [hm] at hm'; cases hm'
  | updateFailed u ds dy cur j hm' => rw [hm] at hm'; cases hm'
  | invUpdated u ds dy cur j l x hm' => rw [hm] at hm'; cases hm'

theorem UpdateOutcome.jac_eq {x r} (h : UpdateOutcome c m x st s st' s' r) (he : Economic c st) :
    st'.jac = st.jac := by
  cases h with
  | unusable s1 e he => rfl
  | plain s1 r v l he hu hd => simp [(storeSteps_fields ..).2.2.1]
  | refused s1 r v l he' hu hd hlt hm ha =>
    rcases he with he | ⟨-, he⟩
    · rw [he] at hd; cases hd
    · rw [he] at ha; cases ha
  | damped s1 r v l s2 he hu hd hlt hm he2 => simp [(storeSteps_fields ..).2.2.1]

theorem Economic.step {st1 : Solver F n} {s1 r} (he : Economic c st)
    (h : StepOutcome c m { st with iter := st.iter + 1 } s st1 s1 r) : Economic c st1 := by
  rcases he with he | ⟨hm, ha⟩
  · exact .inl he
  · exact .inr ⟨hm, h.approximated hm ha⟩

/-- After a completed iteration no Jacobian computation is pending. -/
theorem iterate_ok_pending {e} (he : Economic c st)
    (h : iterate c m st s = .ok (st', s', .ok e)) :
    st'.jac.computeNext = false ∧ Economic c st' := by
  cases iterate_outcome h with
  | step st1 s1 x st2 s2 e h1 h2 =>
    have e1 := he.step h1
    have e2 := h2.jac_eq e1
    rw [e2]
    refine ⟨h1.flags.1, ?_⟩
    rcases e1 with e1 | ⟨e1, e3⟩
    · exact .inl e1
    · exact .inr ⟨e1, by rw [e2]; exact e3⟩

theorem iterate_economic {r} (he : Economic c st)
    (h : iterate c m st s = .ok (st', s', r)) : Economic c st' := by
  cases iterate_outcome h with
  | step st1 s1 x st2 s2 e h1 h2 => exact (iterate_ok_pending he h).2
  | evalFailed st1 s1 x st2 s2 e h1 h2 =>
    have e1 := he.step h1
    have e2 := h2.jac_eq e1
    rcases e1 with e1 | ⟨e1, e3⟩
    · exact .inl e1
    · exact .inr ⟨e1, by rw [e2]; exact e3⟩
  | jacFailed st1 s1 e h1 => exact he.step h1

theorem StepCalls.exact {seg r} (h : StepCalls c m st s seg r) :
    (m.jacobianProvided s = true →
      countGetJacobian seg = computes c st ∧ countEvaluate seg = 0) ∧
    (∀ x, m.jacobianProvided s = false → r = .ok x →
      countEvaluate seg = computes c st * m.lenProblem s) := by
  cases h with
  | computed seg rj r hm h hr =>
    simp only [computes, if_pos hm]
    cases h with
    | analytic r' rj' hp => simp [countGetJacobian, countEvaluate, hp]
    | fd seg' rj' hp h hr => simp [hp, h.counts.1]
    | fdFailed k seg y e hp hk h =>
      refine ⟨fun h => (by rw [h] at hp; cases hp), fun x _ hx => ?_⟩
      rcases hr with ⟨h, -⟩ | ⟨e', -, h⟩
      · cases h
      · rw [hx] at h; cases h
  | none r hm hc =>
    have : ¬ (c.params.method = .NewtonRaphson ∨ st.jac.computeNext = true) := by
      rintro (h | h)
      · exact hm h
      · rw [hc] at h; cases h
    simp [computes, if_neg this, countGetJacobian, countEvaluate]

/-- Exact counts of one iteration. -/
theorem IterCalls.exact {v seg r} (h : IterCalls c m st s s' v seg r) :
    (m.jacobianProvided s = true → countGetJacobian seg = computes c st) ∧
    (∀ e, m.jacobianProvided s = false → c.params.damping = false → r = .ok e →
      countEvaluate seg = computes c st * m.lenProblem s + 1) := by
  cases h with
  | step jc uc s1 x s' v e h1 h2 =>
    have a := h1.exact
    have b := h2.counts
    rw [countGetJacobian_append, countEvaluate_append]
    refine ⟨fun hp => by rw [(a.1 hp).1, b.2]; rfl, fun e' hp hd _ => ?_⟩
    rw [a.2 x hp rfl]
    cases h2 with
    | plain r he hu e => simp [countEvaluate]
    | damped s1 r he hu hd' he2 e => rw [hd] at hd'; cases hd'
  | evalFailed jc uc s1 x s' v e h1 h2 =>
    have a := h1.exact
    have b := h2.counts
    rw [countGetJacobian_append]
    exact ⟨fun hp => by rw [(a.1 hp).1, b.2]; rfl, fun e' hp hd h => by cases h⟩
  | jacFailed jc s' v e h1 =>
    exact ⟨fun hp => (h1.exact.1 hp).1, fun e' hp hd h => by cases h⟩

/-- The invariant of the count: `J` Jacobians of an analytic model (or `J` sets of
finite differences) after the iterations made so far. -/
structure Counted (c : Config F n) (st0 st : Solver F n) (J g ev : Nat) (p : Bool) (N : Nat) : Prop where
  le : st0.iter ≤ st.iter
  get : p = true → g = J
  eval : p = false → c.params.damping = false → ev = 1 + (st.iter - st0.iter) + J * N

/-- Jacobians computed in `k` iterations. -/
def jacCount (c : Config F n) (st0 : Solver F n) (k : Nat) : Nat :=
  if c.params.method = .NewtonRaphson then k
  else if st0.jac.computeNext = true then min 1 k else 0

/-- What a (recorded) solve costs. -/
theorem solve_cost {r} {calls : List (Call F n EI EU)} {p N}
    (hp : ∀ s, m.jacobianProvided s = p) (hN : p = false → ∀ s, m.lenProblem s = N)
    (hm : c.params.method = .NewtonRaphson ∨ Economic c st)
    (h : solve c (recorded m) st (s, []) = .ok (st', (s', calls), r)) :
    (p = true → countGetJacobian calls = jacCount c st (st'.iter - st.iter)) ∧
    (p = false → c.params.damping = false → (∀ e, r ≠ .error (.jacobian e)) →
      (∀ e, r ≠ .error (.modelEvaluation e)) →
      countEvaluate calls = 1 + (st'.iter - st.iter) + jacCount c st (st'.iter - st.iter) * N) ∧
    (Economic c st → Economic c st') ∧
    (Economic c st → st.jac.computeNext = false → c.params.method ≠ .NewtonRaphson →
      st'.jac.computeNext = false) := by
  -- the invariant of the loop
  let P : Solver F n → S × List (Call F n EI EU) → F → Prop := fun st1 s1 _ =>
    Counted c st st1 (jacCount c st (st1.iter - st.iter)) (countGetJacobian s1.2)
      (countEvaluate s1.2) p N ∧ (Economic c st → Economic c st1) ∧
      (Economic c st → st1.jac.computeNext =
        (st.jac.computeNext && decide (st1.iter = st.iter)) ∨ c.params.method = .NewtonRaphson)
  have key : ∀ {st1 s1 e}, P st1 s1 e → jacCount c st (st1.iter + 1 - st.iter) =
      jacCount c st (st1.iter - st.iter) + computes c st1 := by
    rintro st1 s1 e ⟨h1, h2, h3⟩
    have := h1.le
    have e1 : st1.iter + 1 - st.iter = (st1.iter - st.iter) + 1 := by omega
    rw [e1]
    unfold jacCount computes
    by_cases hNR : c.params.method = .NewtonRaphson
    · simp [hNR]
    · simp only [hNR, if_false, false_or]
      have he : Economic c st := hm.resolve_left hNR
      rcases h3 he with h3 | h3
      · rw [h3]
        cases st.jac.computeNext
        · simp
        · by_cases hk : st1.iter = st.iter
          · simp [hk]
          · have : 1 ≤ st1.iter - st.iter := by omega
            simp [hk, this]
      · exact absurd h3 hNR
  have step : ∀ st1 s1 e st2 s2 e2, P st1 s1 e → continues c st1 e = true →
      iterate c (recorded m) st1 s1 = .ok (st2, s2, .ok e2) → P st2 s2 e2 := by
    rintro st1 ⟨s1, t1⟩ e st2 ⟨s2, t2⟩ e2 hP _ hi
    have hk := key (e := e) hP
    obtain ⟨h1, h2, h3⟩ := hP
    have hit := iterate_iter hi
    obtain ⟨seg, rfl, hc⟩ := iterate_calls hi
    have hx := hc.exact
    have hle := h1.le
    refine ⟨⟨by omega, ?_, ?_⟩, fun he => iterate_economic (h2 he) hi, fun he => .inl ?_⟩
    · intro hpt
      rw [countGetJacobian_append, h1.get hpt, hx.1 (by rw [hp, hpt]), hit, hk]
      rfl
    · intro hpf hd
      rw [countEvaluate_append, h1.eval hpf hd, hx.2 e2 (by rw [hp, hpf]) hd rfl, hit, hk, hN hpf,
        Nat.add_mul]
      have : computes c { st1 with iter := st1.iter + 1 } = computes c st1 := rfl
      rw [this]
      omega
    · rw [(iterate_ok_pending (h2 he) hi).1]
      have : ¬ st2.iter = st.iter := by omega
      simp [this]
  have start : ∀ {s0 : S × List (Call F n EI EU)} {r0 l},
      (recorded m).evaluate ((recorded m).setIteratives (s, []) c.guess) = (s0, r0) →
      P { st with log := l } s0 (amax (evaluateErrors c (recorded m) s0)) := by
    intro s0 r0 l he
    obtain ⟨rfl, -⟩ := solve_start he
    refine ⟨⟨Nat.le_refl _, ?_, ?_⟩, fun h => h, fun _ => .inl (by simp)⟩ <;>
      simp [jacCount, countGetJacobian, countEvaluate]
  have fin := fun (hP : P st' (s', calls) c.params.tolerance) =>
    show ((p = true → countGetJacobian calls = jacCount c st (st'.iter - st.iter)) ∧
      (p = false → c.params.damping = false → (∀ e, r ≠ .error (.jacobian e)) →
        (∀ e, r ≠ .error (.modelEvaluation e)) →
        countEvaluate calls = 1 + (st'.iter - st.iter) + jacCount c st (st'.iter - st.iter) * N) ∧
      (Economic c st → Economic c st') ∧
      (Economic c st → st.jac.computeNext = false → c.params.method ≠ .NewtonRaphson →
        st'.jac.computeNext = false)) from
    ⟨hP.1.get, fun a b _ _ => hP.1.eval a b, hP.2.1, fun he hc hn => by
      rcases hP.2.2 he with h | h
      · simpa [hc] using h
      · exact absurd h hn⟩
  cases solve_outcome h with
  | initFailed he => exact fin (start (l := st.log) he)
  | finished he hu hl =>
    cases hl with
    | exit hrun hc => exact fin (hrun.invariant (P := P) step (start he))
  | failed he hu hl =>
    cases hl with
    | @failed st1 s1 e1 _ _ err hrun hc hi =>
      have hP := hrun.invariant (P := P) step (start he)
      have hk := key (e := e1) hP
      obtain ⟨s1, t1⟩ := s1
      obtain ⟨h1, h2, h3⟩ := hP
      have hit := iterate_iter hi
      obtain ⟨seg, ht, hic⟩ := iterate_calls hi
      refine ⟨fun hpt => ?_, fun _ _ hj hv => ?_, fun he => iterate_economic (h2 he) hi,
        fun he hcn hnr => ?_⟩
      · rw [ht, countGetJacobian_append, h1.get hpt, hic.exact.1 (by rw [hp, hpt]), hit, hk]
        rfl
      · exfalso
        cases iterate_outcome hi with
        | evalFailed st3 s3 x st2 s2 e h1 h2 => cases h2; exact hv _ rfl
        | jacFailed st3 s3 e h1 => exact hj _ rfl
      · have hcn1 : st1.jac.computeNext = false := by
          rcases h3 he with h | h
          · simpa [hcn] using h
          · exact absurd h hnr
        have he1 := h2 he
        cases iterate_outcome hi with
        | evalFailed st3 s3 x st2 s2 e h1 h2 =>
          rw [h2.jac_eq (he1.step h1)]
          exact h1.flags.1
        | jacFailed st3 s3 e h1 =>
          cases h1 with
          | computeFailed j l s' e hm' hj =>
            rcases hm' with hm' | hm'
            · exact absurd hm' hnr
            · exact absurd (hcn1.symm.trans hm') (by simp)
          | updateFailed u ds dy cur j hm' hc' a b d hj =>
            rcases approximateJacobian_ok hj with ⟨h, -⟩ | ⟨-, rfl⟩
            · cases h
            · exact hcn1

/-- Stationary Newton has a Jacobian and keeps it. -/
def StationaryKept (st : Solver F n) : Prop :=
  st.jac.computeNext = false ∧ st.jac.approximated = false

theorem stationary_iterate (hm : c.params.method = .QuasiNewton .StationaryNewton) {r}
    (hQ : StationaryKept st) (hi : iterate c m st s = .ok (st', s', r)) : StationaryKept st' := by
  have hnr : c.params.method ≠ .NewtonRaphson := by rw [hm]; intro h; cases h
  have eco : ∀ {st : Solver F n}, StationaryKept st → Economic c st := fun h => .inr ⟨hm, h.2⟩
  have stp : ∀ {a sa ra}, StepOutcome c m { st with iter := st.iter + 1 } s a sa ra →
      StationaryKept a := by
    intro a sa ra h
    refine ⟨?_, h.approximated hm hQ.2⟩
    cases h with
    | computed j l s' x hm' hj hx =>
      rcases hm' with h | h
      · exact absurd h hnr
      · exact absurd (hQ.1.symm.trans h) (by simp)
    | computeFailed j l s' e hm' hj =>
      rcases hm' with h | h
      · exact absurd h hnr
      · exact absurd (hQ.1.symm.trans h) (by simp)
    | kept l x hm' hc hx => exact hQ.1
    | updated u ds dy cur j l x hm' => rw [hm] at hm'; cases hm'
    | updateFailed u ds dy cur j hm' => rw [hm] at hm'; cases hm'
    | invUpdated u ds dy cur j l x hm' => rw [hm] at hm'; cases hm'
  cases iterate_outcome hi with
  | step st3 s3 x _ _ e h1 h2 =>
    have := h2.jac_eq (eco (stp h1)); unfold StationaryKept; rw [this]; exact stp h1
  | evalFailed st3 s3 x _ _ e h1 h2 =>
    have := h2.jac_eq (eco (stp h1)); unfold StationaryKept; rw [this]; exact stp h1
  | jacFailed st3 s3 e h1 => exact stp h1

theorem stationary_solve (hm : c.params.method = .QuasiNewton .StationaryNewton) {r}
    (hQ : StationaryKept st) (hs : solve c m st s = .ok (st', s', r)) : StationaryKept st' := by
  have inv : ∀ st1 s1 (e : F) st2 s2 (e2 : F), StationaryKept st1 → continues c st1 e = true →
      iterate c m st1 s1 = .ok (st2, s2, .ok e2) → StationaryKept st2 :=
    fun _ _ _ _ _ _ h _ hi => stationary_iterate hm h hi
  cases solve_outcome hs with
  | initFailed he => exact hQ
  | finished he hu hl =>
    cases hl with
    | exit hrun hc => exact hrun.invariant (P := fun st _ _ => StationaryKept st) inv hQ
  | failed he hu hl =>
    cases hl with
    | failed hrun hc hi =>
      exact stationary_iterate hm (hrun.invariant (P := fun st _ _ => StationaryKept st) inv hQ) hi

end
end Nrf
