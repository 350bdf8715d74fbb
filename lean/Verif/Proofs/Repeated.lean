import Verif.Proofs.Calls
import Verif.Proofs.Keeps
import Verif.Spec.Repeated

/-!
# Solves one after another on the same solver
-/

namespace Nrf

section
variable {F : Type} [Scalar F] {n : Nat} {EI EU S : Type}
variable {c : Config F n} {m : UserModel F n EI EU S}
variable {st st' : Solver F n} {s s' : S}

/-- The work of one solve in terms of the iterations it made. -/
theorem solve_work {calls : List (Call F n EI EU)} {r : Except (SolverError EI EU) Unit} {N : Nat}
    (hN : ∀ s, m.jacobianProvided s = false → m.lenProblem s ≤ N)
    (h : solve c (recorded m) st (s, []) = .ok (st', (s', calls), r)) :
    st.iter ≤ st'.iter ∧ st'.iter - st.iter ≤ c.params.maxIter - st.iter ∧
    countEvaluate calls ≤ 1 + (st'.iter - st.iter) * (N + 1 + if c.params.damping then 1 else 0) ∧
    countGetJacobian calls ≤ st'.iter - st.iter := by
  set W := N + 1 + if c.params.damping then 1 else 0 with hW
  -- what holds after `st1.iter - st.iter` iterations
  let P : Solver F n → S × List (Call F n EI EU) → F → Prop := fun st1 s1 _ =>
    st.iter ≤ st1.iter ∧ countEvaluate s1.2 ≤ 1 + (st1.iter - st.iter) * W ∧
    countGetJacobian s1.2 ≤ st1.iter - st.iter
  have step : ∀ st1 s1 st2 s2 r, st.iter ≤ st1.iter ∧
      countEvaluate s1.2 ≤ 1 + (st1.iter - st.iter) * W ∧
      countGetJacobian s1.2 ≤ st1.iter - st.iter →
      iterate c (recorded m) st1 s1 = .ok (st2, s2, r) →
      st.iter ≤ st2.iter ∧ countEvaluate s2.2 ≤ 1 + (st2.iter - st.iter) * W ∧
      countGetJacobian s2.2 ≤ st2.iter - st.iter := by
    rintro st1 ⟨s1, t1⟩ st2 ⟨s2, t2⟩ r ⟨h1, h2, h3⟩ hi
    have hit := iterate_iter hi
    obtain ⟨seg, rfl, hc⟩ := iterate_calls hi
    have := hc.counts hN
    have e : st2.iter - st.iter = (st1.iter - st.iter) + 1 := by omega
    dsimp only at h2 h3 ⊢
    rw [countEvaluate_append, countGetJacobian_append, e, Nat.add_mul]
    omega
  have h0 : ∀ {s0 : S × List (Call F n EI EU)} {r0 l},
      (recorded m).evaluate ((recorded m).setIteratives (s, []) c.guess) = (s0, r0) →
      P { st with log := l } s0 (amax (evaluateErrors c (recorded m) s0)) := by
    intro s0 r0 l he
    obtain ⟨rfl, -⟩ := solve_start he
    simp [P, countEvaluate, countGetJacobian]
  have fin : ∀ (st1 : Solver F n) (s1 : S × List (Call F n EI EU)),
      st1.iter - st.iter ≤ c.params.maxIter - st.iter → st.iter ≤ st1.iter ∧
      countEvaluate s1.2 ≤ 1 + (st1.iter - st.iter) * W ∧
      countGetJacobian s1.2 ≤ st1.iter - st.iter →
      st.iter ≤ st1.iter ∧ st1.iter - st.iter ≤ c.params.maxIter - st.iter ∧
      countEvaluate s1.2 ≤ 1 + (st1.iter - st.iter) * W ∧
      countGetJacobian s1.2 ≤ st1.iter - st.iter :=
    fun st1 s1 h1 ⟨h2, h3, h4⟩ => ⟨h2, h1, h3, h4⟩
  have bound : ∀ {l s0 e st1 s1 e1}, Run c (recorded m) { st with log := l } s0 e st1 s1 e1 →
      st1.iter - st.iter ≤ c.params.maxIter - st.iter := by
    intro l s0 e st1 s1 e1 hr
    by_cases hle : st.iter ≤ c.params.maxIter
    · have := hr.iter_le_max hle; omega
    · cases hr with
      | done => simp
      | pass hc hi _ => simp [continues] at hc; omega
  cases solve_outcome h with
  | initFailed he =>
    have := h0 (l := st.log) he
    exact fin st (s', calls) (by omega) this
  | finished he hu hl =>
    cases hl with
    | exit hrun hc =>
      refine fin _ (s', calls) (bound hrun) (hrun.invariant (P := P) ?_ (h0 he))
      intro st1 s1 e st2 s2 e2 hP _ hi
      exact step _ _ _ _ _ hP hi
  | failed he hu hl =>
    cases hl with
    | failed hrun hc hi =>
      have hP := hrun.invariant (P := P) (fun st1 s1 e st2 s2 e2 hP _ hi => step _ _ _ _ _ hP hi) (h0 he)
      refine fin _ (s', calls) ?_ (step _ _ _ _ _ hP hi)
      have := iterate_iter hi
      simp [continues] at hc
      omega

/-- A pass does not switch debugging on or off. -/
theorem iterate_debug {r} (h : iterate c m st s = .ok (st', s', r)) : st'.debug = st.debug := by
  have upd : ∀ {x : Vec F n} {st s st' s' r}, UpdateOutcome c m x st s st' s' r → st'.debug = st.debug := by
    intro x st s st' s' r hu
    cases hu <;> simp [(storeSteps_fields ..).2.2.2.2]
  have stp : ∀ {st s st' s' r}, StepOutcome c m st s st' s' r → st'.debug = st.debug := by
    intro st s st' s' r hu
    cases hu <;> rfl
  cases iterate_outcome h with
  | step st1 s1 x st2 s2 e h1 h2 => rw [upd h2, stp h1]
  | evalFailed st1 s1 x st2 s2 e h1 h2 => rw [upd h2, stp h1]
  | jacFailed st1 s1 e h1 => rw [stp h1]

/-- Neither does a solve. -/
theorem solve_debug {r} (h : solve c m st s = .ok (st', s', r)) : st'.debug = st.debug := by
  have run : ∀ {st s e st' s' e'}, Run c m st s e st' s' e' → st'.debug = st.debug := by
    intro st s e st' s' e' hr
    refine hr.invariant (P := fun st1 _ _ => st1.debug = st.debug) ?_ rfl
    intro st1 s1 e1 st2 s2 e2 h _ hi
    rw [iterate_debug hi, h]
  cases solve_outcome h with
  | initFailed he => rfl
  | finished he hu hl => cases hl with | exit hr hc => exact (run hr).trans rfl
  | failed he hu hl => cases hl with | failed hr hc hi => exact ((iterate_debug hi).trans (run hr)).trans rfl

/-- A pass on a model whose evaluations all succeed leaves the accuracy flag set. -/
theorem iterate_valid (hev : ∀ s, (m.evaluate s).2 = .ok ()) {e} (h : iterate c m st s = .ok (st', s', .ok e)) :
    st'.valid = true := by
  have use : ∀ {s0 s1 : S} {r v}, m.evaluate s0 = (s1, r) → Usable r v → v = true := by
    intro s0 s1 r v he hu
    have := hev s0
    rw [he] at this
    cases hu
    · rfl
    · cases this
  cases iterate_outcome h with
  | step st1 s1 x st2 s2 e h1 h2 =>
    cases h2 with
    | plain s1 r v l he hu hd => rw [(storeSteps_fields ..).2.2.2.1]; exact use he hu
    | refused s1 r v l he hu hd hlt hm ha => rw [(storeSteps_fields ..).2.2.2.1]; exact use he hu
    | damped s1 r v l s2 he hu hd hlt hm he2 => rw [(storeSteps_fields ..).2.2.2.1]; exact use he hu

/-- A solve from a guess that is no solution makes an iteration, if the budget allows one. -/
theorem solve_moves {inv : S → Prop} (hg : Spec.GuessUnsolved c m inv) (hs : inv s) {r}
    (h : solve c m st s = .ok (st', s', r)) (hb : st.iter < c.params.maxIter) : st.iter < st'.iter := by
  obtain ⟨hu, he⟩ := hg s hs
  have start : ∀ {s0 : S} {r0}, m.evaluate (m.setIteratives s c.guess) = (s0, r0) → ∀ l,
      continues c { st with log := l } (amax (evaluateErrors c m s0)) = true := by
    intro s0 r0 h0 l
    rw [h0] at he
    simp only [continues, he, Bool.true_and, decide_eq_true_eq]
    exact hb
  cases solve_outcome h with
  | initFailed h0 => exact absurd (congrArg Prod.snd h0) (hu _)
  | finished h0 hv hl =>
    cases hl with
    | exit hr hc =>
      cases hr with
      | done => rw [start h0] at hc; cases hc
      | pass _ hi hr' => have := iterate_iter hi; have := hr'.iter_le; dsimp only at *; omega
  | failed h0 hv hl =>
    cases hl with
    | failed hr hc hi => have := iterate_iter hi; have := hr.iter_le; dsimp only at *; omega

/-- What a sequence of solves leaves. -/
theorem again_drained {inv : S → Prop} (hk : Spec.Keeps m inv) (hg : Spec.GuessUnsolved c m inv) :
    ∀ (k : Nat) {st st' : Solver F n} {s s' : S} {l}, inv s → Spec.again c m k st s = .ok (st', s', l) →
      min c.params.maxIter (st.iter + k) ≤ st'.iter ∧ inv s' ∧ st'.debug = st.debug := by
  intro k
  induction k with
  | zero =>
    intro st st' s s' l hs h
    cases h
    exact ⟨by omega, hs, rfl⟩
  | succ k ih =>
    intro st st' s s' l hs h
    rw [Spec.again] at h
    split at h
    · cases h
    · rename_i st1 s1 r h1
      rcases h2 : Spec.again c m k st1 s1 with p | ⟨a, b, d⟩
      · rw [h2] at h; cases h
      · rw [h2] at h
        cases h
        obtain ⟨i1, i2, i3⟩ := ih (solve_keeps hk hs h1) h2
        refine ⟨?_, i2, i3.trans (solve_debug h1)⟩
        have mono : st.iter ≤ st1.iter := by
          cases solve_outcome h1 with
          | initFailed _ => exact le_refl _
          | finished _ _ hl => cases hl with | exit hr _ => exact hr.iter_le
          | failed _ _ hl =>
            cases hl with
            | failed hr _ hi => have := iterate_iter hi; have := hr.iter_le; dsimp only at *; omega
        dsimp only
        by_cases hb : st.iter < c.params.maxIter
        · have := solve_moves hg hs h1 hb
          omega
        · omega

end
end Nrf
