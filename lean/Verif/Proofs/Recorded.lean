import Verif.Spec.Recorded
import Verif.Proofs.Hom
import Verif.Proofs.Loop

/-!
# The calls made by a solve
-/

set_option linter.unusedSectionVars false

namespace Nrf

section
variable {F : Type} {n : Nat} {EI EU S : Type}

/-- Recording changes nothing else. -/
theorem recorded_hom (m : UserModel F n EI EU S) : Hom (recorded m) m Prod.fst :=
  { lenProblem := fun _ => rfl, setIteratives := fun _ _ => rfl, getIteratives := fun _ => rfl,
    evaluate := fun _ => rfl, getResiduals := fun _ => rfl, jacobianProvided := fun _ => rfl,
    getJacobian := fun _ => rfl, getMemory := fun _ => rfl, setMemory := fun _ _ => rfl,
    displayUnusable := fun _ => rfl }

theorem countEvaluate_append (a b : List (Call F n EI EU)) :
    countEvaluate (a ++ b) = countEvaluate a + countEvaluate b := by
  induction a with
  | nil => simp [countEvaluate]
  | cons e a ih =>
    cases e <;> simp [countEvaluate, ih]
    omega

theorem countGetJacobian_append (a b : List (Call F n EI EU)) :
    countGetJacobian (a ++ b) = countGetJacobian a + countGetJacobian b := by
  induction a with
  | nil => simp [countGetJacobian]
  | cons e a ih =>
    cases e <;> simp [countGetJacobian, ih]
    omega

/-- The calls of `k` completed finite-difference columns. -/
inductive FdCalls (mem : List F) : Nat → List (Call F n EI EU) → Prop where
  | nil : FdCalls mem 0 []
  | cons {k t} (x : Vec F n) (r : Except (ModelError EI EU) Unit) (v : Bool) (hu : Usable r v)
      (h : FdCalls mem k t) :
      FdCalls mem (k + 1) (.setIteratives x :: .evaluate r :: .setMemory mem :: t)

theorem FdCalls.counts {mem : List F} {k} {t : List (Call F n EI EU)} (h : FdCalls mem k t) :
    countEvaluate t = k ∧ countGetJacobian t = 0 := by
  induction h with
  | nil => exact ⟨rfl, rfl⟩
  | cons x r v hu h ih => simp [countEvaluate, countGetJacobian, ih.1, ih.2]

variable [Scalar F] {c : Config F n} {m : UserModel F n EI EU S}
variable {st st' : Solver F n} {s s' : S} {t t' : List (Call F n EI EU)}

theorem fdLoop_recorded (pert : Vec F n) (mem : List F) (x r : Vec F n) :
    ∀ (k i : Nat) (J : Mat F n) (s : S) (t : List (Call F n EI EU)) {s' t' v},
      fdLoop c.res (recorded m) pert mem x r k i J (s, t) = .ok ((s', t'), v) →
      (∃ seg, t' = t ++ seg ∧ FdCalls mem k seg ∧ (∃ J', v = .ok J')) ∨
      (∃ k' seg y e, k' < k ∧ FdCalls mem k' seg ∧ v = .error (.unusable e) ∧
        t' = t ++ (seg ++ [.setIteratives y, .evaluate (.error (.unusable e))])) := by
  intro k
  induction k with
  | zero =>
    intro i J s t s' t' v h
    cases h
    exact .inl ⟨[], by simp, .nil, _, rfl⟩
  | succ k ih =>
    intro i J s t s' t' v h
    unfold fdLoop at h
    by_cases hi : i < n
    · simp only [hi, dite_true, recorded] at h
      rcases hev : m.evaluate (m.setIteratives s _) with ⟨s1, rv⟩
      rw [hev] at h
      match rv with
      | .error (.unusable e) =>
        cases h
        exact .inr ⟨0, [], _, e, by omega, .nil, rfl, by rw [List.append_assoc]; rfl⟩
      | .error (.inaccurate e) =>
        rcases ih _ _ _ _ h with ⟨seg, rfl, hf, hv⟩ | ⟨k', seg, y, e', hk, hf, hv, rfl⟩
        · exact .inl ⟨_, by simp only [List.append_assoc]; rfl, .cons _ _ false (.inaccurate e) hf, hv⟩
        · exact .inr ⟨k' + 1, _, y, e', by omega, .cons _ _ false (.inaccurate e) hf, hv,
            by simp only [List.append_assoc]; rfl⟩
      | .ok () =>
        rcases ih _ _ _ _ h with ⟨seg, rfl, hf, hv⟩ | ⟨k', seg, y, e', hk, hf, hv, rfl⟩
        · exact .inl ⟨_, by simp only [List.append_assoc]; rfl, .cons _ _ true .ok hf, hv⟩
        · exact .inr ⟨k' + 1, _, y, e', by omega, .cons _ _ true .ok hf, hv,
            by simp only [List.append_assoc]; rfl⟩
    · simp [hi] at h

/-- The calls made while computing a Jacobian from the model state `s`. -/
inductive JacCalls (m : UserModel F n EI EU S) (s : S) :
    List (Call F n EI EU) → Except (SolverInternalError EI EU) Unit → Prop where
  | analytic (r rj) (hp : m.jacobianProvided s = true) : JacCalls m s [.getJacobian r] rj
  | fd (seg rj) (hp : m.jacobianProvided s = false)
      (h : FdCalls (m.getMemory s) (m.lenProblem s) seg)
      (hr : rj = .ok () ∨ rj = .error .invalidJacobianInverse) :
      JacCalls m s seg rj
  | fdFailed (k seg y e) (hp : m.jacobianProvided s = false) (hk : k < m.lenProblem s)
      (h : FdCalls (m.getMemory s) k seg) :
      JacCalls m s (seg ++ [.setIteratives y, .evaluate (.error (.unusable e))])
        (.error (.invalidJacobian (.unusable e)))

theorem computeJac_recorded {j j' : JacobianMatrix F n} {r}
    (h : computeJac c (recorded m) j (s, t) = .ok (j', (s', t'), r)) :
    ∃ seg, t' = t ++ seg ∧ JacCalls m s seg r := by
  unfold computeJac at h
  by_cases hp : m.jacobianProvided s = true
  · have hp' : (recorded m).jacobianProvided (s, t) = true := hp
    simp only [hp', if_true] at h
    have : ∀ {j2 s2 t2 r2}, analyticJacobian c.la c.res (recorded m) j (s, t) = (j2, (s2, t2), r2) →
        ∃ g, t2 = t ++ [.getJacobian g] := by
      intro j2 s2 t2 r2 ha
      unfold analyticJacobian at ha
      simp only [recorded] at ha
      rcases hg : m.getJacobian s with ⟨s3, g⟩
      rw [hg] at ha
      refine ⟨g, ?_⟩
      match g with
      | .error e => cases ha; rfl
      | .ok v =>
        dsimp only at ha
        split at ha <;> (cases ha; rfl)
    rcases ha : analyticJacobian c.la c.res (recorded m) j (s, t) with ⟨j2, ⟨s2, t2⟩, r2⟩
    obtain ⟨g, rfl⟩ := this ha
    rw [ha] at h
    refine ⟨[.getJacobian g], ?_, .analytic _ _ hp⟩
    match r2 with
    | .ok () => cases h; rfl
    | .error (.invalidJacobian (.inaccurate e)) => cases h; rfl
    | .error (.invalidJacobian (.unusable e)) => cases h; rfl
    | .error .invalidJacobianInverse => cases h; rfl
  · have hp : m.jacobianProvided s = false := by simpa using hp
    have hp' : (recorded m).jacobianProvided (s, t) = false := hp
    simp only [hp', Bool.false_eq_true, if_false] at h
    unfold fdJacobian at h
    cases hpert : computePerturbations c.iters ((recorded m).getIteratives (s, t)) with
    | none => simp [hpert] at h
    | some pert =>
      simp only [hpert] at h
      cases hfd : fdCompute c.res (recorded m) pert (s, t) with
      | error p => simp [hfd] at h
      | ok w =>
        obtain ⟨⟨s2, t2⟩, v⟩ := w
        simp only [hfd] at h
        unfold fdCompute at hfd
        rcases fdLoop_recorded _ _ _ _ _ _ _ _ _ hfd with ⟨seg, rfl, hf, J', rfl⟩ |
          ⟨k', seg, y, e, hk, hf, rfl, rfl⟩
        · dsimp only at h
          rcases hu : j.updateExact c.la J' with ⟨j3, b⟩
          rw [hu] at h
          cases b
          · cases h
            exact ⟨seg, rfl, .fd _ _ hp hf (.inr rfl)⟩
          · cases h
            exact ⟨seg, rfl, .fd _ _ hp hf (.inl rfl)⟩
        · cases h
          exact ⟨_, rfl, .fdFailed k' seg y e hp hk hf⟩

theorem JacCalls.counts {seg r} (h : JacCalls m s seg r) :
    countEvaluate seg ≤ (if m.jacobianProvided s then 0 else m.lenProblem s) ∧
    countGetJacobian seg ≤ 1 := by
  cases h with
  | analytic r rj hp => simp [countEvaluate, countGetJacobian]
  | fd seg rj hp h hr => simp [hp, h.counts.1, h.counts.2]
  | fdFailed k seg y e hp hk h =>
    simp [hp, countEvaluate_append, countGetJacobian_append, h.counts.1, h.counts.2,
      countEvaluate, countGetJacobian]
    omega

/-- The calls of the Jacobian phase of an iteration. -/
inductive StepCalls (c : Config F n) (m : UserModel F n EI EU S) (st : Solver F n) (s : S) :
    List (Call F n EI EU) → Except (SolverInternalError EI EU) (Vec F n) → Prop where
  | computed (seg rj r) (hm : c.params.method = .NewtonRaphson ∨ st.jac.computeNext = true)
      (h : JacCalls m s seg rj)
      (hr : (rj = .ok () ∧ ∃ x, r = .ok x) ∨ (∃ e, rj = .error e ∧ r = .error e)) :
      StepCalls c m st s seg r
  | none (r) (hm : c.params.method ≠ .NewtonRaphson) (hc : st.jac.computeNext = false) :
      StepCalls c m st s [] r

theorem step_recorded {r} (h : StepOutcome c (recorded m) st (s, t) st' (s', t') r) :
    ∃ seg, t' = t ++ seg ∧ StepCalls c m st s seg r := by
  cases h with
  | computed j l s' x hm hj hx =>
    obtain ⟨seg, rfl, hs⟩ := computeJac_recorded hj
    exact ⟨seg, rfl, .computed _ _ _ hm hs (.inl ⟨rfl, _, rfl⟩)⟩
  | computeFailed j l s' e hm hj =>
    obtain ⟨seg, rfl, hs⟩ := computeJac_recorded hj
    exact ⟨seg, rfl, .computed _ _ _ hm hs (.inr ⟨_, rfl, rfl⟩)⟩
  | kept l x hm hc hx => exact ⟨[], by simp, .none _ (by simp [hm]) hc⟩
  | updated u ds dy cur j l x hm hc h1 h2 h3 hj hx =>
    exact ⟨[], by simp, .none _ (by simp [hm]) hc⟩
  | updateFailed u ds dy cur j hm hc h1 h2 h3 hj =>
    exact ⟨[], by simp, .none _ (by simp [hm]) hc⟩
  | invUpdated u ds dy cur j l x hm hc h1 h2 h3 hj hx =>
    exact ⟨[], by simp, .none _ (by simp [hm]) hc⟩

/-- The calls of the update phase of an iteration that proposes `x`. -/
inductive UpdateCalls (c : Config F n) (m : UserModel F n EI EU S) (x : Vec F n) (s s' : S)
    (valid : Bool) : List (Call F n EI EU) → Except (SolverError EI EU) (Vec F n) → Prop where
  | unusable (e) (he : m.evaluate (m.setIteratives s x) = (s', .error (.unusable e))) :
      UpdateCalls c m x s s' valid [.setIteratives x, .evaluate (.error (.unusable e))]
        (.error (.modelEvaluation (.unusable e)))
  | plain (r) (he : m.evaluate (m.setIteratives s x) = (s', r)) (hu : Usable r valid) (e) :
      UpdateCalls c m x s s' valid [.setIteratives x, .evaluate r] (.ok e)
  | damped (s1 r) (he : m.evaluate (m.setIteratives s x) = (s1, r)) (hu : Usable r valid)
      (hd : c.params.damping = true)
      (he2 : m.evaluate (m.setIteratives s1 (dampedGuess (m.getIteratives s) x)) = (s', .ok ())) (e) :
      UpdateCalls c m x s s' valid
        [.setIteratives x, .evaluate r, .setIteratives (dampedGuess (m.getIteratives s) x),
          .evaluate (.ok ())] (.ok e)

theorem recorded_eval {x : Vec F n} {s1 : S × List (Call F n EI EU)} {r}
    (h : (recorded m).evaluate ((recorded m).setIteratives (s, t) x) = (s1, r)) :
    m.evaluate (m.setIteratives s x) = (s1.1, r) ∧
      s1.2 = t ++ [.setIteratives x, .evaluate r] := by
  simp only [recorded] at h
  cases h
  exact ⟨rfl, by simp⟩

theorem update_recorded {x r} (h : UpdateOutcome c (recorded m) x st (s, t) st' (s', t') r) :
    ∃ seg, t' = t ++ seg ∧ UpdateCalls c m x s s' st'.valid seg r := by
  cases h with
  | unusable s1 e he =>
    obtain ⟨h1, h2⟩ := recorded_eval he
    exact ⟨_, h2, .unusable e h1⟩
  | plain s1 r v l he hu hd =>
    obtain ⟨h1, h2⟩ := recorded_eval he
    refine ⟨_, h2, .plain r h1 ?_ _⟩
    simpa [(storeSteps_fields ..).2.2.2.1] using hu
  | refused s1 r v l he hu hd hlt hm ha =>
    obtain ⟨h1, h2⟩ := recorded_eval he
    refine ⟨_, h2, .plain r h1 ?_ _⟩
    simpa [(storeSteps_fields ..).2.2.2.1] using hu
  | damped s1 r v l s2 he hu hd hlt hm he2 =>
    obtain ⟨h1, h2⟩ := recorded_eval he
    obtain ⟨s1, t1⟩ := s1
    obtain ⟨h3, h4⟩ := recorded_eval he2
    dsimp only at h2 h3 h4
    subst h2
    refine ⟨_, by rw [h4, List.append_assoc]; rfl, .damped s1 r h1 ?_ hd h3 _⟩
    simpa [(storeSteps_fields ..).2.2.2.1] using hu

end
end Nrf
