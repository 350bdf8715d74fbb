import Verif.Proofs.Sim
import Verif.Proofs.JacOutcome

/-!
# Newton-Raphson does not read what earlier solves left, except the counters
-/

set_option linter.unusedSectionVars false

namespace Nrf

section
variable {F : Type} [Scalar F] {n : Nat} {EI EU S : Type}
variable {c : Config F n} {m : UserModel F n EI EU S}

/-- The same configuration with another budget. -/
def withMaxIter (c : Config F n) (k : Nat) : Config F n :=
  { c with params := { c.params with maxIter := k } }

theorem updateExact_indep (L : LinAlg F n) (j1 j2 : JacobianMatrix F n) (M : Mat F n) :
    (j1.updateExact L M).2 = (j2.updateExact L M).2 ∧
    (j1.updateExact L M).1.inverse = (j2.updateExact L M).1.inverse := by
  unfold JacobianMatrix.updateExact JacobianMatrix.update
  rcases L.inv M with _ | inv <;> exact ⟨rfl, rfl⟩

/-- The Jacobian computation does not depend on the cache it overwrites. -/
theorem computeJac_indep (j1 j2 : JacobianMatrix F n) (s : S) :
    (∃ p, computeJac c m j1 s = .error p ∧ computeJac c m j2 s = .error p) ∨
    (∃ j1' j2' s' r, computeJac c m j1 s = .ok (j1', s', r) ∧
      computeJac c m j2 s = .ok (j2', s', r) ∧ (r = .ok () → j1'.inverse = j2'.inverse)) := by
  unfold computeJac
  by_cases hp : m.jacobianProvided s = true
  · simp only [hp, if_true]
    unfold analyticJacobian
    rcases m.getJacobian s with ⟨s', g⟩
    match g with
    | .error (.inaccurate e) => exact .inr ⟨_, _, _, _, rfl, rfl, fun _ => rfl⟩
    | .error (.unusable e) => exact .inr ⟨_, _, _, _, rfl, rfl, fun h => by cases h⟩
    | .ok v =>
      dsimp only
      have := updateExact_indep c.la j1 j2 (v.normalize (m.getResiduals s) c.res.upd)
      revert this
      rcases j1.updateExact c.la (v.normalize (m.getResiduals s) c.res.upd) with ⟨a1, b1⟩
      rcases j2.updateExact c.la (v.normalize (m.getResiduals s) c.res.upd) with ⟨a2, b2⟩
      rintro ⟨h1, h2⟩
      dsimp only at h1 h2
      subst h1
      cases b1
      · exact .inr ⟨_, _, _, _, rfl, rfl, fun h => by cases h⟩
      · exact .inr ⟨_, _, _, _, rfl, rfl, fun _ => h2⟩
  · simp only [hp, if_false, Bool.false_eq_true]
    unfold fdJacobian
    rcases computePerturbations c.iters (m.getIteratives s) with _ | pert
    · exact .inl ⟨_, rfl, rfl⟩
    · dsimp only
      rcases hf : fdCompute c.res m pert s with p | ⟨s', e | M⟩
      · exact .inl ⟨_, rfl, rfl⟩
      · match e with
        | .inaccurate e =>
          obtain ⟨e', he'⟩ := fdLoop_error (c := c) _ _ _ _ _ _ _ _ hf
          cases he'
        | .unusable e => exact .inr ⟨_, _, _, _, rfl, rfl, fun h => by cases h⟩
      · dsimp only
        have := updateExact_indep c.la j1 j2 M
        revert this
        rcases j1.updateExact c.la M with ⟨a1, b1⟩
        rcases j2.updateExact c.la M with ⟨a2, b2⟩
        rintro ⟨h1, h2⟩
        dsimp only at h1 h2
        subst h1
        cases b1
        · exact .inr ⟨_, _, _, _, rfl, rfl, fun h => by cases h⟩
        · exact .inr ⟨_, _, _, _, rfl, rfl, fun _ => h2⟩

/-- Same numbers from here on for Newton-Raphson, with counters apart by `k`. -/
structure Shift (k : Nat) (a b : Solver F n) : Prop where
  iter : a.iter = b.iter + k
  valid : a.valid = b.valid
  da : a.debug = false
  db : b.debug = false

/-- Agreement of results up to a shift. -/
def ShiftR {α : Type} (k : Nat) :
    Except Panic (Solver F n × S × α) → Except Panic (Solver F n × S × α) → Prop
  | .error p, .error q => p = q
  | .ok (a, s, r), .ok (b, s', r') => Shift k a b ∧ s = s' ∧ r = r'
  | _, _ => False

theorem ShiftR.elim {α : Type} {k} {x y : Except Panic (Solver F n × S × α)} (h : ShiftR k x y) :
    (∃ p, x = .error p ∧ y = .error p) ∨
    (∃ a b s r, x = .ok (a, s, r) ∧ y = .ok (b, s, r) ∧ Shift k a b) := by
  match x, y, h with
  | .error p, .error q, h => exact .inl ⟨p, rfl, by rw [show p = q from h]⟩
  | .ok (a, s, r), .ok (b, s', r'), ⟨h1, h2, h3⟩ =>
    subst h2; subst h3
    exact .inr ⟨a, b, s, r, rfl, rfl, h1⟩

theorem logIf_off {st : Solver F n} (h : st.debug = false) (e : LogEntry F n) :
    st.logIf e = .ok st := by
  simp [Solver.logIf, h]

theorem newtonRaphsonStep_shift {k} {a b : Solver F n} (h : Shift k a b) (s : S) :
    ShiftR k (newtonRaphsonStep c m a s) (newtonRaphsonStep c m b s) := by
  simp only [newtonRaphsonStep, bind, Except.bind, pure, Except.pure]
  rcases computeJac_indep (c := c) (m := m) a.jac b.jac s with ⟨p, h1, h2⟩ | ⟨j1, j2, s', r, h1, h2, h3⟩
  · rw [h1, h2]; rfl
  · rw [h1, h2]
    dsimp only
    have hs : ∀ j1 j2, Shift k { a with jac := j1 } { b with jac := j2 } := fun j1 j2 =>
      ⟨h.iter, h.valid, h.da, h.db⟩
    rw [logIf_off (st := { a with jac := j1 }) h.da, logIf_off (st := { b with jac := j2 }) h.db]
    match r with
    | .error e => exact ⟨hs _ _, rfl, rfl⟩
    | .ok () =>
      dsimp only
      have hx : computeNext c m { a with jac := j1 } s' = computeNext c m { b with jac := j2 } s' := by
        simp only [computeNext, h3 rfl]
      rw [hx]
      rcases computeNext c m { b with jac := j2 } s' with p | x
      · rfl
      · exact ⟨hs _ _, rfl, rfl⟩

theorem dampingStep_shift {k} {a b : Solver F n} (hm : c.params.method = .NewtonRaphson)
    (h : Shift k a b) (s : S) (e : F) (cur prop en : Vec F n) :
    ShiftR k (dampingStep c m e cur prop en a s) (dampingStep c m e cur prop en b s) := by
  unfold dampingStep
  simp only [hm, ne_eq, not_true, false_and, if_false, bind, Except.bind, pure, Except.pure]
  split
  · match m.evaluate (m.setIteratives s (dampedGuess cur prop)) with
    | (s', .error e) => rfl
    | (s', .ok ()) =>
      dsimp only
      rw [logIf_off h.da, logIf_off h.db]
      exact ⟨h, rfl, rfl⟩
  · exact ⟨h, rfl, rfl⟩

theorem updateModel_shift {k} {a b : Solver F n} (hm : c.params.method = .NewtonRaphson)
    (h : Shift k a b) (s : S) (x : Vec F n) :
    ShiftR k (updateModel c m x a s) (updateModel c m x b s) := by
  have hv : ∀ v, Shift k { a with valid := v } { b with valid := v } := fun v =>
    ⟨h.iter, rfl, h.da, h.db⟩
  have fin : ∀ v s1, ShiftR k
      (finishUpdate c m (evaluateErrors c m s) (m.getIteratives s) x { a with valid := v } s1)
      (finishUpdate c m (evaluateErrors c m s) (m.getIteratives s) x { b with valid := v } s1) := by
    intro v s1
    simp only [finishUpdate, bind, Except.bind, pure, Except.pure]
    rw [logIf_off (hv v).da, logIf_off (hv v).db]
    dsimp only
    by_cases hd : c.params.damping = true
    · simp only [hd, if_true]
      rcases (dampingStep_shift (c := c) (m := m) hm (hv v) s1 (amax (evaluateErrors c m s))
        (m.getIteratives s) x (evaluateErrors c m s1)).elim with
        ⟨p, e1, e2⟩ | ⟨a', b', s', r, e1, e2, e3⟩
      · rw [e1, e2]; rfl
      · rw [e1, e2]
        simp only [storeSteps, hm]
        exact ⟨e3, rfl, rfl⟩
    · simp only [hd, if_false, Bool.false_eq_true, storeSteps, hm]
      exact ⟨hv v, rfl, rfl⟩
  have key : ∀ {s1 r v}, m.evaluate (m.setIteratives s x) = (s1, r) → Usable r v →
      ShiftR k (updateModel c m x a s) (updateModel c m x b s) := by
    intro s1 r v he hu
    rw [updateModel_usable he hu, updateModel_usable he hu]
    rcases (fin v s1).elim with ⟨p, e1, e2⟩ | ⟨a', b', s', r, e1, e2, e3⟩
    · rw [e1, e2]; rfl
    · rw [e1, e2]; exact ⟨e3, rfl, rfl⟩
  rcases he : m.evaluate (m.setIteratives s x) with ⟨s1, rv⟩
  match rv, he with
  | .ok (), he => exact key he .ok
  | .error (.inaccurate e), he => exact key he (.inaccurate e)
  | .error (.unusable e), he =>
    rw [updateModel_unusable he, updateModel_unusable he]
    exact ⟨hv false, rfl, rfl⟩

theorem iterate_shift {k} {a b : Solver F n} (hm : c.params.method = .NewtonRaphson)
    (h : Shift k a b) (s : S) : ShiftR k (iterate c m a s) (iterate c m b s) := by
  simp only [iterate, computeStep, hm, bind, Except.bind, pure, Except.pure]
  have h' : Shift k { a with iter := a.iter + 1 } { b with iter := b.iter + 1 } :=
    ⟨by simp only [h.iter]; omega, h.valid, h.da, h.db⟩
  rcases (newtonRaphsonStep_shift (c := c) (m := m) h' s).elim with
    ⟨p, e1, e2⟩ | ⟨a', b', s', r, e1, e2, e3⟩
  · rw [e1, e2]; rfl
  · rw [e1, e2]
    match r with
    | .error e => exact ⟨e3, rfl, rfl⟩
    | .ok x =>
      dsimp only
      rcases (updateModel_shift (c := c) (m := m) hm e3 s' x).elim with
        ⟨p, e1, e2⟩ | ⟨a2, b2, s2, r2, e1, e2, e3⟩
      · rw [e1, e2]; rfl
      · rw [e1, e2]
        match r2 with
        | .error e => exact ⟨e3, rfl, rfl⟩
        | .ok e => exact ⟨e3, rfl, rfl⟩

theorem loop_shift {k} (hm : c.params.method = .NewtonRaphson) :
    ∀ (fuel : Nat) {a b : Solver F n} (_ : Shift k a b) (s : S) (e : F),
      ShiftR k (loop c m fuel a s e)
        (loop (withMaxIter c (c.params.maxIter - k)) m fuel b s e) := by
  intro fuel
  induction fuel with
  | zero => intro a b h s e; exact ⟨h, rfl, rfl⟩
  | succ fuel ih =>
    intro a b h s e
    unfold loop
    have hc : continues c a e = continues (withMaxIter c (c.params.maxIter - k)) b e := by
      have : b.iter + k < c.params.maxIter ↔ b.iter < c.params.maxIter - k := by omega
      unfold continues withMaxIter
      rw [h.iter]
      exact congrArg _ (decide_eq_decide.2 this)
    rw [← hc]
    have hi : iterate (withMaxIter c (c.params.maxIter - k)) m b s = iterate c m b s := rfl
    rw [hi]
    split
    · rcases (iterate_shift (c := c) (m := m) hm h s).elim with
        ⟨p, e1, e2⟩ | ⟨a', b', s', r, e1, e2, e3⟩
      · rw [e1, e2]; rfl
      · rw [e1, e2]
        match r with
        | .ok e => exact ih e3 s' e
        | .error e => exact ⟨e3, rfl, rfl⟩
    · exact ⟨h, rfl, rfl⟩

end
end Nrf
