import Verif.Proofs.NoPanic
import Verif.Proofs.JacOutcome
import Verif.Spec.Demo

/-!
# C53: function adapters are faithful models
-/

namespace Nrf

/-- What the documentation of the adapters promises of a model `m` for the user function
`f`: get/set contract, evaluation stores `f` of the inputs on the left and leaves the
right side alone, no error is ever reported. -/
structure Spec.Adapter {F : Type} {n : Nat} (f : Vec F n → Vec F n)
    (m : UserModel F n Empty Empty (AdapterState F n)) : Prop where
  getSet : Spec.GetSet m
  size : ∀ s, m.lenProblem s = n
  noError : ∀ s, (m.evaluate s).2 = .ok ()
  left : ∀ s, (m.getResiduals (m.evaluate s).1).left = f (m.getIteratives s)
  right : ∀ s, (m.getResiduals (m.evaluate s).1).right = (m.getResiduals s).right
  rightSet : ∀ s x, (m.getResiduals (m.setIteratives s x)).right = (m.getResiduals s).right
  rightMemory : ∀ s l, (m.getResiduals (m.setMemory s l)).right = (m.getResiduals s).right
  jacobian : ∀ s, ∃ v, (m.getJacobian s) = (s, .ok v)

theorem C53_function {F : Type} [Scalar F] {n : Nat} (f : Vec F n → Vec F n) :
    Spec.Adapter f (fromFunction f) :=
  ⟨⟨fun _ _ => rfl, fun _ => rfl⟩, fun _ => rfl, fun _ => rfl, fun _ => rfl, fun _ => rfl,
    fun _ _ => rfl, fun _ _ => rfl, fun _ => ⟨_, rfl⟩⟩

theorem C53_function_and_jacobian {F : Type} [Scalar F] {n : Nat} (f : Vec F n → Vec F n)
    (jac : Vec F n → Mat F n) :
    Spec.Adapter f (fromFunctionAndJacobian f jac) ∧
    (∀ s, (fromFunctionAndJacobian f jac).jacobianProvided s = true) ∧
    (∀ s v, ((fromFunctionAndJacobian f jac).getJacobian s).2 = .ok v →
      v.left = jac ((fromFunctionAndJacobian f jac).getIteratives s) ∧ v.right = mzero) :=
  ⟨⟨⟨fun _ _ => rfl, fun _ => rfl⟩, fun _ => rfl, fun _ => rfl, fun _ => rfl, fun _ => rfl,
    fun _ _ => rfl, fun _ _ => rfl, fun _ => ⟨_, rfl⟩⟩, fun _ => rfl,
    fun _ _ h => by cases h; exact ⟨rfl, rfl⟩⟩

/-- A fresh adapter has a zero right side, so that evaluation exposes `(f x, 0)`. -/
theorem C53_fresh {F : Type} [Scalar F] [HasSpecials F] {n : Nat} (f : Vec F n → Vec F n)
    (m : UserModel F n Empty Empty (AdapterState F n)) (hm : Spec.Adapter f m)
    (hr : ∀ s, (m.getResiduals s).right = s.right) (x : Vec F n) :
    let s := (m.evaluate (m.setIteratives .new x)).1
    m.getIteratives s = x ∧ (m.getResiduals s).left = f x ∧
      (m.getResiduals s).right = fun _ => Scalar.zero := by
  refine ⟨?_, ?_, ?_⟩
  · rw [hm.getSet.get_evaluate, hm.getSet.get_set]
  · rw [hm.left, hm.getSet.get_set]
  · rw [hm.right, hm.rightSet, hr]; rfl

/-- A solve on an adapter that returns can only end with `Ok`, `NonConvergenceError` or a
Jacobian that is not invertible, provided the solver has only seen such models (its flag
`last_iter_model_evaluation_validity` is set, as in a new solver).  When it ends with `Ok` or
`NonConvergenceError` the model holds `f` of its inputs. -/
theorem C53_outcomes {F : Type} [Scalar F] {n : Nat} (f : Vec F n → Vec F n)
    (m : UserModel F n Empty Empty (AdapterState F n)) (hm : Spec.Adapter f m)
    (c : Config F n) (st st' : Solver F n) (s s' : AdapterState F n)
    (r : Except (SolverError Empty Empty) Unit) (hv : st.valid = true)
    (h : solve c m st s = .ok (st', s', r)) :
    ((r = .ok () ∨ r = .error .nonConvergence) ∧
      (m.getResiduals s').left = f (m.getIteratives s')) ∨
    r = .error (.jacobian .invalidJacobianInverse) := by
  let P : Solver F n → AdapterState F n → F → Prop := fun st s _ =>
    st.valid = true ∧ (m.getResiduals s).left = f (m.getIteratives s)
  have hev : ∀ {s x s1 r1}, m.evaluate (m.setIteratives s x) = (s1, r1) →
      r1 = .ok () ∧ (m.getResiduals s1).left = f (m.getIteratives s1) := by
    intro s x s1 r1 he
    have h1 := hm.noError (m.setIteratives s x)
    have h2 := hm.left (m.setIteratives s x)
    have h3 := hm.getSet.get_evaluate (m.setIteratives s x)
    rw [he] at h1 h2 h3
    exact ⟨h1, by rw [h2, h3]⟩
  have hupd : ∀ {x st s st1 s1 r1}, UpdateOutcome c m x st s st1 s1 (.ok r1) →
      P st1 s1 c.params.tolerance := by
    intro x st s st1 s1 r1 hu
    cases hu with
    | plain s1 r v l he hu hd =>
      obtain ⟨rfl, hl⟩ := hev he
      cases hu
      exact ⟨(storeSteps_fields ..).2.2.2.1, hl⟩
    | refused s1 r v l he hu hd hlt hmn ha =>
      obtain ⟨rfl, hl⟩ := hev he
      cases hu
      exact ⟨(storeSteps_fields ..).2.2.2.1, hl⟩
    | damped s1 r v l s2 he hu hd hlt hmn he2 =>
      obtain ⟨rfl, -⟩ := hev he
      cases hu
      exact ⟨(storeSteps_fields ..).2.2.2.1, (hev he2).2⟩
  have hinv : ∀ {st s e st1 s1 e1}, Run c m st s e st1 s1 e1 → P st s e → P st1 s1 e1 := by
    intro st s e st1 s1 e1 hr h0
    refine hr.invariant (P := P) ?_ h0
    intro st s e st1 s1 e1 _ _ hi
    cases iterate_outcome hi with
    | step st1 s1 x st2 s2 e h1 h2 => exact hupd h2
  cases solve_outcome h with
  | initFailed he => exact nomatch (hev he).1
  | finished he hu hl =>
    left
    cases hl with
    | exit hrun hc =>
      obtain ⟨h1, h2⟩ := hinv hrun ⟨hv, (hev he).2⟩
      refine ⟨?_, h2⟩
      unfold finalResult
      rw [h1]
      split
      · exact .inr rfl
      · exact .inl rfl
  | failed he hu hl =>
    right
    cases hl with
    | failed hrun hc hi =>
      cases iterate_outcome hi with
      | evalFailed st1 s1 x st2 s2 e h1 h2 =>
        cases h2 with
        | unusable s1 e he => exact nomatch (hev he).1
      | jacFailed st1 s1 e h1 =>
        cases h1 with
        | computeFailed j l s' e hmm hj =>
          cases computeJac_outcome hj with
          | singular => rfl
          | unusable s' e => exact nomatch e
          | fdUnusable s' e => exact nomatch e
        | updateFailed => rfl

/-- The first solve of a new solver does return, for every user function, guess and
configuration: with an analytic Jacobian always, with finite differences when the iteratives
have perturbations. -/
theorem C53_returns {F : Type} [Scalar F] {n : Nat} (f : Vec F n → Vec F n)
    (m : UserModel F n Empty Empty (AdapterState F n)) (hm : Spec.Adapter f m)
    (c : Config F n) (s : AdapterState F n)
    (hp : (∀ s, m.jacobianProvided s = true) ∨ ∀ i, (c.iters i).computePerturbation.isSome = true) :
    ∃ st' s' r, solve c m .new s = .ok (st', s', r) ∧
      (((r = .ok () ∨ r = .error .nonConvergence) ∧
        (m.getResiduals s').left = f (m.getIteratives s')) ∨
      r = .error (.jacobian .invalidJacobianInverse)) := by
  have hw : Spec.WellBehaved c m :=
    { jacobian := fun s _ e => (nomatch e)
      finiteDiff := fun s h => by
        refine ⟨le_of_eq (hm.size s), ?_⟩
        rcases hp with hp | hp
        · rw [hp s] at h; cases h
        · exact hp
      damping := fun _ _ e => by
        cases e with
        | inaccurate e => exact nomatch e
        | unusable e => exact nomatch e }
  obtain ⟨st', s', r, h, -⟩ := solve_progress hw s (Ready.new c.params.method) (fun h => by cases h)
  exact ⟨st', s', r, h, C53_outcomes f m hm c _ _ _ _ r rfl h⟩

open scoped Exact in
/-- All three outcomes occur: `x² = 2` solved, not enough iterations, and a singular
derivative at 0. -/
example :
    Demo.kind (solve (Demo.cfg .NewtonRaphson false 5 (1 / 1000) 2) Demo.sqrt2Fd .new Demo.start) =
      .ok ∧
    Demo.kind (solve (Demo.cfg .NewtonRaphson false 1 (1 / 1000) 2) Demo.sqrt2Fd .new Demo.start) =
      .nonConvergence ∧
    Demo.kind (solve (Demo.cfg .NewtonRaphson false 5 (1 / 1000) 0) Demo.sqrt2 .new Demo.start) =
      .jacobian := by
  decide +kernel

end Nrf
