import Verif.Proofs.ProgramBlame
import Verif.Proofs.NoPanic
import Verif.Proofs.ProgramView

/-!
# What stays usable: the cached Jacobian of stationary Newton, at every panic
-/

namespace Nrf.Program

section
variable {F : Type} [Scalar F] {n : Nat} {EI EU S α β : Type} {P : Setup F n EI EU S}

/-- `p` leads from Jacobians in `A` to Jacobians in `B`, and at a panic too. -/
structure JacStep (A B : JacobianMatrix F n → Prop) (p : Prog F n S α) : Prop where
  run : ∀ w, A w.jac → Holds p w (fun _ w' => B w'.jac) (fun _ w' => B w'.jac)

/-- `p` does not change what `π` shows. -/
structure Same {γ : Type} (π : World F n S → γ) (p : Prog F n S α) : Prop where
  run : ∀ w, Holds p w (fun _ w' => π w' = π w) (fun _ w' => π w' = π w)

/-- `π` shows neither the user's model nor the files. -/
class Blind {γ : Type} (π : World F n S → γ) : Prop where
  out : ∀ (w : World F n S) s f k, π { w with model := s, files := f, ops := k } = π w

instance : Blind (fun w : World F n S => w.jac) := ⟨fun _ _ _ _ => rfl⟩

variable {A B C : JacobianMatrix F n → Prop} {γ : Type} {π : World F n S → γ}

theorem same_bind {p : Prog F n S α} {k : α → Prog F n S β} (hp : Same π p) (hk : ∀ a, Same π (k a)) :
    Same π (p >>= k) := by
  refine ⟨fun w => holds_bind ((hp.run w).mono ?_ fun _ _ h => h)⟩
  intro a w' h
  exact ((hk a).run w').mono (fun _ _ h' => h'.trans h) (fun _ _ h' => h'.trans h)

theorem same_pure (a : α) : Same π (pure a : Prog F n S α) := ⟨fun _ => rfl⟩
theorem same_throw (y : Abort) : Same π (throw y : Prog F n S α) := ⟨fun _ => rfl⟩
theorem same_get : Same π (get : Prog F n S (World F n S)) := ⟨fun _ => rfl⟩

theorem same_modify {f : World F n S → World F n S} (h : ∀ w, π (f w) = π w) :
    Same π (modify f : Prog F n S Unit) := ⟨fun w => h w⟩

theorem same_ask [Blind π] (k : Method) (g : S → α) : Same π (ask P k g) := by
  refine ⟨fun w => ?_⟩
  unfold ask
  refine holds_bind ?_
  change Holds (match P.env.user k w.model with | some s' => _ | none => _) w _ _
  cases P.env.user k w.model
  · first | rfl | exact Blind.out w _ w.files w.ops
  · exact Blind.out w _ w.files w.ops

theorem same_call [Blind π] (k : Method) (g : S → S × α) : Same π (call P k g) := by
  refine ⟨fun w => ?_⟩
  unfold call
  refine holds_bind ?_
  change Holds (match P.env.user k w.model with | some s' => _ | none => _) w _ _
  cases P.env.user k w.model
  · first | rfl | exact Blind.out w _ w.files w.ops
  · exact Blind.out w _ w.files w.ops

theorem same_addContent [Blind π] (path : String) (t : List Char) : Same π (addContent P path t) := by
  refine ⟨fun w => ?_⟩
  unfold addContent
  refine holds_bind ?_
  change Holds (match w.files path with | none => _ | some old => _) w _ _
  cases w.files path with
  | none => rfl
  | some old =>
    change Holds (match P.env.io w.ops with | none => _ | some j => _) w _ _
    cases P.env.io w.ops <;> exact Blind.out w w.model _ _

theorem same_forM {ι : Type} {p : ι → Prog F n S Unit} (h : ∀ i, Same π (p i)) : ∀ l : List ι, Same π (l.forM p)
  | [] => same_pure ()
  | i :: l => same_bind (h i) fun _ => same_forM h l

theorem same_ite {c : Prop} [Decidable c] {p q : Prog F n S α} (hp : Same π p) (hq : Same π q) :
    Same π (if c then p else q) := by
  split
  · exact hp
  · exact hq

/-- Programs built from the above. -/
macro "same" : tactic => `(tactic| repeat' first
  | exact same_pure _ | exact same_throw _ | exact same_get | exact same_ask _ _ | exact same_call _ _
  | exact same_modify fun _ => rfl | exact same_addContent _ _
  | exact same_forM (fun _ => same_addContent _ _) _ | assumption
  | with_reducible apply same_ite | with_reducible apply same_bind | intro _ | split)

theorem same_addIteration [Blind π] (path : String) (x : Vec F n) (r : ResidualsValues F n) (e : Vec F n) :
    Same π (addIteration P path x r e) := by
  unfold addIteration
  same

theorem same_parametersToLog [Blind π] : Same π (parametersToLog P) := by
  unfold parametersToLog unwrapLog
  same

theorem same_iterationToLog [Blind π] (e : Vec F n) : Same π (iterationToLog P e) := by
  unfold iterationToLog unwrapLog
  same
  all_goals apply same_addIteration

theorem same_dampingToLog [Blind π] (e : Vec F n) : Same π (dampingToLog P e) := by
  unfold dampingToLog unwrapLog
  same
  all_goals apply same_addIteration

theorem same_recomputeJacobianToLog [Blind π] : Same π (recomputeJacobianToLog P) := by
  unfold recomputeJacobianToLog unwrapLog
  same

theorem same_jacToLog [Blind π] : Same π (jacToLog P) := by
  unfold jacToLog unwrapLog
  same

theorem same_ifDebug {p : Prog F n S Unit} (h : Same π p) : Same π (ifDebug p) := by
  unfold ifDebug
  same

theorem same_evaluateErrors [Blind π] : Same π (evaluateErrors P) := by
  unfold evaluateErrors
  same

/-- `p` does not change the cached Jacobian. -/
abbrev JacSame (p : Prog F n S α) : Prop := Same (·.jac) p

theorem same_columns (pert : Vec F n) (mem : List F) (x r : Vec F n) :
    ∀ (k i : Nat) (J : Mat F n), JacSame (columns P pert mem x r k i J)
  | 0, _, _ => same_pure _
  | k + 1, i, J => by
    unfold columns setIteratives evaluate setMemory
    same
    all_goals apply same_columns

theorem same_computeNextFromInvJac : JacSame (computeNextFromInvJac P) := by
  unfold computeNextFromInvJac
  same

theorem same_storeSteps (a b c : Vec F n) (m : ResolutionMethod) : JacSame (storeSteps P a b c m) := by
  unfold storeSteps
  same

theorem Same.step {p : Prog F n S α} (h : JacSame p) (hAB : ∀ j, A j → B j) : JacStep A B p :=
  ⟨fun w hw => (h.run w).mono (fun _ _ h' => by rw [h']; exact hAB _ hw) fun _ _ h' => by rw [h']; exact hAB _ hw⟩

theorem step_bind {p : Prog F n S α} {k : α → Prog F n S β} (hp : JacStep A A p) (hk : ∀ a, JacStep A A (k a)) :
    JacStep A A (p >>= k) :=
  ⟨fun w hw => holds_bind ((hp.run w hw).mono (fun a w' h => (hk a).run w' h) fun _ _ h => h)⟩

/-- First a program which does not change the Jacobian. -/
theorem step_after {p : Prog F n S α} {k : α → Prog F n S β} (hAB : ∀ j, A j → B j) (hp : JacSame p)
    (hk : ∀ a, JacStep A B (k a)) : JacStep A B (p >>= k) :=
  ⟨fun w hw => holds_bind ((hp.run w).mono (fun a w' h => (hk a).run w' (by rw [h]; exact hw))
    fun _ _ h => by rw [h]; exact hAB _ hw)⟩

/-- Then programs which keep `B`. -/
theorem step_before {p : Prog F n S α} {k : α → Prog F n S β} (hp : JacStep A B p) (hk : ∀ a, JacStep B B (k a)) :
    JacStep A B (p >>= k) :=
  ⟨fun w hw => holds_bind ((hp.run w hw).mono (fun a w' h => (hk a).run w' h) fun _ _ h => h)⟩

theorem step_ite {c : Prop} [Decidable c] {p q : Prog F n S α} (hp : JacStep A B p) (hq : JacStep A B q) :
    JacStep A B (if c then p else q) := by
  split
  · exact hp
  · exact hq

/-- The Jacobian will be computed. -/
def Due (j : JacobianMatrix F n) : Prop := j.computeNext = true

/-- When the Jacobian will not be computed, there is an inverse. -/
def Kept (j : JacobianMatrix F n) : Prop := j.computeNext = false → j.inverse.isSome = true

theorem Due.kept {j : JacobianMatrix F n} (h : Due j) : Kept j := fun h' => by rw [h] at h'; cases h'

theorem step_onJac {f : JacobianMatrix F n → JacobianMatrix F n} (h : ∀ j, A j → B (f j)) :
    JacStep A B (onJac f : Prog F n S Unit) := ⟨fun w hw => h w.jac hw⟩

theorem step_updateJacobianWith (a : Bool) (M : Mat F n) : JacStep Due Kept (updateJacobianWith P a M) := by
  refine ⟨fun w hw => ?_⟩
  unfold updateJacobianWith updateJacobian
  cases h : P.c.la.inv M with
  | none => exact fun h' => absurd (hw.symm.trans h') (by simp)
  | some i => exact fun _ => rfl

theorem step_fromAnalyticalFunction : JacStep Due Kept (fromAnalyticalFunction P) := by
  unfold fromAnalyticalFunction getJacobian
  refine step_after (fun _ h => h.kept) (same_ask _ _) fun v => step_after (fun _ h => h.kept) (same_call _ _) fun j => ?_
  split
  · refine step_before (step_updateJacobianWith _ _) fun b => ?_
    exact step_ite ((same_pure _).step fun _ h => h) ((same_pure _).step fun _ h => h)
  · exact ⟨fun w hw h' => absurd (hw.symm.trans h') (by simp)⟩

theorem step_fromFiniteDifference : JacStep Due Kept (fromFiniteDifference P) := by
  unfold fromFiniteDifference
  refine step_after (fun _ h => h.kept) (same_ask _ _) fun v => ?_
  split
  · exact (same_throw _).step fun _ h => h.kept
  · refine step_after (fun _ h => h.kept) (same_ask _ _) fun _ => step_after (fun _ h => h.kept) (same_ask _ _) fun _ =>
      step_after (fun _ h => h.kept) (same_ask _ _) fun _ => step_after (fun _ h => h.kept) (same_ask _ _) fun _ =>
      step_after (fun _ h => h.kept) (same_columns _ _ _ _ _ _ _) fun r => ?_
    split
    · refine step_before (step_updateJacobianWith _ _) fun b => ?_
      exact step_ite ((same_pure _).step fun _ h => h) ((same_pure _).step fun _ h => h)
    · exact (same_pure _).step fun _ h => h.kept

theorem step_computeJac : JacStep Due Kept (computeJac P) := by
  unfold computeJac
  refine step_after (fun _ h => h.kept) (same_ask _ _) fun b => ?_
  have key : ∀ p : Prog F n S (Except (SolverInternalError EI EU) Unit), JacStep Due Kept p → JacStep Due Kept (do
      let r ← p
      match r with
      | .ok () => return .ok ()
      | .error (.invalidJacobian (.inaccurate _)) => return .ok ()
      | .error e => return .error e : Prog F n S (Except (SolverInternalError EI EU) Unit)) := by
    intro p hp
    refine step_before hp fun r => ?_
    split <;> exact (same_pure _).step fun _ h => h
  have := fun p hp => key p hp
  by_cases hb : b = true
  · simp only [hb, if_true]
    exact key _ step_fromAnalyticalFunction
  · simp only [hb]
    exact key _ step_fromFiniteDifference

theorem step_stationary : JacStep Kept Kept (quasiNewton P .StationaryNewton) := by
  unfold quasiNewton
  refine step_before ?_ fun r => ?_
  · refine ⟨fun w hw => ?_⟩
    unfold quasiNewtonJacobian
    refine holds_bind ?_
    change Holds (if w.jac.computeNext = true then _ else _) w _ _
    by_cases hc : w.jac.computeNext = true
    · rw [if_pos hc]
      refine (step_before (A := Due) (B := Kept) step_computeJac fun r => ?_).run w hc
      split <;>
      exact step_bind ((same_ifDebug same_jacToLog).step fun _ h => h) fun _ => (same_pure _).step fun _ h => h
    · rw [if_neg hc]
      exact (step_bind (A := Kept) ((same_ifDebug same_jacToLog).step fun _ h => h)
        fun _ => (same_pure _).step fun _ h => h).run w hw
  · split
    · exact step_bind (same_computeNextFromInvJac.step fun _ h => h) fun _ => (same_pure _).step fun _ h => h
    · exact (same_pure _).step fun _ h => h

theorem step_damping (e : F) (a b c : Vec F n) : JacStep Kept Kept (damping P e a b c) := by
  unfold damping setIteratives evaluate
  refine step_ite ?_ ((same_pure _).step fun _ h => h)
  refine step_bind (same_get.step fun _ h => h) fun w => step_ite ?_ ?_
  · exact step_bind (step_onJac fun _ _ => Due.kept rfl) fun _ =>
      step_bind ((same_ifDebug same_recomputeJacobianToLog).step fun _ h => h) fun _ => (same_pure _).step fun _ h => h
  · refine Same.step ?_ fun _ h => h
    refine same_bind (same_call _ _) fun _ => same_bind (same_call _ _) fun r => ?_
    split
    · exact same_throw _
    · exact same_bind same_evaluateErrors fun _ => same_bind (same_ifDebug (same_dampingToLog _)) fun _ => same_pure _

theorem step_afterEvaluation (a b c : Vec F n) : JacStep Kept Kept (afterEvaluation P a b c) := by
  unfold afterEvaluation
  refine step_bind (same_evaluateErrors.step fun _ h => h) fun e =>
    step_bind ((same_ifDebug (same_iterationToLog _)).step fun _ h => h) fun _ => ?_
  have key : ∀ p : Prog F n S (Vec F n), JacStep Kept Kept p → JacStep Kept Kept (do
      let errorsNext ← p
      storeSteps P b a errorsNext P.c.params.method
      return errorsNext) := fun p hp =>
    step_bind hp fun _ => step_bind ((same_storeSteps _ _ _ _).step fun _ h => h) fun _ => (same_pure _).step fun _ h => h
  by_cases hb : P.c.params.damping = true
  · simp only [hb, if_true]
    exact key _ (step_damping _ _ _ _)
  · simp only [hb]
    exact key _ ((same_pure _).step fun _ h => h)

theorem step_updateModel (x : Vec F n) : JacStep Kept Kept (updateModel P x) := by
  unfold updateModel setIteratives evaluate
  refine step_bind (same_evaluateErrors.step fun _ h => h) fun _ => step_bind ((same_ask _ _).step fun _ h => h) fun _ =>
    step_bind ((same_call _ _).step fun _ h => h) fun _ => step_bind ((same_call _ _).step fun _ h => h) fun r => ?_
  split
  · exact step_bind (Same.step (same_modify (by intro w; rfl)) fun _ h => h) fun _ => step_bind (step_afterEvaluation _ _ _)
      fun _ => (same_pure _).step fun _ h => h
  · exact step_bind (Same.step (same_modify (by intro w; rfl)) fun _ h => h) fun _ => step_bind (step_afterEvaluation _ _ _)
      fun _ => (same_pure _).step fun _ h => h
  · exact step_bind (Same.step (same_modify (by intro w; rfl)) fun _ h => h) fun _ => (same_pure _).step fun _ h => h

theorem step_pass (hm : P.c.params.method = .QuasiNewton .StationaryNewton) : JacStep Kept Kept (pass P) := by
  unfold pass
  rw [hm]
  refine step_bind (Same.step (same_modify (by intro w; rfl)) fun _ h => h) fun _ => step_bind step_stationary fun r => ?_
  split
  · refine step_bind (step_updateModel _) fun r => ?_
    split <;> exact (same_pure _).step fun _ h => h
  · exact (same_pure _).step fun _ h => h

theorem step_whileLoop (hm : P.c.params.method = .QuasiNewton .StationaryNewton) :
    ∀ (k : Nat) (e : F), JacStep Kept Kept (whileLoop P k e)
  | 0, _ => (same_pure _).step fun _ h => h
  | k + 1, e => by
    unfold whileLoop
    refine step_bind (same_get.step fun _ h => h) fun w => step_ite ?_ ((same_pure _).step fun _ h => h)
    refine step_bind (step_pass hm) fun r => ?_
    split
    · exact step_whileLoop hm k _
    · exact (same_pure _).step fun _ h => h

/-- Stationary Newton keeps an inverse whenever it will not compute the Jacobian: also at a panic. -/
theorem step_solve (hm : P.c.params.method = .QuasiNewton .StationaryNewton) : JacStep Kept Kept (solve P) := by
  unfold solve setIteratives evaluate fromFirstEvaluation
  refine step_bind ((same_call _ _).step fun _ h => h) fun _ => step_bind ((same_call _ _).step fun _ h => h) fun r => ?_
  split
  · exact (same_pure _).step fun _ h => h
  · refine step_bind (same_evaluateErrors.step fun _ h => h) fun e => step_bind ?_ fun _ =>
      step_bind (same_get.step fun _ h => h) fun w => step_bind (step_whileLoop hm _ _) fun r => ?_
    · exact (same_ifDebug (same_bind same_parametersToLog fun _ => same_iterationToLog _)).step fun _ h => h
    · refine Same.step ?_ fun _ h => h
      same

/-- The loop has counted when it panics. -/
theorem whileLoop_counts (k : Nat) (e : F) (w : World F n S) :
    Holds (whileLoop P k e) w (fun _ _ => True) (fun _ w' => w.iter < w'.iter) := by
  have := loop_follows (P := P) (log0 := w.log) (files0 := w.files) k (Spec.solverOf w) w.model e w.ops
    (solverOf_log w)
  rw [worldOf_solverOf] at this
  refine this.mono (fun _ _ _ => trivial) ?_
  rintro x w' ⟨⟨j, st1, s1, e1, -, h2, -, -, h5⟩, -⟩
  have h6 : w'.iter = st1.iter + 1 := h5.2.1
  have h7 : (Spec.solverOf w).iter = w.iter := rfl
  omega

instance : Blind (Spec.solverOf : World F n S → Solver F n) := ⟨fun _ _ _ _ => rfl⟩

/-- A panic before the first iteration leaves the solver as it was. -/
theorem solve_early (w : World F n S) :
    Holds (solve P) w (fun _ _ => True) (fun _ w' => w'.iter = w.iter → Spec.solverOf w' = Spec.solverOf w) := by
  have start : ∀ {α : Type} {p : Prog F n S α} {w : World F n S}, Same Spec.solverOf p →
      Holds p w (fun _ w' => Spec.solverOf w' = Spec.solverOf w) (fun _ w' => w'.iter = w.iter → Spec.solverOf w' = Spec.solverOf w) :=
    fun h => (h.run _).mono (fun _ _ h => h) fun _ _ h _ => h
  have iterOf : ∀ {a b : World F n S}, Spec.solverOf a = Spec.solverOf b → a.iter = b.iter := fun h => congrArg Solver.iter h
  unfold solve setIteratives evaluate fromFirstEvaluation
  refine holds_bind ((start (same_call _ _)).mono ?_ fun _ _ h => h)
  intro _ w1 h1
  refine holds_bind ((start (same_call _ _)).mono ?_ fun _ _ h hi => (h (hi.trans (iterOf h1).symm)).trans h1)
  intro r w2 h2
  replace h2 := h2.trans h1
  have rest : Holds (do
      let errors ← evaluateErrors P
      ifDebug (do parametersToLog P; iterationToLog P errors)
      let w ← get
      match ← whileLoop P (P.c.params.maxIter - w.iter) (amax errors) with
      | .error e => return .error e
      | .ok maxError =>
        if Scalar.lt P.c.params.tolerance maxError then return .error .nonConvergence
        else if (← get).valid then return .ok ()
        else return .error .finalEvaluation : Prog F n S (Except (SolverError EI EU) Unit)) w2 (fun _ _ => True)
      (fun _ w' => w'.iter = w.iter → Spec.solverOf w' = Spec.solverOf w) := by
    refine holds_bind ((start same_evaluateErrors).mono ?_ fun _ _ h hi => (h (hi.trans (iterOf h2).symm)).trans h2)
    intro errors w3 h3
    replace h3 := h3.trans h2
    refine holds_bind ((start (same_ifDebug (same_bind same_parametersToLog fun _ => same_iterationToLog _))).mono ?_
      fun _ _ h hi => (h (hi.trans (iterOf h3).symm)).trans h3)
    intro _ w4 h4
    replace h4 := h4.trans h3
    refine holds_bind (holds_bind ((whileLoop_counts _ _ w4).mono ?_ fun _ w' h hi => ?_))
    · intro r w5 _
      rcases r with e | e
      · trivial
      · dsimp only
        split
        · trivial
        · refine holds_bind ?_
          change Holds (if w5.valid = true then _ else _) w5 _ _
          split <;> trivial
    · have := iterOf h4
      omega
  rcases r with (e | e) | u
  · exact rest
  · trivial
  · exact rest

end
end Nrf.Program
