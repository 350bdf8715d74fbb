import Verif.Proofs.Program

/-!
# Every panic has a cause, and every failure is a panic
-/

namespace Nrf.Program

section
variable {F : Type} [Scalar F] {n : Nat} {EI EU S α β : Type} (P : Setup F n EI EU S)

/-- From `w` to `w'` no file operation has failed; without debug mode there was none. -/
structure Smooth (w w' : World F n S) : Prop where
  log : w'.log = w.log
  debug : w'.debug = w.debug
  present : ∀ q, w'.files q = none ↔ w.files q = none
  ops : w.ops ≤ w'.ops
  fine : ∀ k, w.ops ≤ k → k < w'.ops → P.env.io k = none
  quiet : w.debug = false → w'.ops = w.ops ∧ w'.files = w.files
  still : w'.ops = w.ops → w'.files = w.files
  found : w'.ops ≠ w.ops → ∃ path, w.log = some path ∧ w.files path ≠ none

/-- What happens at a panic. -/
inductive Cause : World F n S → Abort → World F n S → Prop
  | code (w : World F n S) (p : Panic) : Cause w (.code p) w
  | user (w : World F n S) (k : Method) (s : S) (h : P.env.user k w.model = some s) :
      Cause w (.user k) { w with model := s }
  | missing (w : World F n S) (path : String) (hd : w.debug = true) (hl : w.log = some path)
      (hf : w.files path = none) : Cause w .io w
  | write (w : World F n S) (path : String) (j : Nat) (files : String → Option (List Char)) (hd : w.debug = true)
      (hl : w.log = some path) (hf : w.files path ≠ none) (hj : P.env.io w.ops = some j) :
      Cause w .io { w with ops := w.ops + 1, files := files }

/-- `p` is smooth up to the cause of its panic, when started with the log and the mode in `I`. -/
structure Good (I : Option String → Bool → Prop) (p : Prog F n S α) : Prop where
  run : ∀ w, I w.log w.debug → Holds p w (fun _ w' => Smooth P w w') (fun x w' => ∃ w1, Smooth P w w1 ∧ Cause P w1 x w')

variable {P} {I : Option String → Bool → Prop}

theorem Smooth.refl (w : World F n S) : Smooth P w w :=
  ⟨rfl, rfl, fun _ => Iff.rfl, le_rfl, fun _ h h' => absurd h' (not_lt.2 h), fun _ => ⟨rfl, rfl⟩, fun _ => rfl,
    fun h => absurd rfl h⟩

theorem Smooth.trans {a b c : World F n S} (h : Smooth P a b) (h' : Smooth P b c) : Smooth P a c where
  log := h'.log.trans h.log
  debug := h'.debug.trans h.debug
  present q := (h'.present q).trans (h.present q)
  ops := h.ops.trans h'.ops
  fine k h1 h2 := by
    by_cases hk : k < b.ops
    · exact h.fine k h1 hk
    · exact h'.fine k (not_lt.1 hk) h2
  quiet hd := by
    obtain ⟨h1, h2⟩ := h'.quiet (h.debug.trans hd)
    obtain ⟨h3, h4⟩ := h.quiet hd
    exact ⟨h1.trans h3, h2.trans h4⟩
  still he := by
    have h1 := h.ops
    have h2 := h'.ops
    exact (h'.still (by omega)).trans (h.still (by omega))
  found hne := by
    by_cases h1 : b.ops = a.ops
    · obtain ⟨path, h2, h3⟩ := h'.found (by rwa [h1])
      exact ⟨path, h.log ▸ h2, fun h4 => h3 ((h.present path).2 h4)⟩
    · exact h.found h1

theorem good_bind {p : Prog F n S α} {k : α → Prog F n S β} (hp : Good P I p) (hk : ∀ a, Good P I (k a)) :
    Good P I (p >>= k) := by
  constructor
  intro w hw
  refine holds_bind ((hp.run w hw).mono ?_ fun x w' h => h)
  intro a w' h
  refine ((hk a).run w' (by rw [h.log, h.debug]; exact hw)).mono (fun _ _ h' => h.trans h') ?_
  rintro x w'' ⟨w1, h1, h2⟩
  exact ⟨w1, h.trans h1, h2⟩

theorem good_pure (a : α) : Good P I (pure a) := ⟨fun w _ => Smooth.refl w⟩

theorem good_throw (y : Panic) : Good P I (throw (.code y) : Prog F n S α) :=
  ⟨fun w _ => ⟨w, .refl w, .code w y⟩⟩

/-- Reading the world. -/
theorem good_get : Good P I (get : Prog F n S (World F n S)) := ⟨fun w _ => Smooth.refl w⟩

/-- A change of the solver. -/
theorem good_modify {f : World F n S → World F n S} (h : ∀ w, (f w).log = w.log ∧ (f w).debug = w.debug ∧
    (f w).files = w.files ∧ (f w).ops = w.ops) : Good P I (modify f : Prog F n S Unit) := by
  constructor
  intro w _
  obtain ⟨h1, h2, h3, h4⟩ := h w
  change Smooth P w (f w)
  exact ⟨h1, h2, fun q => by rw [h3], h4.ge, fun k h5 h6 => absurd h6 (by rw [h4]; exact not_lt.2 h5),
    fun _ => ⟨h4, h3⟩, fun _ => h3, fun h5 => absurd h4 h5⟩

theorem good_onJac (f : JacobianMatrix F n → JacobianMatrix F n) : Good P I (onJac f : Prog F n S Unit) :=
  good_modify fun _ => ⟨rfl, rfl, rfl, rfl⟩

theorem good_ask (k : Method) (g : S → α) : Good P I (ask P k g) := by
  constructor
  intro w _
  unfold ask
  refine holds_bind ?_
  change Holds (match P.env.user k w.model with | some s' => _ | none => _) _ _ _
  cases hu : P.env.user k w.model with
  | none => exact Smooth.refl w
  | some s => exact ⟨w, .refl w, .user w k s hu⟩

theorem good_call (k : Method) (g : S → S × α) : Good P I (call P k g) := by
  constructor
  intro w _
  unfold call
  refine holds_bind ?_
  change Holds (match P.env.user k w.model with | some s' => _ | none => _) _ _ _
  cases hu : P.env.user k w.model with
  | none =>
    exact ⟨rfl, rfl, fun _ => Iff.rfl, le_rfl, fun _ h h' => absurd h' (not_lt.2 h), fun _ => ⟨rfl, rfl⟩,
      fun _ => rfl, fun h => absurd rfl h⟩
  | some s => exact ⟨w, .refl w, .user w k s hu⟩

theorem good_addContent (path : String) (t : List Char) :
    Good P (fun l d => l = some path ∧ d = true) (addContent P path t) := by
  constructor
  rintro w ⟨hl, hd⟩
  unfold addContent
  refine holds_bind ?_
  change Holds (match w.files path with | none => _ | some old => _) w _ _
  cases hf : w.files path with
  | none => exact ⟨w, .refl w, .missing w path hd hl hf⟩
  | some old =>
    change Holds (match P.env.io w.ops with | none => _ | some j => _) w _ _
    cases hj : P.env.io w.ops with
    | none =>
      refine ⟨rfl, rfl, fun q => ?_, Nat.le_succ _, fun k h1 h2 => ?_, fun h => ?_, fun h => ?_,
        fun _ => ⟨path, hl, by rw [hf]; simp⟩⟩
      · by_cases hq : q = path
        · subst hq
          simp [setFile, hf]
        · simp [setFile, hq]
      · have : k = w.ops := Nat.le_antisymm (Nat.lt_succ_iff.1 h2) h1
        rw [this, hj]
      · rw [hd] at h
        cases h
      · exact absurd h (Nat.succ_ne_self _)
    | some j => exact ⟨w, .refl w, .write w path j _ hd hl (by rw [hf]; simp) hj⟩

theorem good_forM {ι : Type} {p : ι → Prog F n S Unit} (h : ∀ i, Good P I (p i)) : ∀ l : List ι, Good P I (l.forM p)
  | [] => good_pure ()
  | i :: l => good_bind (h i) fun _ => good_forM h l

theorem good_ite {c : Prop} [Decidable c] {p q : Prog F n S α} (hp : Good P I p) (hq : Good P I q) :
    Good P I (if c then p else q) := by
  split
  · exact hp
  · exact hq

/-- What follows the unwrapping of the log. -/
theorem good_unwrapLog {k : String → Prog F n S α} (h : ∀ path, Good P (fun l d => l = some path ∧ d = true) (k path)) :
    Good P (fun _ d => d = true) (unwrapLog >>= k) := by
  constructor
  intro w hd
  unfold unwrapLog
  refine holds_bind (holds_bind ?_)
  change Holds (match w.log with | none => _ | some path => _) w _ _
  cases hl : w.log with
  | none => exact ⟨w, .refl w, .code w _⟩
  | some path => exact (h path).run w ⟨hl, hd⟩

theorem good_ifDebug {p : Prog F n S Unit} (h : Good P (fun _ d => d = true) p) : Good P I (ifDebug p) := by
  constructor
  intro w _
  unfold ifDebug
  refine holds_bind ?_
  change Holds (if w.debug = true then p else pure ()) w _ _
  split
  · rename_i hd
    exact h.run w hd
  · exact Smooth.refl w

/-- Programs built from the above. -/
macro "good" : tactic => `(tactic| repeat' first
  | exact good_pure _ | exact good_throw _ | exact good_get | exact good_ask _ _ | exact good_call _ _
  | exact good_onJac _ | exact good_modify fun _ => ⟨rfl, rfl, rfl, rfl⟩ | exact good_addContent _ _
  | exact good_forM (fun _ => good_addContent _ _) _ | assumption
  | with_reducible apply good_ite | with_reducible apply good_ifDebug
  | (with_reducible apply good_unwrapLog; intro _) | with_reducible apply good_bind | intro _ | split)

theorem good_addIteration (path : String) (x : Vec F n) (r : ResidualsValues F n) (e : Vec F n) :
    Good P (fun l d => l = some path ∧ d = true) (addIteration P path x r e) := by
  unfold addIteration
  good

theorem good_parametersToLog : Good P (fun _ d => d = true) (parametersToLog P) := by
  unfold parametersToLog
  good

theorem good_iterationToLog (e : Vec F n) : Good P (fun _ d => d = true) (iterationToLog P e) := by
  unfold iterationToLog
  have := fun path x r => good_addIteration (P := P) path x r e
  good
  all_goals apply this

theorem good_dampingToLog (e : Vec F n) : Good P (fun _ d => d = true) (dampingToLog P e) := by
  unfold dampingToLog
  have := fun path x r => good_addIteration (P := P) path x r e
  good
  all_goals apply this

theorem good_recomputeJacobianToLog : Good P (fun _ d => d = true) (recomputeJacobianToLog P) := by
  unfold recomputeJacobianToLog
  good

theorem good_jacToLog : Good P (fun _ d => d = true) (jacToLog P) := by
  unfold jacToLog
  good

theorem good_updateJacobianWith (a : Bool) (M : Mat F n) : Good P I (updateJacobianWith P a M) := by
  unfold updateJacobianWith updateJacobian
  good

theorem good_fromAnalyticalFunction : Good P I (fromAnalyticalFunction P) := by
  unfold fromAnalyticalFunction getJacobian
  have := fun a M => good_updateJacobianWith (P := P) (I := I) a M
  good
  all_goals apply this

theorem good_columns (pert : Vec F n) (mem : List F) (x r : Vec F n) :
    ∀ (k i : Nat) (J : Mat F n), Good P I (columns P pert mem x r k i J)
  | 0, _, _ => good_pure _
  | k + 1, i, J => by
    unfold columns setIteratives evaluate setMemory
    have := fun i J => good_columns pert mem x r k i J
    good
    all_goals apply this

theorem good_fromFiniteDifference : Good P I (fromFiniteDifference P) := by
  unfold fromFiniteDifference
  have h1 := fun a M => good_updateJacobianWith (P := P) (I := I) a M
  have h2 := fun a b c d e f g => good_columns (P := P) (I := I) a b c d e f g
  good
  all_goals first | apply h1 | apply h2

theorem good_computeJac : Good P I (computeJac P) := by
  unfold computeJac
  have h1 := good_fromAnalyticalFunction (P := P) (I := I)
  have h2 := good_fromFiniteDifference (P := P) (I := I)
  good
  all_goals (beta_reduce; good)

theorem good_computeNextFromInvJac : Good P I (computeNextFromInvJac P) := by
  unfold computeNextFromInvJac
  good

theorem good_newtonRaphson : Good P I (newtonRaphson P) := by
  unfold newtonRaphson
  have h1 := good_computeJac (P := P) (I := I)
  have h2 := good_computeNextFromInvJac (P := P) (I := I)
  have h3 := good_jacToLog (P := P)
  good

theorem good_unwrapOr (p : Panic) (o : Option α) : Good P I (unwrapOr p o : Prog F n S α) := by
  cases o
  · exact good_throw _
  · exact good_pure _

theorem good_approximateJacobian (m : UpdateMethod) (a b c : Vec F n) : Good P I (approximateJacobian P m a b c) := by
  unfold approximateJacobian nextJacobian
  have h1 := fun a M => good_updateJacobianWith (P := P) (I := I) a M
  good
  all_goals first | apply h1 | apply good_unwrapOr

theorem good_approximateInvJacobian (m : UpdateMethod) (a b c : Vec F n) :
    Good P I (approximateInvJacobian P m a b c) := by
  unfold approximateInvJacobian nextInverse
  good
  all_goals apply good_unwrapOr

theorem good_quasiNewtonJacobian (q : QuasiNewtonMethod) : Good P I (quasiNewtonJacobian P q) := by
  unfold quasiNewtonJacobian
  have h1 := good_computeJac (P := P) (I := I)
  have h2 := fun m a b c => good_approximateJacobian (P := P) (I := I) m a b c
  have h3 := good_jacToLog (P := P)
  have h4 := fun m a b c => good_approximateInvJacobian (P := P) (I := I) m a b c
  good
  all_goals first | apply h2 | apply h4 | apply good_unwrapOr

theorem good_quasiNewton (q : QuasiNewtonMethod) : Good P I (quasiNewton P q) := by
  unfold quasiNewton
  have h1 := good_quasiNewtonJacobian (P := P) (I := I) q
  have h2 := good_computeNextFromInvJac (P := P) (I := I)
  good

theorem good_evaluateErrors : Good P I (evaluateErrors P) := by
  unfold evaluateErrors
  good

theorem good_damping (e : F) (a b c : Vec F n) : Good P I (damping P e a b c) := by
  unfold damping setIteratives evaluate
  have h1 := good_evaluateErrors (P := P) (I := I)
  have h2 := fun e => good_dampingToLog (P := P) e
  have h3 := good_recomputeJacobianToLog (P := P)
  good
  all_goals apply h2

theorem good_storeSteps (a b c : Vec F n) (m : ResolutionMethod) : Good P I (storeSteps P a b c m) := by
  unfold storeSteps
  good

theorem good_afterEvaluation (a b c : Vec F n) : Good P I (afterEvaluation P a b c) := by
  unfold afterEvaluation
  have h1 := good_evaluateErrors (P := P) (I := I)
  have h2 := fun e => good_iterationToLog (P := P) e
  good
  all_goals first | apply h2 | apply good_damping | apply good_storeSteps

theorem good_updateModel (x : Vec F n) : Good P I (updateModel P x) := by
  unfold updateModel setIteratives evaluate
  have h1 := good_evaluateErrors (P := P) (I := I)
  good
  all_goals apply good_afterEvaluation

theorem good_computeStep (m : ResolutionMethod) : Good P I (computeStep P m) := by
  cases m
  · exact good_newtonRaphson
  · exact good_quasiNewton _

theorem good_pass : Good P I (pass P) := by
  unfold pass
  have h1 := fun m => good_computeStep (P := P) (I := I) m
  have h2 := fun x => good_updateModel (P := P) (I := I) x
  good
  all_goals first | apply h1 | apply h2

theorem good_whileLoop : ∀ (k : Nat) (e : F), Good P I (whileLoop P k e)
  | 0, _ => good_pure _
  | k + 1, e => by
    unfold whileLoop
    have h1 := good_pass (P := P) (I := I)
    have h2 := fun e => good_whileLoop k e
    good
    all_goals apply h2

theorem good_fromFirstEvaluation : Good P I (fromFirstEvaluation P) := by
  unfold fromFirstEvaluation
  have h1 := good_evaluateErrors (P := P) (I := I)
  have h2 := good_parametersToLog (P := P)
  have h3 := fun e => good_iterationToLog (P := P) e
  good
  all_goals first | apply h3 | apply good_whileLoop

/-- Without its file the log cannot be started. -/
theorem parametersToLog_missing {w : World F n S} {path : String} (hl : w.log = some path) (hf : w.files path = none) :
    Holds (parametersToLog P) w (fun _ _ => False) (fun _ _ => True) := by
  unfold parametersToLog unwrapLog
  refine holds_bind (holds_bind ?_)
  change Holds (match w.log with | none => _ | some path => _) w _ _
  rw [hl]
  by_cases hn : n = 0
  · simp only [if_pos hn]
    exact trivial
  · simp only [if_neg hn]
    refine holds_bind (Holds.mono (Q := fun _ _ => False) (E := fun _ _ => True) ?_ (fun _ _ h => h.elim) fun _ _ h => h)
    unfold addContent
    refine holds_bind ?_
    change Holds (match w.files path with | none => _ | some old => _) w _ _
    rw [hf]
    trivial

theorem fromFirstEvaluation_missing {w : World F n S} {path : String} (hd : w.debug = true) (hl : w.log = some path)
    (hf : w.files path = none) : Holds (fromFirstEvaluation P) w (fun _ _ => False) (fun _ _ => True) := by
  unfold fromFirstEvaluation evaluateErrors ask
  refine holds_bind (holds_bind (holds_bind ?_))
  change Holds (match P.env.user .getResiduals w.model with | some s' => _ | none => _) w _ _
  cases P.env.user .getResiduals w.model with
  | some s => trivial
  | none =>
    unfold ifDebug
    refine holds_bind (holds_bind ?_)
    change Holds (if w.debug = true then _ else _) w _ _
    rw [if_pos hd]
    exact holds_bind ((parametersToLog_missing hl hf).mono (fun _ _ h => h.elim) fun _ _ h => h)

/-- Without its log file, `solve` in debug mode returns only when the first evaluation is unusable. -/
theorem solve_missing {w : World F n S} {path : String} (hd : w.debug = true) (hl : w.log = some path)
    (hf : w.files path = none) :
    Holds (solve P) w (fun r _ => ∃ e, r = .error (.modelInitialEvaluation e)) (fun _ _ => True) := by
  unfold solve setIteratives evaluate call
  refine holds_bind (holds_bind ?_)
  change Holds (match P.env.user .setIteratives w.model with | some s' => _ | none => _) w _ _
  cases P.env.user .setIteratives w.model with
  | some s => trivial
  | none =>
    refine holds_bind (holds_bind ?_)
    change Holds (match P.env.user .evaluate (P.m.setIteratives w.model P.c.guess) with | some s' => _ | none => _)
      { w with model := P.m.setIteratives w.model P.c.guess } _ _
    cases P.env.user .evaluate (P.m.setIteratives w.model P.c.guess) with
    | some s => trivial
    | none =>
      refine holds_bind ?_
      have key : ∀ s, Holds (fromFirstEvaluation P) { w with model := s }
          (fun r _ => ∃ e, r = .error (.modelInitialEvaluation e)) (fun _ _ => True) := fun s =>
        (fromFirstEvaluation_missing (w := { w with model := s }) hd hl hf).mono (fun _ _ h => h.elim) fun _ _ h => h
      change Holds (match (P.m.evaluate (P.m.setIteratives w.model P.c.guess)).2 with
        | .error (.unusable e) => _ | _ => _) { w with model := (P.m.evaluate (P.m.setIteratives w.model P.c.guess)).1 } _ _
      split
      · exact ⟨_, rfl⟩
      · exact key _

theorem good_solve : Good P I (solve P) := by
  unfold solve setIteratives evaluate
  have h1 := good_fromFirstEvaluation (P := P) (I := I)
  good

end
end Nrf.Program
