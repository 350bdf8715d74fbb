import Verif.Model.Program

/-!
# The program follows the model of `RootFinder.lean`

`Sim` relates a program, started in the world of a solver `st` and a model state `s`, with the value the functional
model gives for it.  Along the way it keeps what a panic leaves behind.
-/

namespace Nrf.Program

section
variable {F : Type} {n : Nat} {S α β : Type}

/-- What holds after a program, whether it ends or panics. -/
def Holds (p : Prog F n S α) (w : World F n S) (Q : α → World F n S → Prop) (E : Abort → World F n S → Prop) : Prop :=
  match p w with
  | .ok a w' => Q a w'
  | .error x w' => E x w'

theorem holds_bind {p : Prog F n S α} {k : α → Prog F n S β} {w Q E}
    (h : Holds p w (fun a w' => Holds (k a) w' Q E) E) : Holds (p >>= k) w Q E := by
  unfold Holds at h ⊢
  simp only [bind, EStateM.bind]
  split at h
  · rename_i a w' heq
    rw [heq]
    exact h
  · rename_i a w' heq
    rw [heq]
    exact h

theorem Holds.mono {p : Prog F n S α} {w} {Q Q' : α → World F n S → Prop} {E E' : Abort → World F n S → Prop}
    (h : Holds p w Q E) (hQ : ∀ a w', Q a w' → Q' a w') (hE : ∀ x w', E x w' → E' x w') : Holds p w Q' E' := by
  unfold Holds at h ⊢
  split <;> rename_i heq <;> rw [heq] at h
  · exact hQ _ _ h
  · exact hE _ _ h

end

section
variable {F : Type} [Scalar F] {n : Nat} {EI EU S α β : Type} (P : Setup F n EI EU S)

/-- The text of entries. -/
def textOf (l : List (LogEntry F n)) : List Char := logText P.num P.mat P.c P.fd P.its l

/-- The text of an entry. -/
def entryText (e : LogEntry F n) : List Char := LogEntry.text P.num P.mat P.c P.fd P.its e

theorem textOf_append (l : List (LogEntry F n)) (e : LogEntry F n) :
    textOf P (l ++ [e]) = textOf P l ++ entryText P e := by
  simp [textOf, logText, entryText]

variable (log0 : Option String) (files0 : String → Option (List Char))

/-- The files when the text `t` has been appended to the log. -/
def filesWith (t : List Char) : String → Option (List Char) :=
  fun q => if log0 = some q then (files0 q).map (· ++ t) else files0 q

theorem filesWith_nil : filesWith log0 files0 [] = files0 := by
  funext q
  unfold filesWith
  split
  · cases files0 q <;> simp
  · rfl

/-- The world of a solver and a model state; `t` has been written after the entries. -/
def worldOf (k : Nat) (st : Solver F n) (s : S) (t : List Char) : World F n S :=
  { debug := st.debug, iter := st.iter, log := log0, jac := st.jac, itStep := st.itStep, resStep := st.resStep,
    resCur := st.resCur, valid := st.valid, model := s,
    files := filesWith log0 files0 (textOf P (st.log.getD []) ++ t), ops := k }

/-- Nothing fails, and the log file is there. -/
def Fine : Prop := P.env = .calm ∧ ∀ q, log0 = some q → files0 q ≠ none

/-- What a panic leaves behind of a solver `st`: the entries there were, perhaps more, and a part of one more. -/
def Wreck (st : Solver F n) (x : Abort) (w : World F n S) : Prop :=
  w.log = log0 ∧ w.iter = st.iter ∧ w.debug = st.debug ∧
    (∃ l t e, st.log.getD [] <+: l ∧ t <+: entryText P e ∧ w.files = filesWith log0 files0 (textOf P l ++ t) ∧
      (st.debug = false → l = st.log.getD [] ∧ t = [])) ∧
    (Fine P log0 files0 → ∃ p, x = .code p)

/-- What a step keeps. -/
def Keeps (st st' : Solver F n) : Prop :=
  st'.iter = st.iter ∧ st'.debug = st.debug ∧ st'.log.isSome = st.log.isSome ∧ st.log.getD [] <+: st'.log.getD [] ∧
    (st.debug = false → st'.log = st.log)

/-- The program does what the model says. -/
def Sim (p : Prog F n S α) (st : Solver F n) (s : S) (v : Except Panic (Solver F n × S × α)) : Prop :=
  log0.isSome = st.log.isSome → ∀ k, Holds p (worldOf P log0 files0 k st s [])
    (fun a w' => ∃ k' st' s', w' = worldOf P log0 files0 k' st' s' [] ∧ Keeps st st' ∧ v = .ok (st', s', a))
    (fun x w' => Wreck P log0 files0 st x w' ∧ ∀ y, x = .code y → v = .error y)

variable {P log0 files0}

theorem Keeps.refl (st : Solver F n) : Keeps st st := ⟨rfl, rfl, rfl, List.prefix_rfl, fun _ => rfl⟩

theorem Keeps.trans {a b c : Solver F n} (h : Keeps a b) (h' : Keeps b c) : Keeps a c :=
  ⟨h'.1.trans h.1, h'.2.1.trans h.2.1, h'.2.2.1.trans h.2.2.1, h.2.2.2.1.trans h'.2.2.2.1,
    fun hd => (h'.2.2.2.2 (h.2.1.trans hd)).trans (h.2.2.2.2 hd)⟩

theorem Wreck.back {a b : Solver F n} (h : Keeps a b) {x : Abort} {w : World F n S} (hw : Wreck P log0 files0 b x w) :
    Wreck P log0 files0 a x w := by
  obtain ⟨h1, h2, h3, ⟨l, t, e, h4, h5, h6, h7⟩, h8⟩ := hw
  refine ⟨h1, h2.trans h.1, h3.trans h.2.1, ⟨l, t, e, h.2.2.2.1.trans h4, h5, h6, fun hd => ?_⟩, h8⟩
  obtain ⟨h9, h10⟩ := h7 (h.2.1.trans hd)
  exact ⟨by rw [h9, h.2.2.2.2 hd], h10⟩

theorem wreck_here (st : Solver F n) (s : S) (k : Nat) {x : Abort} (hx : Fine P log0 files0 → ∃ p, x = .code p) :
    Wreck P log0 files0 st x (worldOf P log0 files0 k st s []) :=
  ⟨rfl, rfl, rfl, ⟨_, [], .refused, List.prefix_rfl, List.nil_prefix, rfl, fun _ => ⟨rfl, rfl⟩⟩, hx⟩

theorem Sim.of_eq {p : Prog F n S α} {st : Solver F n} {s : S} {v v' : Except Panic (Solver F n × S × α)}
    (h : Sim P log0 files0 p st s v) (hv : v = v') : Sim P log0 files0 p st s v' := hv ▸ h

theorem sim_bind {p : Prog F n S α} {k : α → Prog F n S β} {st : Solver F n} {s : S}
    {v : Except Panic (Solver F n × S × α)} {g : Solver F n × S × α → Except Panic (Solver F n × S × β)}
    (hp : Sim P log0 files0 p st s v)
    (hk : ∀ st' s' a, v = .ok (st', s', a) → Sim P log0 files0 (k a) st' s' (g (st', s', a))) :
    Sim P log0 files0 (p >>= k) st s (v >>= g) := by
  intro hl k0
  refine holds_bind ((hp hl k0).mono ?_ ?_)
  · rintro a w' ⟨k', st', s', rfl, hkeep, hv⟩
    refine (hk st' s' a hv (by rw [hl, hkeep.2.2.1]) k').mono ?_ ?_
    · rintro b w'' ⟨k'', st'', s'', rfl, hkeep', hv'⟩
      exact ⟨k'', st'', s'', rfl, hkeep.trans hkeep', by rw [hv]; exact hv'⟩
    · rintro x w'' ⟨hw, hy⟩
      exact ⟨hw.back hkeep, fun y h => by rw [hv]; exact hy y h⟩
  · rintro x w' ⟨hw, hy⟩
    exact ⟨hw, fun y h => by rw [hy y h]; rfl⟩

theorem sim_pure (a : α) (st : Solver F n) (s : S) : Sim P log0 files0 (pure a) st s (.ok (st, s, a)) :=
  fun _ k => ⟨k, st, s, rfl, .refl st, rfl⟩

theorem sim_throw (y : Panic) (st : Solver F n) (s : S) :
    Sim P log0 files0 (throw (.code y) : Prog F n S α) st s (.error y) :=
  fun _ k => ⟨wreck_here st s k fun _ => ⟨y, rfl⟩, fun _ h => by cases h; rfl⟩

/-- Reading the world. -/
theorem sim_get {k : World F n S → Prog F n S β} {st : Solver F n} {s : S} {v : Except Panic (Solver F n × S × β)}
    (h : ∀ j, Sim P log0 files0 (k (worldOf P log0 files0 j st s [])) st s v) : Sim P log0 files0 (get >>= k) st s v :=
  fun hl j => h j hl j

theorem sim_ask (k : Method) (g : S → α) (st : Solver F n) (s : S) :
    Sim P log0 files0 (ask P k g) st s (.ok (st, s, g s)) := by
  intro hl j
  unfold ask
  refine holds_bind ?_
  change Holds (match P.env.user k s with | some s' => _ | none => _) _ _ _
  cases hu : P.env.user k s with
  | none => exact ⟨j, st, s, rfl, .refl st, rfl⟩
  | some s' =>
    exact ⟨wreck_here st s' j fun hf => (by rw [hf.1] at hu; cases hu), fun y h => (by cases h)⟩

theorem sim_call (k : Method) (g : S → S × α) (st : Solver F n) (s : S) :
    Sim P log0 files0 (call P k g) st s (.ok (st, (g s).1, (g s).2)) := by
  intro hl j
  unfold call
  refine holds_bind ?_
  change Holds (match P.env.user k s with | some s' => _ | none => _) _ _ _
  cases hu : P.env.user k s with
  | none => exact ⟨j, st, (g s).1, rfl, .refl st, rfl⟩
  | some s' =>
    exact ⟨wreck_here st s' j fun hf => (by rw [hf.1] at hu; cases hu), fun y h => (by cases h)⟩

theorem sim_onJac (f : JacobianMatrix F n → JacobianMatrix F n) (st : Solver F n) (s : S) :
    Sim P log0 files0 (onJac f) st s (.ok ({ st with jac := f st.jac }, s, ())) :=
  fun _ k => ⟨k, { st with jac := f st.jac }, s, rfl, ⟨rfl, rfl, rfl, List.prefix_rfl, fun _ => rfl⟩, rfl⟩

/-! Writing to the log. -/

variable (P log0 files0) in
/-- The program appends the text `c` to the log, or a part of it. -/
def Adds (p : Prog F n S Unit) (st : Solver F n) (s : S) (c : List Char) : Prop :=
  ∀ k t, Holds p (worldOf P log0 files0 k st s t)
    (fun _ w' => ∃ k', w' = worldOf P log0 files0 k' st s (t ++ c))
    (fun x w' => x = .io ∧ ¬ Fine P log0 files0 ∧ ∃ k' u, u <+: c ∧ w' = worldOf P log0 files0 k' st s (t ++ u))

theorem adds_content {q : String} (hq : log0 = some q) (st : Solver F n) (s : S) (c : List Char) :
    Adds P log0 files0 (addContent P q c) st s c := by
  intro k t
  unfold addContent
  refine holds_bind ?_
  have hfile : (worldOf P log0 files0 k st s t).files q = (files0 q).map (· ++ (textOf P (st.log.getD []) ++ t)) := by
    simp [worldOf, filesWith, hq]
  have hset : ∀ u old, files0 q = some old →
      setFile (worldOf P log0 files0 k st s t).files q ((old ++ (textOf P (st.log.getD []) ++ t)) ++ u) =
        filesWith log0 files0 (textOf P (st.log.getD []) ++ (t ++ u)) := by
    intro u old ho
    funext q'
    by_cases h : q' = q
    · subst h
      simp [setFile, filesWith, hq, ho]
    · have h' : ¬ q = q' := fun h' => h h'.symm
      simp [setFile, filesWith, worldOf, hq, h, h']
  change Holds (match (worldOf P log0 files0 k st s t).files q with | none => _ | some old => _) _ _ _
  rw [hfile]
  cases h0 : files0 q with
  | none =>
    refine ⟨rfl, fun hf => hf.2 q hq h0, k, [], List.nil_prefix, ?_⟩
    rw [List.append_nil]
  | some old =>
    change Holds (match P.env.io k with | none => _ | some j => _) _ _ _
    cases hio : P.env.io k with
    | none =>
      refine ⟨k + 1, ?_⟩
      change ({ worldOf P log0 files0 k st s t with ops := _, files := _ } : World F n S) = _
      rw [hset _ _ h0]
      rfl
    | some j =>
      refine ⟨rfl, fun hf => (by rw [hf.1] at hio; cases hio), k + 1, c.take j, List.take_prefix _ _, ?_⟩
      change ({ worldOf P log0 files0 k st s t with ops := _, files := _ } : World F n S) = _
      rw [hset _ _ h0]
      rfl

theorem Adds.seq {p p' : Prog F n S Unit} {st : Solver F n} {s : S} {c c' : List Char} (h : Adds P log0 files0 p st s c)
    (h' : Adds P log0 files0 p' st s c') : Adds P log0 files0 (p >>= fun _ => p') st s (c ++ c') := by
  intro k t
  refine holds_bind ((h k t).mono ?_ ?_)
  · rintro - w' ⟨k', rfl⟩
    refine (h' k' _).mono ?_ ?_
    · rintro - w'' ⟨k'', rfl⟩
      exact ⟨k'', by rw [List.append_assoc]⟩
    · rintro x w'' ⟨hx, hf, k'', u, hu, rfl⟩
      exact ⟨hx, hf, k'', c ++ u, (List.prefix_append_right_inj c).2 hu, by rw [List.append_assoc]⟩
  · rintro x w' ⟨hx, hf, k', u, hu, rfl⟩
    exact ⟨hx, hf, k', u, hu.trans (List.prefix_append _ _), rfl⟩

theorem Adds.of_eq {p : Prog F n S Unit} {st : Solver F n} {s : S} {c c' : List Char} (h : Adds P log0 files0 p st s c)
    (hc : c = c') : Adds P log0 files0 p st s c' := hc ▸ h

theorem adds_nothing (st : Solver F n) (s : S) : Adds P log0 files0 (pure ()) st s [] :=
  fun k t => ⟨k, by rw [List.append_nil]⟩

theorem adds_forM {ι : Type} {p : ι → Prog F n S Unit} {st : Solver F n} {s : S} {c : ι → List Char}
    (h : ∀ i, Adds P log0 files0 (p i) st s (c i)) : ∀ l : List ι, Adds P log0 files0 (l.forM p) st s (l.flatMap c)
  | [] => adds_nothing st s
  | i :: l => (h i).seq (adds_forM h l)

theorem adds_iteration {q : String} (hq : log0 = some q) (st : Solver F n) (s : S) (x : Vec F n) (r : ResidualsValues F n)
    (e : Vec F n) : Adds P log0 files0 (addIteration P q x r e) st s (iterationTable P.num x r e) := by
  have h := (adds_content (P := P) (files0 := files0) hq st s (lit "Max error: " ++ P.num (amax e) ++ lit "\n\n")).seq <|
    (adds_content hq st s (separationLine ++ lit "\n")).seq <| (adds_content hq st s (titleLine ++ lit "\n")).seq <|
    (adds_content hq st s (separationLine ++ lit "\n")).seq <|
    (adds_forM (fun i => adds_content hq st s
      (logRow P.num i.val (x i) (r.left i) (r.right i) (e i) ++ lit "\n" ++ (separationLine ++ lit "\n"))) (List.finRange n)).seq <|
    adds_content hq st s (lit "\n")
  unfold iterationTable addIteration
  refine h.of_eq ?_
  simp only [List.append_assoc]

/-- Logging an entry. -/
theorem sim_log {p : Prog F n S Unit} {st : Solver F n} {s : S} {e : LogEntry F n} {q : String}
    (hq : log0 = some q) (hd : st.debug = true) (h : Adds P log0 files0 p st s (entryText P e)) :
    Sim P log0 files0 p st s ((st.toLog e).map fun st' => (st', s, ())) := by
  intro hl k
  obtain ⟨l, hl'⟩ : ∃ l, st.log = some l := Option.isSome_iff_exists.1 (by rw [← hl, hq]; rfl)
  have ht : st.toLog e = .ok { st with log := some (l ++ [e]) } := by simp [Solver.toLog, hl']
  refine (h k []).mono ?_ ?_
  · rintro - w' ⟨k', rfl⟩
    refine ⟨k', { st with log := some (l ++ [e]) }, s, ?_, ⟨rfl, rfl, by simp [hl'], ?_, ?_⟩, by rw [ht]; rfl⟩
    · simp [worldOf, hl', textOf_append]
    · simp [hl']
    · intro h
      rw [hd] at h
      cases h
  · rintro x w' ⟨hx, hf, k', u, hu, rfl⟩
    refine ⟨⟨rfl, rfl, rfl, ⟨l, u, e, by simp [hl'], hu, by simp [worldOf, hl'], ?_⟩, fun h => absurd h hf⟩, fun y h => ?_⟩
    · intro h
      rw [hd] at h
      cases h
    · rw [hx] at h
      cases h

theorem unwrapLog_none {st : Solver F n} {s : S} (h : log0 = none) (hl : st.log = none) (e : LogEntry F n) {k : String → Prog F n S Unit} :
    Sim P log0 files0 (unwrapLog >>= k) st s ((st.toLog e).map fun st' => (st', s, ())) := by
  have h1 : Sim P log0 files0 (unwrapLog : Prog F n S String) st s (.error .logUnwrap) := by
    unfold unwrapLog
    refine sim_get fun j => ?_
    change Sim P log0 files0 (match log0 with | none => _ | some path => _) st s _
    rw [h]
    exact sim_throw _ _ _
  have h2 := sim_bind (k := k) (g := fun _ => .error .logUnwrap) h1 (fun _ _ _ h => by cases h)
  exact h2.of_eq (by simp [Solver.toLog, hl]; rfl)

theorem unwrapLog_some {st : Solver F n} {s : S} {q : String} (h : log0 = some q) {k : String → Prog F n S α} {v}
    (hk : Sim P log0 files0 (k q) st s v) : Sim P log0 files0 (unwrapLog >>= k) st s v := by
  have h1 : Sim P log0 files0 (unwrapLog : Prog F n S String) st s (.ok (st, s, q)) := by
    unfold unwrapLog
    refine sim_get fun j => ?_
    change Sim P log0 files0 (match log0 with | none => _ | some path => _) st s _
    rw [h]
    exact sim_pure _ _ _
  exact sim_bind (g := fun _ => v) h1 fun st' s' a h => by cases h; exact hk

/-- Unwrapping the log and writing. -/
theorem sim_unwrapLog {st : Solver F n} {s : S} (hd : st.debug = true) (e : LogEntry F n) {k : String → Prog F n S Unit}
    (h : ∀ q, log0 = some q → Adds P log0 files0 (k q) st s (entryText P e)) :
    Sim P log0 files0 (unwrapLog >>= k) st s ((st.toLog e).map fun st' => (st', s, ())) := by
  intro hl
  cases hq : log0 with
  | none =>
    subst hq
    exact unwrapLog_none rfl (by simpa using hl.symm) e hl
  | some q =>
    subst hq
    exact unwrapLog_some rfl (sim_log rfl hd (h q rfl)) hl

theorem sim_ifDebug {p : Prog F n S Unit} {st : Solver F n} {s : S} {v : Except Panic (Solver F n × S × Unit)}
    (h : st.debug = true → Sim P log0 files0 p st s v) :
    Sim P log0 files0 (ifDebug p) st s (if st.debug then v else .ok (st, s, ())) := by
  unfold ifDebug
  refine sim_get fun j => ?_
  change Sim P log0 files0 (if st.debug = true then p else pure ()) st s _
  split
  · rename_i hd
    exact h hd
  · exact sim_pure _ _ _

theorem sim_jacToLog (st : Solver F n) (s : S) :
    Sim P log0 files0 (ifDebug (jacToLog P)) st s ((st.logIf (.jacobian st.jac)).map fun st' => (st', s, ())) := by
  refine (sim_ifDebug fun hd => sim_unwrapLog hd (.jacobian st.jac) ?_).of_eq ?_
  · intro q hq k t
    exact adds_content hq st s _ k t
  · unfold Solver.logIf
    split <;> rfl

theorem sim_refusedToLog (st : Solver F n) (s : S) :
    Sim P log0 files0 (ifDebug (recomputeJacobianToLog P)) st s ((st.logIf .refused).map fun st' => (st', s, ())) := by
  refine (sim_ifDebug fun hd => sim_unwrapLog hd .refused ?_).of_eq ?_
  · intro q hq
    exact adds_content hq st s _
  · unfold Solver.logIf
    split <;> rfl

theorem sim_iterationToLog' (errors : Vec F n) (st : Solver F n) (s : S) (hd : st.debug = true) :
    Sim P log0 files0 (iterationToLog P errors) st s
      ((st.toLog (.iteration st.iter (P.m.getIteratives s) (P.m.getResiduals s) errors)).map fun st' => (st', s, ())) := by
  unfold iterationToLog
  refine sim_bind (g := fun _ => _) (sim_ask _ _ st s) fun st' s' a h => ?_
  cases h
  refine sim_bind (g := fun _ => _) (sim_ask _ _ st s) fun st' s' a h => ?_
  cases h
  refine sim_unwrapLog hd _ fun q hq k t => ?_
  exact (adds_content hq st s _).seq (adds_iteration hq st s _ _ _) k t

theorem sim_iterationToLog (errors : Vec F n) (st : Solver F n) (s : S) :
    Sim P log0 files0 (ifDebug (iterationToLog P errors)) st s
      ((st.logIf (.iteration st.iter (P.m.getIteratives s) (P.m.getResiduals s) errors)).map fun st' => (st', s, ())) := by
  refine (sim_ifDebug (sim_iterationToLog' errors st s)).of_eq ?_
  unfold Solver.logIf
  split <;> rfl

theorem sim_dampingToLog (errors : Vec F n) (st : Solver F n) (s : S) :
    Sim P log0 files0 (ifDebug (dampingToLog P errors)) st s
      ((st.logIf (.damping (P.m.getIteratives s) (P.m.getResiduals s) errors)).map fun st' => (st', s, ())) := by
  refine (sim_ifDebug (v := (st.toLog (.damping (P.m.getIteratives s) (P.m.getResiduals s) errors)).map fun st' => (st', s, ()))
    fun hd => ?_).of_eq ?_
  · unfold dampingToLog
    refine sim_bind (g := fun _ => _) (sim_ask _ _ st s) fun st' s' a h => ?_
    cases h
    refine sim_bind (g := fun _ => _) (sim_ask _ _ st s) fun st' s' a h => ?_
    cases h
    refine sim_unwrapLog hd (.damping _ _ _) fun q hq k t => ?_
    exact (adds_content hq st s _).seq (adds_iteration hq st s _ _ _) k t
  · unfold Solver.logIf
    split <;> rfl

theorem sim_parametersToLog (st : Solver F n) (s : S) (hd : st.debug = true) :
    Sim P log0 files0 (parametersToLog P) st s (st.parametersToLog.map fun st' => (st', s, ())) := by
  intro hl
  unfold parametersToLog Solver.parametersToLog
  rw [if_pos hd]
  cases hq : log0 with
  | none =>
    subst hq
    have h : st.log = none := by simpa using hl.symm
    refine ((unwrapLog_none rfl h .parameters).of_eq ?_) hl
    simp [Solver.toLog, h]
  | some q =>
    subst hq
    obtain ⟨l, hl'⟩ : ∃ l, st.log = some l := Option.isSome_iff_exists.1 (by rw [← hl]; rfl)
    refine unwrapLog_some rfl ?_ hl
    rw [hl']
    dsimp only
    by_cases hn : n = 0
    · rw [if_pos hn, if_pos hn]
      exact (sim_bind (g := fun _ => .error .displayEmptyIteratives) (sim_throw _ st s) fun _ _ _ h => by cases h)
    · rw [if_neg hn, if_neg hn]
      refine sim_log rfl hd fun k t => ?_
      have h := (adds_content (P := P) (files0 := files0) (log0 := some q) rfl st s (P.c.params.text P.num)).seq <|
        (adds_content rfl st s (iterativesText P.fd P.its)).seq <| adds_content rfl st s P.c.res.text
      rw [← List.append_assoc] at h
      exact h k t

end
end Nrf.Program
