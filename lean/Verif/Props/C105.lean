import Verif.Proofs.ProgramReuse
import Verif.Props.C14
import Verif.Props.C100
import Verif.Props.C101

/-!
# C105: the solver after a caught panic

The property one would like: a caller who catches a panic of their own model, or of the log, can go on with the solver:
a later solve of a well behaved model does not panic in the crate.  It holds for Newton-Raphson and stationary Newton,
and for all methods when the panic came before the first iteration.  It fails for the methods which update the Jacobian.
-/

namespace Nrf
open Program

/-- The states of a solver in use: new; with debug mode activated; after a solve which returned or panicked, of
whatever model in whatever surroundings; and the same solver with another model, other files or at another time. -/
inductive Spec.Session {F : Type} [Scalar F] {n : Nat} (c : Config F n) : (S : Type) → World F n S → Prop
  | new {S : Type} (w : World F n S) (h : Spec.SameFields w .new) : Session c S w
  | activated {EI EU S : Type} (P : Setup F n EI EU S) {w w' : World F n S} (path : String) (h : Session c S w)
      (ha : activateDebug P path w = .ok () w') : Session c S w'
  | returned {EI EU S : Type} (P : Setup F n EI EU S) (hc : P.c = c) {w w' : World F n S} {r} (h : Session c S w)
      (hs : Program.solve P w = .ok r w') : Session c S w'
  | panicked {EI EU S : Type} (P : Setup F n EI EU S) (hc : P.c = c) {w w' : World F n S} {x} (h : Session c S w)
      (hs : Program.solve P w = .error x w') : Session c S w'
  | elsewhere {S S' : Type} {w : World F n S} (h : Session c S w) (w' : World F n S') (hlog : w'.log = w.log)
      (hs : Spec.solverOf w' = Spec.solverOf w) : Session c S' w'

open Spec

section
variable {F : Type} [Scalar F] {n : Nat} {EI EU S : Type}

theorem activateDebug_fields (P : Setup F n EI EU S) {w w' : World F n S} {path : String}
    (ha : activateDebug P path w = .ok () w') : w'.log = some path ∧ w'.jac = w.jac := by
  unfold activateDebug newLog addContent at ha
  cases h1 : P.env.io w.ops with
  | some j =>
    simp only [bind, EStateM.bind, modify, modifyGet, MonadStateOf.modifyGet, EStateM.modifyGet, get, getThe,
      MonadStateOf.get, EStateM.get, set, MonadStateOf.set, EStateM.set, h1] at ha
    cases ha
  | none =>
    cases h2 : P.env.io (w.ops + 1) with
    | none =>
      simp only [bind, EStateM.bind, modify, modifyGet, MonadStateOf.modifyGet, EStateM.modifyGet, get, getThe,
      MonadStateOf.get, EStateM.get, set, MonadStateOf.set, EStateM.set, h1, setFile, if_true, h2] at ha
      cases ha
      exact ⟨rfl, rfl⟩
    | some j =>
      simp only [bind, EStateM.bind, modify, modifyGet, MonadStateOf.modifyGet, EStateM.modifyGet, get, getThe,
      MonadStateOf.get, EStateM.get, set, MonadStateOf.set, EStateM.set, h1, setFile, if_true, h2] at ha
      cases ha

theorem Spec.Session.kept {c : Config F n} {w : World F n S} (h : Session c S w) :
    (w.debug = true → w.log.isSome) ∧ (c.params.method = .QuasiNewton .StationaryNewton → Kept w.jac) := by
  induction h with
  | new w h =>
    refine ⟨fun hd => ?_, fun _ => ?_⟩
    · rw [h.debug] at hd
      cases hd
    · rw [h.jac]
      exact Due.kept rfl
  | activated P path h ha ih =>
    obtain ⟨h1, h2⟩ := activateDebug_fields P ha
    exact ⟨fun _ => by rw [h1]; rfl, fun hm => by rw [h2]; exact ih.2 hm⟩
  | @returned _ _ _ P hc w w' r h hs ih =>
    have hg := (good_solve (P := P) (I := fun _ _ => True)).run w trivial
    unfold Holds at hg
    rw [hs] at hg
    refine ⟨by rw [hg.debug, hg.log]; exact ih.1, fun hm => ?_⟩
    have hj := (step_solve (P := P) (by rw [hc]; exact hm)).run w (ih.2 hm)
    unfold Holds at hj
    rw [hs] at hj
    exact hj
  | @panicked _ _ _ P hc w w' x h hs ih =>
    obtain ⟨h1, h2, -⟩ := C101_panic P hs
    refine ⟨by rw [h1, h2]; exact ih.1, fun hm => ?_⟩
    have hj := (step_solve (P := P) (by rw [hc]; exact hm)).run w (ih.2 hm)
    unfold Holds at hj
    rw [hs] at hj
    exact hj
  | elsewhere h w' hlog hs ih =>
    refine ⟨fun hd => ?_, fun hm => ?_⟩
    · rw [hlog]
      exact ih.1 ((congrArg Solver.debug hs).symm.trans hd)
    · rw [show w'.jac = _ from congrArg Solver.jac hs]
      exact ih.2 hm

/-- **C105**, Newton-Raphson and stationary Newton: whatever has panicked before, a solve of a well behaved model
never panics in the crate, whatever the surroundings do.  Missing for the full statement: the eight updating methods,
see `C105_refuted`. -/
theorem C105_usable_partial (P : Setup F n EI EU S) (hn : n ≠ 0)
    (hm : P.c.params.method = .NewtonRaphson ∨ P.c.params.method = .QuasiNewton .StationaryNewton)
    (hw : Spec.WellBehaved P.c P.m) {w : World F n S} (h : Session P.c S w) (y : Panic) (w' : World F n S) :
    Program.solve P w ≠ .error (.code y) w' := by
  intro hs
  obtain ⟨h1, h2⟩ := h.kept
  have hready : Ready P.c.params.method (solverOf w) := by
    refine Simple.ready hm ?_ ⟨fun hne hc => ?_, fun u hu => ?_⟩
    · intro hd
      have := h1 hd
      revert this
      unfold solverOf
      cases w.log <;> simp
    · rcases hm with hm | hm
      · exact absurd hm hne
      · exact h2 hm hc
    · rcases hm with hm | hm <;> rw [hm] at hu <;> cases hu
  obtain ⟨st', s', r, h3, -⟩ := solve_progress hw w.model hready fun _ => hn
  rw [C100_panics P hs] at h3
  cases h3

/-- All methods: a panic before the first iteration leaves the solver as it was. -/
theorem C105_early (P : Setup F n EI EU S) {w w' : World F n S} {x : Abort} (h : Program.solve P w = .error x w')
    (hi : w'.iter = w.iter) : solverOf w' = solverOf w ∧ w'.log = w.log := by
  have := solve_early (P := P) w
  unfold Holds at this
  rw [h] at this
  exact ⟨this hi, (C101_panic P h).1⟩

/-- Newton-Raphson without debug mode: after a panic, when the last evaluation was accurate, a solve gives what a new
solver gives with the iterations that are left. -/
theorem C105_as_new_partial (P : Setup F n EI EU S) (hm : P.c.params.method = .NewtonRaphson) (hcalm : P.env = .calm)
    {Q : Setup F n EI EU S} {w w' : World F n S} {x : Abort} (hd : w.debug = false) (hl : w.log = none)
    (h : Program.solve Q w = .error x w') (hv : w'.valid = true) (s : S) :
    match Nrf.solve { P.c with params := { P.c.params with maxIter := P.c.params.maxIter - w'.iter } } P.m .new s with
    | .ok (_, s', r) => ∃ w'', Program.solve P { w' with model := s } = .ok r w'' ∧ w''.model = s'
    | .error y => ∃ w'', Program.solve P { w' with model := s } = .error (.code y) w'' := by
  obtain ⟨h1, h2, -⟩ := C101_panic Q h
  have hfresh := C14_newton_raphson_partial P.c P.m (solverOf { w' with model := s }) s hm (h2.trans hd) hv
  have hdec := C100_decides P hcalm { w' with model := s } (fun q hq => by
    have : w'.log = some q := hq
    rw [h1, hl] at this
    cases this)
  change (Nrf.solve P.c P.m (solverOf { w' with model := s }) s).map (fun x => x.2) =
    (Nrf.solve { P.c with params := { P.c.params with maxIter := P.c.params.maxIter - w'.iter } } P.m .new s).map
      (fun x => x.2) at hfresh
  change match Nrf.solve P.c P.m (solverOf { w' with model := s }) s with
    | .ok (st', s', r) => _
    | .error y => _ at hdec
  revert hfresh hdec
  generalize Nrf.solve P.c P.m (solverOf { w' with model := s }) s = a
  generalize Nrf.solve { P.c with params := { P.c.params with maxIter := P.c.params.maxIter - w'.iter } } P.m .new s = b
  intro hfresh hdec
  rcases a with y | ⟨st', s', r⟩ <;> rcases b with y' | ⟨st2, s2, r2⟩ <;> simp [Except.map] at hfresh
  · subst hfresh
    exact hdec
  · obtain ⟨rfl, rfl⟩ := hfresh
    obtain ⟨w'', h3, -, h4, -⟩ := hdec
    exact ⟨w'', h3, h4⟩

end

open scoped Exact

/-- The user's model panics when it is evaluated at 3/2. -/
def Demo.trap32 : Env (AdapterState ℚ 1) :=
  { user := fun k s => if k = .evaluate ∧ s.inputs 0 = 3 / 2 then some s else none, io := fun _ => none }

/-- The demo with another method. -/
def Demo.setupWith (q : ResolutionMethod) (env : Env (AdapterState ℚ 1)) : Setup ℚ 1 Empty Empty (AdapterState ℚ 1) :=
  { Demo.setup env with c := Demo.cfg q false 5 (1 / 1000) 2 }

/-- What is left by a program. -/
def Demo.leftBy {A : Type} : EStateM.Result Abort (World ℚ 1 (AdapterState ℚ 1)) A → World ℚ 1 (AdapterState ℚ 1)
  | .ok _ w => w
  | .error _ w => w

/-- The property fails.  With Broyden's method the user's model panics in the first iteration; the caller catches it.
The next solve, of a well behaved model, panics in the crate: there are no steps to unwrap.  A new solver returns. -/
theorem C105_refuted :
    let q : ResolutionMethod := .QuasiNewton (.JacobianUpdate .BroydenFirst)
    let w := Demo.leftBy (Program.solve (Demo.setupWith q Demo.trap32) Demo.world)
    Demo.outcome (Program.solve (Demo.setupWith q Demo.trap32) Demo.world) = (1, some (.user .evaluate), none) ∧
    Demo.outcome (Program.solve (Demo.setupWith q .calm) w) = (2, some (.code .stepUnwrap), none) ∧
    (Demo.outcome (Program.solve (Demo.setupWith q .calm) Demo.world)).2 = (none, some true) ∧
    Spec.WellBehaved (Demo.setupWith q .calm).c (Demo.setupWith q .calm).m := by
  refine ⟨by decide +kernel, by decide +kernel, by decide +kernel, ?_⟩
  exact ⟨fun _ _ e => (nomatch e), fun _ h => (by cases h), fun h => (by cases h)⟩

/-- Stationary Newton after the same panic: the next solve returns. -/
example :
    let q : ResolutionMethod := .QuasiNewton .StationaryNewton
    let w := Demo.leftBy (Program.solve (Demo.setupWith q Demo.trap32) Demo.world)
    Demo.outcome (Program.solve (Demo.setupWith q Demo.trap32) Demo.world) = (1, some (.user .evaluate), none) ∧
    (Demo.outcome (Program.solve (Demo.setupWith q .calm) w)).2.1 = none := by
  refine ⟨?_, ?_⟩ <;> decide +kernel

/-- A session with a panic. -/
example : ∃ w, Spec.Session (Demo.setupWith (.QuasiNewton .StationaryNewton) .calm).c (AdapterState ℚ 1) w ∧
    w.iter = 1 := by
  have hk : Demo.outcome (Program.solve (Demo.setupWith (.QuasiNewton .StationaryNewton) Demo.trap32) Demo.world) =
    (1, some (.user .evaluate), none) := by decide +kernel
  cases hs : Program.solve (Demo.setupWith (.QuasiNewton .StationaryNewton) Demo.trap32) Demo.world with
  | ok r w =>
    rw [hs] at hk
    simp [Demo.outcome] at hk
  | error x w =>
    rw [hs] at hk
    refine ⟨w, .panicked (Demo.setupWith (.QuasiNewton .StationaryNewton) Demo.trap32) rfl
      (.new Demo.world ⟨rfl, rfl, rfl, rfl, rfl, rfl, rfl, rfl⟩) hs, ?_⟩
    simpa [Demo.outcome] using congrArg Prod.fst hk

/-- A panic at the first evaluation, before any iteration. -/
example : Demo.outcome (Program.solve (Demo.setup
      { user := fun k _ => if k = .evaluate then some Demo.start else none, io := fun _ => none }) Demo.world) =
    (0, some (.user .evaluate), none) := by
  decide +kernel

/-- Newton-Raphson after a panic: the last evaluation was accurate. -/
example : (Demo.leftBy (Program.solve (Demo.setup Demo.trap) Demo.world)).valid = true ∧
    Demo.outcome (Program.solve (Demo.setup Demo.trap) Demo.world) = (2, some (.user .evaluate), none) := by
  constructor <;> decide +kernel

end Nrf
