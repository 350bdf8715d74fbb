import Verif.Props.C100

/-!
# C103: a failed activation of the debug mode

The property one would like: when `activate_debug` panics because the file cannot be created, a caller who catches the
panic has the solver as it was.  The code sets `debug` first (`rootfinder.rs` L145), so this is refuted for a solver
without a log; a solver which already has one goes on with it.
-/

namespace Nrf
open Spec Program

section
variable {F : Type} [Scalar F] {n : Nat} {EI EU S : Type} (P : Setup F n EI EU S)

/-- The part which holds: a failed activation changes only the debug mode and the file named; of this file nothing is
changed, or it holds the beginning of the header.  Missing: the debug mode is as it was. -/
theorem C103_failed_activation_partial {w w' : World F n S} {x : Abort} {path : String}
    (h : activateDebug P path w = .error x w') :
    x = .io ∧ w'.debug = true ∧ w'.log = w.log ∧ w'.iter = w.iter ∧ w'.jac = w.jac ∧ w'.itStep = w.itStep ∧
      w'.resStep = w.resStep ∧ w'.resCur = w.resCur ∧ w'.valid = w.valid ∧ w'.model = w.model ∧
      (∀ q ≠ path, w'.files q = w.files q) ∧
      (w'.files path = w.files path ∨
        ∃ t, t <+: LogEntry.text P.num P.mat P.c P.fd P.its (.header : LogEntry F n) ∧ w'.files path = some t) := by
  unfold activateDebug newLog addContent at h
  cases h1 : P.env.io w.ops with
  | some j =>
    simp only [bind, EStateM.bind, modify, modifyGet, MonadStateOf.modifyGet, EStateM.modifyGet, get, getThe,
      MonadStateOf.get, EStateM.get, set, MonadStateOf.set, EStateM.set, h1] at h
    cases h
    exact ⟨rfl, rfl, rfl, rfl, rfl, rfl, rfl, rfl, rfl, rfl, fun _ _ => rfl, .inl rfl⟩
  | none =>
    cases h2 : P.env.io (w.ops + 1) with
    | none =>
      simp only [bind, EStateM.bind, modify, modifyGet, MonadStateOf.modifyGet, EStateM.modifyGet, get, getThe,
      MonadStateOf.get, EStateM.get, set, MonadStateOf.set, EStateM.set, h1, setFile, if_true, h2] at h
      cases h
    | some j =>
      simp only [bind, EStateM.bind, modify, modifyGet, MonadStateOf.modifyGet, EStateM.modifyGet, get, getThe,
      MonadStateOf.get, EStateM.get, set, MonadStateOf.set, EStateM.set, h1, setFile, if_true, h2] at h
      cases h
      refine ⟨rfl, rfl, rfl, rfl, rfl, rfl, rfl, rfl, rfl, rfl, fun q hq => ?_, .inr ⟨_, List.take_prefix j _, ?_⟩⟩
      · simp [setFile, hq]
      · simp [setFile]

/-- After a failed activation a solver without a log cannot be used: whenever the first evaluation is usable, `solve`
panics, whatever the surroundings do. -/
theorem C103_unusable {w w' : World F n S} {x : Abort} {path : String} (hl : w.log = none)
    (h : activateDebug P path w = .error x w') (Q : Setup F n EI EU S) (s : S)
    (hu : ∀ e, (Q.m.evaluate (Q.m.setIteratives s Q.c.guess)).2 ≠ .error (.unusable e)) :
    ∃ y w'', Program.solve Q { w' with model := s } = .error y w'' ∧ w''.log = none ∧ w''.debug = true := by
  obtain ⟨-, hd, hlog, -⟩ := C103_failed_activation_partial P h
  have hmodel : Nrf.solve Q.c Q.m (solverOf { w' with model := s }) s = .error .logUnwrap := by
    unfold Nrf.solve
    rcases hev : Q.m.evaluate (Q.m.setIteratives s Q.c.guess) with ⟨s1, r⟩
    rw [hev] at hu
    have hf : solveFrom Q.c Q.m (solverOf { w' with model := s }) s1 = .error .logUnwrap := by
      unfold solveFrom Solver.parametersToLog
      simp only [solverOf, hd, hlog, hl, if_true, Option.map_none]
      rfl
    rcases r with (e | e) | u
    · exact hf
    · exact absurd rfl (hu e)
    · exact hf
  cases hp : Program.solve Q { w' with model := s } with
  | ok r w'' =>
    obtain ⟨st', h1, -⟩ := C100_returns Q hp
    rw [show ({ w' with model := s } : World F n S).model = s from rfl, hmodel] at h1
    cases h1
  | error y w'' =>
    have := solve_follows (P := Q) (log0 := w'.log) (files0 := w'.files) (solverOf { w' with model := s }) s
      (solverOf_log w') w'.ops
    have hw := worldOf_solverOf Q { w' with model := s }
    simp only at hw
    rw [hw] at this
    unfold Holds at this
    rw [hp] at this
    rcases this.1 with hk | ⟨j, st1, s1, -, -, hkeep, hk⟩
    · exact ⟨y, w'', rfl, hk.1.trans (hlog.trans hl), hk.2.2.1.trans hd⟩
    · exact ⟨y, w'', rfl, hk.1.trans (hlog.trans hl), hk.2.2.1.trans (hkeep.1.trans hd)⟩

/-- A solver which already has a log goes on with it after a failed activation: every solve is the one of the functional
model in debug mode. -/
theorem C103_goes_on {w w' : World F n S} {x : Abort} {path old : String} (hl : w.log = some old)
    (h : activateDebug P path w = .error x w') :
    solverOf w' = { solverOf w with debug := true } ∧ w'.model = w.model ∧ w'.log = some old := by
  obtain ⟨-, h1, h2, h3, h4, h5, h6, h7, h8, h9, -⟩ := C103_failed_activation_partial P h
  refine ⟨?_, h9, h2.trans hl⟩
  unfold solverOf
  rw [h1, h2, h3, h4, h5, h6, h7, h8]

end

open scoped Exact

/-- No file can be created. -/
def Demo.noCreate : Env (AdapterState ℚ 1) := { user := fun _ _ => none, io := fun k => if k = 0 then some 0 else none }

/-- The property as one would like it is false: the solver solves `x² = 2`; after a failed activation it panics, although
nothing fails any more. -/
theorem C103_solver_as_before_refuted :
    ¬ ∀ (P Q : Setup ℚ 1 Empty Empty (AdapterState ℚ 1)) (path : String) (w w' : World ℚ 1 (AdapterState ℚ 1)) (x : Abort),
      activateDebug P path w = .error x w' → Q.env = .calm →
        Demo.outcome (Program.solve Q w') = Demo.outcome (Program.solve Q w) := by
  intro h
  cases ha : activateDebug (Demo.setup Demo.noCreate) "log.txt" Demo.world with
  | ok u w' =>
    have : ∀ r, activateDebug (Demo.setup Demo.noCreate) "log.txt" Demo.world = r →
        (match r with | .ok _ _ => false | .error _ _ => true) = true := fun r hr => hr ▸ (by decide +kernel)
    exact absurd (this _ ha) (by simp)
  | error x w' =>
    have h1 := h (Demo.setup Demo.noCreate) (Demo.setup .calm) "log.txt" Demo.world w' x ha rfl
    have h2 : Demo.outcome (Program.solve (Demo.setup .calm) Demo.world) = (3, none, some true) := by decide +kernel
    have hu : ∀ e, ((Demo.setup .calm).m.evaluate ((Demo.setup .calm).m.setIteratives w'.model (Demo.setup .calm).c.guess)).2 ≠
        .error (.unusable e) := fun e => e.elim
    obtain ⟨y, w'', h3, -⟩ := C103_unusable _ rfl ha (Demo.setup .calm) w'.model hu
    rw [h2, show Program.solve (Demo.setup .calm) w' = .error y w'' from h3] at h1
    exact absurd h1 (by simp [Demo.outcome])

/-- The hypotheses can be met, without and with a log. -/
example : ∃ x w', activateDebug (Demo.setup Demo.noCreate) "log.txt" Demo.world = .error x w' := ⟨_, _, rfl⟩
example : ∃ x w', activateDebug (Demo.setup Demo.noCreate) "new.txt" { Demo.world with log := some "log.txt" } =
    .error x w' := ⟨_, _, rfl⟩

end Nrf
