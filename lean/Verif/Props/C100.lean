import Verif.Proofs.ProgramView
import Verif.Spec.DemoProgram

/-!
# C100: the program with its effects computes what the model computes
-/

namespace Nrf
open Spec Program

section
variable {F : Type} [Scalar F] {n : Nat} {EI EU S : Type} (P : Setup F n EI EU S)

/-- **C100.** Whatever the surroundings do: when `solve` returns, result, fields and model state are those of the
functional model, and the log file has been extended by the text of its log. -/
theorem C100_returns {w w' : World F n S} {r : Except (SolverError EI EU) Unit}
    (h : Program.solve P w = .ok r w') :
    ∃ st', Nrf.solve P.c P.m (solverOf w) w.model = .ok (st', w'.model, r) ∧ SameFields w' st' ∧ w'.log = w.log ∧
      Appended w w' (logText P.num P.mat P.c P.fd P.its (st'.log.getD [])) := by
  have := solve_follows (P := P) (log0 := w.log) (files0 := w.files) (solverOf w) w.model (solverOf_log w) w.ops
  rw [worldOf_solverOf] at this
  unfold Holds at this
  rw [h] at this
  obtain ⟨k', st', s', rfl, hk, hs⟩ := this
  refine ⟨st', hs, ⟨rfl, rfl, (solverOf_log w).trans hk.2.1.symm, rfl, rfl, rfl, rfl, rfl⟩, rfl, fun q => ?_⟩
  show filesWith w.log w.files _ q = _
  unfold filesWith
  rw [List.append_nil]
  rfl

/-- A panic of the crate is the one of the functional model. -/
theorem C100_panics {w w' : World F n S} {y : Panic} (h : Program.solve P w = .error (.code y) w') :
    Nrf.solve P.c P.m (solverOf w) w.model = .error y := by
  have := solve_follows (P := P) (log0 := w.log) (files0 := w.files) (solverOf w) w.model (solverOf_log w) w.ops
  rw [worldOf_solverOf] at this
  unfold Holds at this
  rw [h] at this
  exact this.2 y rfl

/-- When nothing fails around the program, the functional model says everything. -/
theorem C100_decides (hcalm : P.env = .calm) (w : World F n S) (hfile : ∀ q, w.log = some q → w.files q ≠ none) :
    match Nrf.solve P.c P.m (solverOf w) w.model with
    | .ok (st', s', r) => ∃ w', Program.solve P w = .ok r w' ∧ SameFields w' st' ∧ w'.model = s' ∧ w'.log = w.log ∧
        Appended w w' (logText P.num P.mat P.c P.fd P.its (st'.log.getD []))
    | .error y => ∃ w', Program.solve P w = .error (.code y) w' := by
  cases hp : Program.solve P w with
  | ok r w' =>
    obtain ⟨st', h1, h2, h3, h4⟩ := C100_returns P hp
    rw [h1]
    exact ⟨w', rfl, h2, rfl, h3, h4⟩
  | error x w' =>
    have := solve_follows (P := P) (log0 := w.log) (files0 := w.files) (solverOf w) w.model (solverOf_log w) w.ops
    rw [worldOf_solverOf] at this
    unfold Holds at this
    rw [hp] at this
    obtain ⟨hw, hy⟩ := this
    have hfine : Fine P w.log w.files := ⟨hcalm, hfile⟩
    obtain ⟨p, rfl⟩ : ∃ p, x = .code p := by
      rcases hw with hw | ⟨j, st1, s1, -, -, -, hw⟩
      · exact hw.2.2.2.2 hfine
      · exact hw.2.2.2.2 hfine
    rw [hy p rfl]
    exact ⟨w', rfl⟩

/-- Activating the debug mode and solving leaves a file holding exactly the text of the log, whatever the file held
before. -/
theorem C100_activated (hcalm : P.env = .calm) (w : World F n S) (path : String) :
    match Nrf.solve P.c P.m (solverOf w).activateDebug w.model with
    | .ok (st', s', r) => ∃ w', (do activateDebug P path; Program.solve P) w = .ok r w' ∧ SameFields w' st' ∧
        w'.model = s' ∧ w'.files path = some (logText P.num P.mat P.c P.fd P.its (st'.log.getD [])) ∧
        ∀ q ≠ path, w'.files q = w.files q
    | .error y => ∃ w', (do activateDebug P path; Program.solve P) w = .error (.code y) w' := by
  have hrun : ∀ p : Prog F n S (Except (SolverError EI EU) Unit), (do activateDebug P path; p) w =
      p (worldOf P (some path) (setFile w.files path []) (w.ops + 2) (solverOf w).activateDebug w.model []) := fun p => by
    simp only [bind, EStateM.bind, activateDebug_calm P hcalm path w]
  have hfine : Fine P (some path) (setFile w.files path []) := ⟨hcalm, fun q hq => by
    cases hq
    simp [setFile]⟩
  have := solve_follows (P := P) (log0 := some path) (files0 := setFile w.files path []) (solverOf w).activateDebug
    w.model rfl (w.ops + 2)
  rw [hrun]
  unfold Holds at this
  split at this
  · obtain ⟨k', st', s', rfl, hk, hs⟩ := this
    rename_i heq
    rw [hs]
    refine ⟨_, heq, ⟨rfl, rfl, hk.2.1.symm, rfl, rfl, rfl, rfl, rfl⟩, rfl, ?_, fun q hq => ?_⟩
    · show filesWith _ _ _ path = _
      unfold filesWith
      rw [if_pos rfl, List.append_nil]
      simp [setFile, textOf]
    · show filesWith _ _ _ q = _
      unfold filesWith
      rw [if_neg (by simpa using fun h' => hq h'.symm)]
      simp [setFile, hq]
  · rename_i x w' heq
    obtain ⟨hw, hy⟩ := this
    obtain ⟨p, rfl⟩ : ∃ p, x = .code p := by
      rcases hw with hw | ⟨j, st1, s1, -, -, -, hw⟩
      · exact hw.2.2.2.2 hfine
      · exact hw.2.2.2.2 hfine
    rw [hy p rfl]
    exact ⟨w', heq⟩

end

open scoped Exact

/-- Newton's method on `x² = 2`, debug mode on: three iterations are logged, the old contents of the file are lost. -/
example : (Demo.setup .calm).env = .calm ∧ Demo.world.files "log.txt" = some (lit "old") ∧
    Demo.outcome ((do activateDebug (Demo.setup .calm) "log.txt"; Program.solve (Demo.setup .calm)) Demo.world) =
      (3, none, some true) ∧
    (Demo.fileAfter ((do activateDebug (Demo.setup .calm) "log.txt"; Program.solve (Demo.setup .calm)) Demo.world)
      "log.txt").map (List.take 7) = some (lit "Runner ") :=
  ⟨rfl, rfl, by decide +kernel, by decide +kernel⟩

/-- Without a failure in the way, but with a log file which is missing: `C100_decides` needs its hypothesis. -/
example : Demo.outcome (Program.solve (Demo.setup .calm) { Demo.world with debug := true, log := some "gone" }) =
      (0, some .io, none) ∧
    Demo.kind (Nrf.solve (Demo.setup .calm).c (Demo.setup .calm).m
      (solverOf { Demo.world with debug := true, log := some "gone" }) Demo.start) = .ok :=
  ⟨by decide +kernel, by decide +kernel⟩

/-- The crate's own panic: debug mode without a log. -/
example : Demo.outcome (Program.solve (Demo.setup .calm) { Demo.world with debug := true }) =
      (0, some (.code .logUnwrap), none) := by decide +kernel

end Nrf
