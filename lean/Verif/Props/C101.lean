import Verif.Proofs.ProgramView
import Verif.Props.C44
import Verif.Spec.DemoProgram

/-!
# C101: what a panic leaves behind
-/

namespace Nrf
open Spec Program

section
variable {F : Type} [Scalar F] {n : Nat} {EI EU S : Type} (P : Setup F n EI EU S)

/-- **C101.** When `solve` panics, in the crate, in the user's model or writing the log, at whatever point: the debug
mode and the path of the log are kept, no other file is touched, and the log file is extended by complete entries and a
part of one more.  The entries begin with what the completed iterations have logged: `j` of them when the counter is
`j + 1` higher. -/
theorem C101_panic {w w' : World F n S} {x : Abort} (h : Program.solve P w = .error x w') :
    w'.log = w.log ∧ w'.debug = w.debug ∧
    ∃ done more t e, t <+: LogEntry.text P.num P.mat P.c P.fd P.its e ∧
      Appended w w' (logText P.num P.mat P.c P.fd P.its (done ++ more) ++ t) ∧
      (w.debug = false → w'.files = w.files) ∧
      (w'.iter = w.iter ∧ done = [] ∨
        ∃ j st1 s1, w'.iter = w.iter + j + 1 ∧
          Nrf.solve { P.c with params := { P.c.params with maxIter := w.iter + j } } P.m (solverOf w) w.model =
            .ok (st1, s1, .error .nonConvergence) ∧
          st1.iter = w.iter + j ∧ done = st1.log.getD []) := by
  have hempty : (solverOf w).log.getD [] = [] := by
    simp only [solverOf]
    cases w.log <;> rfl
  have key : ∀ {st : Solver F n}, Wreck P w.log w.files st x w' → LoopKeeps (solverOf w) st →
      w'.log = w.log ∧ w'.debug = w.debug ∧
      ∃ more t e, t <+: LogEntry.text P.num P.mat P.c P.fd P.its e ∧
        Appended w w' (logText P.num P.mat P.c P.fd P.its (st.log.getD [] ++ more) ++ t) ∧
        (w.debug = false → w'.files = w.files) ∧ w'.iter = st.iter := by
    rintro st ⟨h1, h2, h3, ⟨l, t, e, ⟨more, rfl⟩, h5, h6, h7⟩, -⟩ hk
    refine ⟨h1, h3.trans hk.1, more, t, e, h5, fun q => by rw [h6]; rfl, fun hd => ?_, h2⟩
    obtain ⟨h8, h9⟩ := h7 (hk.1.trans hd)
    rw [h6, h8, h9, hk.2.2.2 hd, hempty]
    exact filesWith_nil _ _
  have := solve_follows (P := P) (log0 := w.log) (files0 := w.files) (solverOf w) w.model (solverOf_log w) w.ops
  rw [worldOf_solverOf] at this
  unfold Holds at this
  rw [h] at this
  rcases this.1 with hw | ⟨j, st1, s1, hs, hi, hk, hw⟩
  · obtain ⟨h1, h2, more, t, e, h3, h4, h5, h6⟩ := key hw (.refl _)
    rw [hempty] at h4
    exact ⟨h1, h2, [], more, t, e, h3, h4, h5, .inl ⟨h6, rfl⟩⟩
  · obtain ⟨h1, h2, more, t, e, h3, h4, h5, h6⟩ := key hw hk
    exact ⟨h1, h2, _, more, t, e, h3, h4, h5, .inr ⟨j, st1, s1, h6.trans (congrArg (· + 1) hi), hs, hi, rfl⟩⟩

/-- With debug mode on, the log file left by a panic shows every completed iteration: the `k`-th state in it has the
number of the iteration and is the state of the model after `k` iterations. -/
theorem C101_recorded {w w' : World F n S} {x : Abort} {path : String} (hd : w.debug = true) (hl : w.log = some path)
    (h : Program.solve P w = .error x w') (hi : w'.iter ≠ w.iter) :
    ∃ j done more t, w'.iter = w.iter + j + 1 ∧
      w'.files path = (w.files path).map (· ++ (logText P.num P.mat P.c P.fd P.its (done ++ more) ++ t)) ∧
      (∃ e, t <+: LogEntry.text P.num P.mat P.c P.fd P.its e) ∧
      (readLog done).length = j + 1 ∧
      ∀ k, k ≤ j → ∃ stk sk rk,
        Nrf.solve { P.c with params := { P.c.params with maxIter := w.iter + k } } P.m (solverOf w) w.model =
          .ok (stk, sk, rk) ∧
        (readLog done)[k]? = some
          { iter := w.iter + k
            iteratives := P.m.getIteratives sk
            residuals := P.m.getResiduals sk
            errors := fun i => Scalar.abs (normalization ((P.m.getResiduals sk).left i)
              ((P.m.getResiduals sk).right i) (P.c.res.stop i)) } := by
  obtain ⟨-, -, done, more, t, e, h3, h4, -, h6⟩ := C101_panic P h
  rcases h6 with ⟨h6, -⟩ | ⟨j, st1, s1, h6, h7, h8, rfl⟩
  · exact absurd h6 hi
  have hl0 : (solverOf w).log = some [] := by simp [solverOf, hl]
  have hu : ∀ e, (P.m.evaluate (P.m.setIteratives w.model P.c.guess)).2 ≠ .error (.unusable e) := by
    intro e he
    unfold Nrf.solve at h7
    rcases hev : P.m.evaluate (P.m.setIteratives w.model P.c.guess) with ⟨s2, r2⟩
    rw [hev] at he
    simp only at he
    subst he
    simp only [hev] at h7
    cases h7
  obtain ⟨new, completed, g1, -, g3, g4, g5⟩ := C44_log { P.c with params := { P.c.params with maxIter := w.iter + j } } P.m (solverOf w) st1 w.model s1 [] _ hd hl0 hu h7
  have hj : completed = j := by
    rcases g3 with ⟨-, g3⟩ | ⟨⟨e, g3⟩ | ⟨e, g3⟩, -⟩
    · have : st1.iter = w.iter + completed := g3
      omega
    · cases g3
    · cases g3
  subst hj
  refine ⟨completed, new, more, t, h6, ?_, ⟨e, h3⟩, g4, g5⟩
  have := h4 path
  rw [if_pos hl, g1] at this
  exact this

end

open scoped Exact

/-- The user's model panics when it is evaluated at 17/12. -/
def Demo.trap : Env (AdapterState ℚ 1) :=
  { user := fun k s => if k = .evaluate ∧ s.inputs 0 = 17 / 12 then some s else none, io := fun _ => none }

/-- The eleventh write fails after 30 characters. -/
def Demo.full : Env (AdapterState ℚ 1) := { user := fun _ _ => none, io := fun k => if k = 10 then some 30 else none }

/-- A solver in debug mode. -/
def Demo.logging : World ℚ 1 (AdapterState ℚ 1) := { Demo.world with debug := true, log := some "log.txt" }

/-- A panic of the user's model in the second iteration. -/
example : Demo.outcome (Program.solve (Demo.setup Demo.trap) Demo.logging) = (2, some (.user .evaluate), none) := by
  decide +kernel

/-- A full disk in the first iteration. -/
example : Demo.outcome (Program.solve (Demo.setup Demo.full) Demo.logging) = (1, some .io, none) := by
  decide +kernel

end Nrf
