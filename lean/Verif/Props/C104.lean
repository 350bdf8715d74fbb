import Verif.Proofs.ProgramBlame
import Verif.Props.C101

/-!
# C104: every panic has a cause, and no failure is swallowed
-/

namespace Nrf
open Spec Program

section
variable {F : Type} [Scalar F] {n : Nat} {EI EU S : Type} (P : Setup F n EI EU S)

/-- **C104.** When `solve` returns, none of the file operations it has done has failed.  Without debug mode it has done
none; otherwise the log file was there. -/
theorem C104_returns {w w' : World F n S} {r : Except (SolverError EI EU) Unit} (h : Program.solve P w = .ok r w') :
    w.ops ≤ w'.ops ∧ (∀ k, w.ops ≤ k → k < w'.ops → P.env.io k = none) ∧
    (w.debug = false → w'.ops = w.ops) ∧
    (w'.ops ≠ w.ops → ∃ path, w.log = some path ∧ w.files path ≠ none) := by
  have := (good_solve (P := P) (I := fun _ _ => True)).run w trivial
  unfold Holds at this
  rw [h] at this
  exact ⟨this.ops, this.fine, fun hd => (this.quiet hd).1, this.found⟩

/-- A panic of a file operation: debug mode is on, and the log file is missing or the last operation, and only this
one, has failed. -/
theorem C104_io {w w' : World F n S} (h : Program.solve P w = .error .io w') :
    w.debug = true ∧ ∃ path, w.log = some path ∧
      (w.files path = none ∧ w'.ops = w.ops ∧ w'.files = w.files ∨
        w.files path ≠ none ∧ ∃ last, w.ops ≤ last ∧ w'.ops = last + 1 ∧ (P.env.io last).isSome ∧
          ∀ k, w.ops ≤ k → k < last → P.env.io k = none) := by
  have := (good_solve (P := P) (I := fun _ _ => True)).run w trivial
  unfold Holds at this
  rw [h] at this
  obtain ⟨w1, hs, hc⟩ := this
  generalize hx : Abort.io = x at hc
  cases hc with
  | code p => cases hx
  | user k s hu => cases hx
  | missing path hd hl hf =>
    have h1 : w'.ops = w.ops := by
      by_contra hne
      obtain ⟨path', h2, h3⟩ := hs.found hne
      rw [← hs.log, hl] at h2
      cases h2
      exact h3 ((hs.present path).1 hf)
    exact ⟨hs.debug ▸ hd, path, hs.log ▸ hl, .inl ⟨(hs.present path).1 hf, h1, hs.still h1⟩⟩
  | write path j files hd hl hf hj =>
    exact ⟨hs.debug ▸ hd, path, hs.log ▸ hl, .inr ⟨fun h1 => hf ((hs.present path).2 h1), w1.ops, hs.ops, rfl,
      by rw [hj]; rfl, hs.fine⟩⟩

/-- A panic of the user's model: the method has panicked with the model in some state, which it has left as it is found
afterwards, and no file operation has failed. -/
theorem C104_user {w w' : World F n S} {k : Method} (h : Program.solve P w = .error (.user k) w') :
    (∃ s, P.env.user k s = some w'.model) ∧ w.ops ≤ w'.ops ∧ ∀ k, w.ops ≤ k → k < w'.ops → P.env.io k = none := by
  have := (good_solve (P := P) (I := fun _ _ => True)).run w trivial
  unfold Holds at this
  rw [h] at this
  obtain ⟨w1, hs, hc⟩ := this
  generalize hx : Abort.user k = x at hc
  cases hc with
  | code p => cases hx
  | user k s hu =>
    cases hx
    exact ⟨⟨_, hu⟩, hs.ops, hs.fine⟩
  | missing path hd hl hf => cases hx
  | write path j files hd hl hf hj => cases hx

/-- A panic of the crate: no file operation has failed. -/
theorem C104_code {w w' : World F n S} {y : Panic} (h : Program.solve P w = .error (.code y) w') :
    w.ops ≤ w'.ops ∧ ∀ k, w.ops ≤ k → k < w'.ops → P.env.io k = none := by
  have := (good_solve (P := P) (I := fun _ _ => True)).run w trivial
  unfold Holds at this
  rw [h] at this
  obtain ⟨w1, hs, hc⟩ := this
  generalize hx : Abort.code y = x at hc
  cases hc with
  | code p => exact ⟨hs.ops, hs.fine⟩
  | user k s hu => cases hx
  | missing path hd hl hf => cases hx
  | write path j files hd hl hf hj => cases hx

/-- When the log file has been removed, `solve` in debug mode gives no result, unless the first evaluation was
unusable. -/
theorem C104_missing {w w' : World F n S} {path : String} (hd : w.debug = true) (hl : w.log = some path)
    (hf : w.files path = none) {r : Except (SolverError EI EU) Unit} (h : Program.solve P w = .ok r w') :
    ∃ e, r = .error (.modelInitialEvaluation e) := by
  have := solve_missing (P := P) hd hl hf
  unfold Holds at this
  rw [h] at this
  exact this

end

open scoped Exact

/-- The number of file operations done. -/
def Demo.operations {A : Type} : EStateM.Result Abort (World ℚ 1 (AdapterState ℚ 1)) A → Nat
  | .ok _ w => w.ops
  | .error _ w => w.ops

/-- The failing write of `Demo.full` is the eleventh, number 10.  Without it there are 34.  When the user's model panics
there have been 19. -/
example : Demo.operations (Program.solve (Demo.setup Demo.full) Demo.logging) = 11 ∧
    Demo.operations (Program.solve (Demo.setup .calm) Demo.logging) = 34 ∧
    Demo.operations (Program.solve (Demo.setup Demo.trap) Demo.logging) = 19 := by
  refine ⟨?_, ?_, ?_⟩ <;> decide +kernel

/-- A panic of the crate (debug mode without a log), and one for want of the log file. -/
example : Demo.outcome (Program.solve (Demo.setup .calm) { Demo.logging with log := none }) =
      (0, some (.code .logUnwrap), none) ∧
    Demo.outcome (Program.solve (Demo.setup .calm) { Demo.logging with log := some "gone.txt" }) =
      (0, some .io, none) := by
  constructor <;> decide +kernel

end Nrf
