import Verif.Model.LogInfo
import Verif.Props.C65

/-!
# C106: the log file with the feature `additional_log_info`
-/

namespace Nrf
open Spec

/-- The head has no line breaks in its values. -/
def Spec.PlainInfo (i : RunnerInfo) : Prop :=
  '\n' ∉ i.distro ∧ '\n' ∉ i.device ∧ '\n' ∉ i.user ∧ '\n' ∉ i.rustc ∧ '\n' ∉ i.utc ∧ '\n' ∉ i.local

/-- What a reader finds after a key: the rest of the first line which begins with it. -/
def Spec.lookUp (key : String) (t : List Char) : Option (List Char) := (cut '\n' t).findSome? (after key.toList)

/-- The lines of the head. -/
def headLines (i : RunnerInfo) : List (List Char) :=
  [lit "Runner informations", lit "===================", [], lit "OS: " ++ i.distro, lit "Host: " ++ i.device,
    lit "Username: " ++ i.user, lit "Rust version: " ++ i.rustc, lit "newton_rootfinder version: 0.11.0",
    lit "Simulation start:", lit "  - UTC:   " ++ i.utc, lit "  - Local: " ++ i.local, []]

theorem assemble (a b o h u r v w t x y o' h' u' r' x' y' : List Char) :
    a ++ ['\n'] ++ (b ++ ['\n', '\n']) ++ (o ++ o' ++ ['\n'] ++ h ++ h' ++ ['\n'] ++ u ++ u' ++ ['\n'] ++
      (r ++ r' ++ ['\n'])) ++ v ++ w ++ ['\n'] ++ (t ++ ['\n'] ++ x ++ x' ++ ['\n'] ++ y ++ y' ++ ['\n']) ++ ['\n'] =
    unl [a, b, [], o ++ o', h ++ h', u ++ u', r ++ r', v ++ w, t, x ++ x', y ++ y', []] := by
  simp [unl]

theorem headText_lines (i : RunnerInfo) : headText (some i) = unl (headLines i) :=
  assemble (lit "Runner informations") (lit "===================") (lit "OS: ") (lit "Host: ") (lit "Username: ")
    (lit "Rust version: ") (lit "newton_rootfinder version: ") (lit "0.11.0") (lit "Simulation start:")
    (lit "  - UTC:   ") (lit "  - Local: ") i.distro i.device i.user i.rustc i.utc i.local

theorem headLines_plain {i : RunnerInfo} (h : PlainInfo i) : ∀ l ∈ headLines i, '\n' ∉ l := by
  obtain ⟨h1, h2, h3, h4, h5, h6⟩ := h
  simp only [headLines, List.mem_cons, List.not_mem_nil, or_false, forall_eq_or_imp, forall_eq, List.mem_append, not_or]
  refine ⟨by decide, by decide, by simp, ⟨by decide, h1⟩, ⟨by decide, h2⟩, ⟨by decide, h3⟩, ⟨by decide, h4⟩, by decide,
    by decide, ⟨by decide, h5⟩, ⟨by decide, h6⟩, by simp⟩

theorem headLines_idle (i : RunnerInfo) : ∀ l ∈ headLines i, Idle l := by
  have key : ∀ (a : Char) t u, a ≠ 'I' → a ≠ 'D' → a ≠ 'M' → a ≠ '|' → Idle ((a :: t) ++ u) := by
    intro a t u h1 h2 h3 h4
    exact idle_head (by simpa using h1) (by simpa using h2) (by simpa using h3) (by simpa using h4)
  simp only [headLines, List.mem_cons, List.not_mem_nil, or_false, forall_eq_or_imp, forall_eq]
  refine ⟨.of (by decide +kernel), .of (by decide +kernel), idle_nil, key 'O' _ _ ?_ ?_ ?_ ?_, key 'H' _ _ ?_ ?_ ?_ ?_,
    key 'U' _ _ ?_ ?_ ?_ ?_, key 'R' _ _ ?_ ?_ ?_ ?_, .of (by decide +kernel), .of (by decide +kernel),
    key ' ' _ _ ?_ ?_ ?_ ?_, key ' ' _ _ ?_ ?_ ?_ ?_, idle_nil⟩ <;> decide

section
variable {F : Type} [Scalar F] {n : Nat}

/-- Without the feature the head is the header of the other theorems about the log. -/
theorem C106_off (num : F → List Char) (mat : Mat F n → List Char) (c : Config F n) (fd : Bool)
    (its : List (List Char)) :
    headText none = LogEntry.text num mat c fd its (.header : LogEntry F n) := rfl

/-- **C106.** With the feature the file can be read back as well: when no value in the head contains a line break,
reading gives every iteration, damping and refusal, and nothing else. -/
theorem C106_read_back {num : F → List Char} {mat : Mat F n → List Char} (hnum : PlainNum num) (hmat : MatrixLines mat)
    (c : Config F n) (fd : Bool) {its : List (List Char)} (hits : ∀ t ∈ its, '\n' ∉ t) {i : RunnerInfo} (hi : PlainInfo i)
    (l : List (LogEntry F n)) :
    readText (headText (some i) ++ logText num mat c fd its l) = l.filterMap (Spec.event num) := by
  rw [← C65_read_back hnum hmat c fd hits l, headText_lines]
  unfold readText
  rw [cut_unl (headLines_plain hi), List.foldl_append, foldl_idle (headLines_idle i)]

/-- The values in the head can be looked up in the file. -/
theorem C106_values (i : RunnerInfo) (hi : PlainInfo i) (rest : List Char) :
    lookUp "OS: " (headText (some i) ++ rest) = some i.distro ∧
    lookUp "Host: " (headText (some i) ++ rest) = some i.device ∧
    lookUp "Username: " (headText (some i) ++ rest) = some i.user ∧
    lookUp "Rust version: " (headText (some i) ++ rest) = some i.rustc ∧
    lookUp "newton_rootfinder version: " (headText (some i) ++ rest) = some "0.11.0".toList ∧
    lookUp "  - UTC:   " (headText (some i) ++ rest) = some i.utc ∧
    lookUp "  - Local: " (headText (some i) ++ rest) = some i.local := by
  unfold lookUp
  rw [headText_lines, cut_unl (headLines_plain hi)]
  refine ⟨?_, ?_, ?_, ?_, ?_, ?_, ?_⟩ <;> simp [headLines, after, lit, List.findSome?]

/-- The head is finished before the first record: everything up to the iterations of the log of an activated solver. -/
theorem C106_same_events {num : F → List Char} {mat : Mat F n → List Char} (hnum : PlainNum num) (hmat : MatrixLines mat)
    (c : Config F n) (fd : Bool) {its : List (List Char)} (hits : ∀ t ∈ its, '\n' ∉ t) {i : RunnerInfo} (hi : PlainInfo i)
    (l : List (LogEntry F n)) :
    readText (headText (some i) ++ logText num mat c fd its l) =
      readText (logText num mat c fd its (.header :: l)) := by
  rw [C106_read_back hnum hmat c fd hits hi, C65_read_back hnum hmat c fd hits]
  rfl

end

/-- A runner. -/
def Demo.runner : RunnerInfo :=
  { distro := lit "Debian 12", device := lit "box", user := lit "me", rustc := lit "1.70.0",
    utc := lit "Tue, 17 Nov 2026 01:00:00 +0000", «local» := lit "Tue, 17 Nov 2026 02:00:00 +0100" }

example : PlainInfo Demo.runner := by
  refine ⟨?_, ?_, ?_, ?_, ?_, ?_⟩ <;> decide

/-- A name of the device with a line break forges an iteration: the values are written as they are. -/
theorem C106_forged :
    readText (headText (some { Demo.runner with device := lit "box\nIteration: 7" })) =
      [.iteration (lit "7") [] []] := by
  decide +kernel

end Nrf
