import Verif.Proofs.CutText
import Verif.Props.C101

/-!
# C102: a log which breaks off can be read
-/

namespace Nrf
open Spec Program

section
variable {F : Type} [Scalar F] {n : Nat}

/-- **C102.** The complete lines of a log which breaks off in an entry: everything before is read, and of the last
event nothing or a part, with nothing wrong in it. -/
theorem C102_breaks_off {num : F → List Char} {mat : Mat F n → List Char} (hnum : PlainNum num) (hmat : MatrixLines mat)
    (c : Config F n) (fd : Bool) {its : List (List Char)} (hits : ∀ t ∈ its, '\n' ∉ t) (l : List (LogEntry F n))
    (e : LogEntry F n) (t : List Char) (ht : t <+: e.text num mat c fd its) :
    ∃ last, readText (wholeLines (logText num mat c fd its l ++ t)) = l.filterMap (Spec.event num) ++ last ∧
      (last = [] ∨ ∃ ev0 ev, Spec.event num e = some ev ∧ last = [ev0] ∧ PartOf ev0 ev) := by
  obtain ⟨a, a1, a2, a3⟩ := log_lines hnum hmat c fd hits l
  obtain ⟨b, b1, b2, b3⟩ := entry_along hnum hmat c fd hits e
  rw [b1] at ht
  obtain ⟨d, u, d1, rfl, d3⟩ := prefix_unl b2 ht
  have hplain : ∀ m ∈ a ++ d, '\n' ∉ m := fun m hm => by
    rcases List.mem_append.1 hm with hm | hm
    · exact a2 m hm
    · exact b2 m (d1.subset hm)
  have hend : ∀ st : List TextEvent × Bool, (readLine st []).1 = st.1 := by
    rintro ⟨s, b⟩
    cases b
    · rw [idle_nil]
    · rw [readLine_end]
  have hread : readText (wholeLines (logText num mat c fd its l ++ (unl d ++ u))) =
      (d.foldl readLine ((l.filterMap (Spec.event num)).reverse ++ [], false)).1.reverse := by
    rw [a1, ← List.append_assoc, ← unl_append, wholeLines_unl _ d3]
    unfold readText
    have := cut_unl hplain []
    rw [List.append_nil] at this
    rw [this, cut_plain (by simp), List.foldl_append, List.foldl_cons, List.foldl_nil, hend, List.foldl_append, a3]
  rw [hread]
  rcases b3 ((l.filterMap (Spec.event num)).reverse ++ []) d d1 with h | ⟨ev0, ev, h1, h2, h3⟩
  · exact ⟨[], by rw [h]; simp, .inl rfl⟩
  · exact ⟨[ev0], by rw [h2]; simp, .inr ⟨ev0, ev, h1, rfl, h3⟩⟩

/-- Whatever first part is left of a log, the complete lines of it read as the events of the first entries, and nothing
or a part of the next one. -/
theorem C102_first_part {num : F → List Char} {mat : Mat F n → List Char} (hnum : PlainNum num) (hmat : MatrixLines mat)
    (c : Config F n) (fd : Bool) {its : List (List Char)} (hits : ∀ t ∈ its, '\n' ∉ t) (l : List (LogEntry F n))
    (t : List Char) (ht : t <+: logText num mat c fd its l) :
    ∃ first last, first <+: l ∧ readText (wholeLines t) = first.filterMap (Spec.event num) ++ last ∧
      (last = [] ∨ ∃ e ev0 ev, first ++ [e] <+: l ∧ Spec.event num e = some ev ∧ last = [ev0] ∧ PartOf ev0 ev) := by
  have key : ∀ (l l0 : List (LogEntry F n)) (t : List Char), t <+: logText num mat c fd its l →
      ∃ first last, first <+: l0 ++ l ∧
      readText (wholeLines (logText num mat c fd its l0 ++ t)) = first.filterMap (Spec.event num) ++ last ∧
      (last = [] ∨ ∃ e ev0 ev, first ++ [e] <+: l0 ++ l ∧ Spec.event num e = some ev ∧ last = [ev0] ∧ PartOf ev0 ev) := by
    intro l
    induction l with
    | nil =>
      intro l0 t ht
      rw [List.prefix_nil.1 (show t <+: [] from ht)]
      obtain ⟨last, h1, h2⟩ := C102_breaks_off hnum hmat c fd hits l0 .refused [] List.nil_prefix
      obtain ⟨a, a1, a2, a3⟩ := log_lines hnum hmat c fd hits l0
      refine ⟨l0, [], by simp, ?_, .inl rfl⟩
      rw [a1, wholeLines_unl a (by simp)]
      unfold readText
      have := cut_unl a2 []
      rw [List.append_nil] at this
      rw [this, cut_plain (by simp), List.foldl_append, a3, List.foldl_cons, List.foldl_nil, idle_nil]
      simp
    | cons e l ih =>
      intro l0 t ht
      have hcons : logText num mat c fd its (e :: l) = e.text num mat c fd its ++ logText num mat c fd its l :=
        List.flatMap_cons
      rw [hcons] at ht
      rcases List.prefix_or_prefix_of_prefix ht (List.prefix_append _ _) with h1 | ⟨t1, rfl⟩
      · obtain ⟨last, h2, h3⟩ := C102_breaks_off hnum hmat c fd hits l0 e t h1
        refine ⟨l0, last, List.prefix_append _ _, h2, ?_⟩
        rcases h3 with h3 | ⟨ev0, ev, h3, h4, h5⟩
        · exact .inl h3
        · exact .inr ⟨e, ev0, ev, ⟨l, by simp⟩, h3, h4, h5⟩
      · rw [List.prefix_append_right_inj] at ht
        have := ih (l0 ++ [e]) t1 ht
        rw [show logText num mat c fd its (l0 ++ [e]) = logText num mat c fd its l0 ++ e.text num mat c fd its by
          simp [logText], List.append_assoc, List.append_assoc] at this
        exact this
  exact key l [] t ht

variable {EI EU S : Type} (P : Setup F n EI EU S)

/-- After a panic of whatever kind, the log file can be read: what was in it, what the completed iterations have
logged, what the iteration which failed had completely logged, and nothing or a part of one event more. -/
theorem C102_after_panic (hnum : PlainNum P.num) (hmat : MatrixLines P.mat) (hits : ∀ t ∈ P.its, '\n' ∉ t)
    {w w' : World F n S} {x : Abort} {path : String} {old : List (LogEntry F n)} (hl : w.log = some path)
    (hold : w.files path = some (logText P.num P.mat P.c P.fd P.its old)) (h : Program.solve P w = .error x w') :
    ∃ (done more : List (LogEntry F n)) (last : List TextEvent) (text : List Char), w'.files path = some text ∧
      readText (wholeLines text) = old.filterMap (Spec.event P.num) ++ done.filterMap (Spec.event P.num) ++
        more.filterMap (Spec.event P.num) ++ last ∧
      (last = [] ∨ ∃ (e : LogEntry F n) (ev0 ev : TextEvent), Spec.event P.num e = some ev ∧ last = [ev0] ∧ PartOf ev0 ev) ∧
      (w'.iter = w.iter ∧ done = [] ∨
        ∃ j st1 s1, w'.iter = w.iter + j + 1 ∧
          Nrf.solve { P.c with params := { P.c.params with maxIter := w.iter + j } } P.m (solverOf w) w.model =
            .ok (st1, s1, .error .nonConvergence) ∧
          st1.iter = w.iter + j ∧ done = st1.log.getD []) := by
  obtain ⟨-, -, done, more, t, e, h3, h4, -, h6⟩ := C101_panic P h
  have h7 := h4 path
  rw [if_pos hl, hold] at h7
  have h8 : logText P.num P.mat P.c P.fd P.its old ++ (logText P.num P.mat P.c P.fd P.its (done ++ more) ++ t) =
      logText P.num P.mat P.c P.fd P.its (old ++ (done ++ more)) ++ t := by simp [logText]
  rw [Option.map_some, h8] at h7
  obtain ⟨last, h9, h10⟩ := C102_breaks_off hnum hmat P.c P.fd hits (old ++ (done ++ more)) e t h3
  refine ⟨done, more, last, _, h7, ?_, ?_, h6⟩
  · rw [h9]
    simp
  · rcases h10 with h10 | ⟨ev0, ev, h10⟩
    · exact .inl h10
    · exact .inr ⟨e, ev0, ev, h10⟩

end

open scoped Exact

/-- The write of the row of iteration 1 fails after nine characters. -/
def Demo.broken : Env (AdapterState ℚ 1) := { user := fun _ _ => none, io := fun k => if k = 16 then some 9 else none }

/-- A solver in debug mode, its log file empty. -/
def Demo.empty : World ℚ 1 (AdapterState ℚ 1) := { Demo.logging with files := fun q => if q = "log.txt" then some [] else none }

/-- The table of iteration 1 breaks off: iteration 0 is read completely, of iteration 1 the number and the error. -/
example : Demo.outcome (Program.solve (Demo.setup Demo.broken) Demo.empty) = (1, some .io, none) ∧
    ((Demo.fileAfter (Program.solve (Demo.setup Demo.broken) Demo.empty) "log.txt").map fun t => readText (wholeLines t)) =
      some [.iteration (lit "0") (lit "2/1") [⟨lit "0", lit "2/1", lit "2/1", lit "0/1", lit "2/1"⟩],
        .iteration (lit "1") (lit "1/4") []] :=
  ⟨by decide +kernel, by decide +kernel⟩

example : PlainNum Demo.ratText ∧ MatrixLines Demo.matText ∧ ∀ t ∈ (Demo.setup Demo.broken).its, '\n' ∉ t :=
  ⟨Demo.ratText_plain, Demo.matText_lines, by decide +kernel⟩

end Nrf
