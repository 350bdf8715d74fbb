import Verif.Proofs.EntryText
import Verif.Spec.Demo
import Verif.Spec.ReadLog
import Mathlib.Data.Rat.Defs

set_option linter.unusedSectionVars false

/-!
# C65: the log file can be read back
-/

namespace Nrf
open Spec

section
variable {F : Type} [Scalar F] {n : Nat}

/-- **C65.** Whatever a solver has logged, reading the file gives back, in order, every iteration and every damping
with its number, largest error and all rows, and every refusal. -/
theorem C65_read_back {num : F → List Char} {mat : Mat F n → List Char} (hnum : PlainNum num) (hmat : MatrixLines mat)
    (c : Config F n) (fd : Bool) {its : List (List Char)} (hits : ∀ t ∈ its, '\n' ∉ t) (l : List (LogEntry F n)) :
    readText (logText num mat c fd its l) = l.filterMap (Spec.event num) := by
  have key : ∀ (l : List (LogEntry F n)) s, (cut '\n' (logText num mat c fd its l)).foldl readLine (s, false) =
      ((l.filterMap (Spec.event num)).reverse ++ s, false) := by
    intro l
    induction l with
    | nil =>
      intro s
      rw [show logText num mat c fd its [] = [] from rfl, cut_plain (by simp)]
      exact foldl_idle (ls := [[]]) (fun l hl => (List.mem_singleton.1 hl) ▸ idle_nil) s
    | cons en l ih =>
      intro s
      obtain ⟨ls, h1, h2, h3⟩ := entry_read hnum hmat c fd hits en
      rw [show logText num mat c fd its (en :: l) = en.text num mat c fd its ++ logText num mat c fd its l from
        List.flatMap_cons, h1, cut_unl h2, List.foldl_append, h3, ih]
      cases h : Spec.event num en with
      | none => rw [List.filterMap_cons_none h]; rfl
      | some ev => rw [List.filterMap_cons_some h]; simp
  unfold readText
  rw [key]
  simp

/-- When different numbers have different texts, two logs with the same file contents have recorded the same
iterations: the same numbers of iterations, iteratives, residuals, errors, dampings and refusals. -/
theorem C65_determines {num : F → List Char} {mat : Mat F n → List Char} (hnum : PlainNum num) (hmat : MatrixLines mat)
    (hinj : Function.Injective num) (c c' : Config F n) (fd fd' : Bool) {its its' : List (List Char)}
    (hits : ∀ t ∈ its, '\n' ∉ t) (hits' : ∀ t ∈ its', '\n' ∉ t) (l l' : List (LogEntry F n))
    (h : logText num mat c fd its l = logText num mat c' fd' its' l') :
    l.filter Spec.telling = l'.filter Spec.telling := by
  have hev : l.filterMap (Spec.event num) = l'.filterMap (Spec.event num) := by
    rw [← C65_read_back hnum hmat c fd hits, ← C65_read_back hnum hmat c' fd' hits', h]
  have hrows : ∀ {x x' : Vec F n} {r r' : ResidualsValues F n} {e e' : Vec F n},
      Spec.rows num x r e = Spec.rows num x' r' e' → x = x' ∧ r = r' ∧ e = e' := by
    intro x x' r r' e e' h
    have h2 : ∀ i, x i = x' i ∧ r.left i = r'.left i ∧ r.right i = r'.right i ∧ e i = e' i := fun i => by
      have := List.map_inj_left.1 h i (List.mem_finRange i)
      simp only [TextRow.mk.injEq] at this
      exact ⟨hinj this.2.1, hinj this.2.2.1, hinj this.2.2.2.1, hinj this.2.2.2.2⟩
    refine ⟨funext fun i => (h2 i).1, ?_, funext fun i => (h2 i).2.2.2⟩
    obtain ⟨a, b⟩ := r
    obtain ⟨a', b'⟩ := r'
    congr 1
    · exact funext fun i => (h2 i).2.1
    · exact funext fun i => (h2 i).2.2.1
  have one : ∀ a b : LogEntry F n, Spec.telling a = true → Spec.telling b = true → Spec.event num a = Spec.event num b → a = b := by
    intro a b ha hb hab
    clear hev h hits hits'
    cases a <;> cases b <;>
      simp only [Spec.telling, Spec.event, Bool.false_eq_true, Option.some.injEq, TextEvent.iteration.injEq,
        TextEvent.damping.injEq, reduceCtorEq, LogEntry.iteration.injEq, LogEntry.damping.injEq] at ha hb hab ⊢
    · obtain ⟨h1, -, h3⟩ := hab
      exact ⟨natText_injective h1, hrows h3⟩
    · exact hrows hab.2
  exact filter_of_filterMap (fun a => by cases a <;> rfl) one hev

/-- In particular the numbered states read in the logs are the same. -/
theorem C65_states {num : F → List Char} {mat : Mat F n → List Char} (hnum : PlainNum num) (hmat : MatrixLines mat)
    (hinj : Function.Injective num) (c c' : Config F n) (fd fd' : Bool) {its its' : List (List Char)}
    (hits : ∀ t ∈ its, '\n' ∉ t) (hits' : ∀ t ∈ its', '\n' ∉ t) (l l' : List (LogEntry F n))
    (h : logText num mat c fd its l = logText num mat c' fd' its' l') : readLog l = readLog l' := by
  have key : ∀ (l : List (LogEntry F n)) acc, l.foldl readEntry acc = (l.filter Spec.telling).foldl readEntry acc := by
    intro l
    induction l with
    | nil => intro acc; rfl
    | cons a l ih =>
      intro acc
      cases a <;> simp only [List.foldl_cons, List.filter_cons, Spec.telling, readEntry, if_true, Bool.false_eq_true,
        if_false, ih]
  unfold readLog
  rw [key l, key l', C65_determines hnum hmat hinj c c' fd fd' hits hits' l l' h]

end

/-- The texts of the iteratives, with and without finite differences, are single lines. -/
theorem C65_iteratives_one_line {F : Type} {num : F → List Char} (hnum : PlainNum num) :
    (∀ p : IterativeParams F, '\n' ∉ p.text num) ∧ ∀ p : IterativeParamsFD F, '\n' ∉ p.text num := by
  have h1 : ∀ p : IterativeParams F, '\n' ∉ p.text num := fun p => by
    unfold IterativeParams.text
    simp only [List.mem_append, mem_pad (show '\n' ≠ ' ' by decide), (hnum _).2.2.2]
    decide
  refine ⟨h1, fun p => ?_⟩
  have h2 : '\n' ∉ p.perturbationMethod.text := by cases p.perturbationMethod <;> decide
  unfold IterativeParamsFD.text
  simp only [List.mem_append, mem_pad (show '\n' ≠ ' ' by decide), (hnum _).2.2.2, h1, h2]
  decide

/-- A way to write fractions. -/
def Demo.ratText (q : ℚ) : List Char :=
  (if q.num < 0 then ['-'] else []) ++ natText q.num.natAbs ++ '/' :: natText q.den

/-- A way to write matrices of size one. -/
def Demo.matText (m : Mat ℚ 1) : List Char := lit "\n  ┌   ┐\n" ++ lit "  │ " ++ Demo.ratText (m 0 0) ++ lit " │\n  └   ┘\n\n"

theorem Demo.ratText_plain : PlainNum Demo.ratText := fun q => by
  have h := natText_plain q.num.natAbs
  have h' := natText_plain q.den
  unfold Demo.ratText Plain
  split <;> simp [h.1, h.2.1, h.2.2.1, h.2.2.2, h'.1, h'.2.1, h'.2.2.1, h'.2.2.2]

theorem Demo.ratText_injective : Function.Injective Demo.ratText := fun a b h => by
  have slash : ∀ k, '/' ∉ natText k := fun k h => absurd (natText_digit h) (by decide)
  have minus : ∀ k, '-' ∉ natText k := fun k h => absurd (natText_digit h) (by decide)
  have hs : ∀ q : ℚ, '/' ∉ (if q.num < 0 then ['-'] else []) ++ natText q.num.natAbs := fun q => by
    split <;> simp [slash]
  have hc : ∀ q : ℚ, cut '/' (Demo.ratText q) = [(if q.num < 0 then ['-'] else []) ++ natText q.num.natAbs, natText q.den] :=
    fun q => by unfold Demo.ratText; rw [cut_append _ (hs q), cut_plain (slash _)]
  have h1 := congrArg (cut '/') h
  rw [hc, hc] at h1
  simp only [List.cons.injEq, and_true] at h1
  have hden := natText_injective h1.2
  have hnum : a.num = b.num := by
    have h2 := h1.1
    split at h2 <;> split at h2
    · have := natText_injective (List.append_cancel_left h2)
      omega
    · exact absurd (h2 ▸ (by simp) : '-' ∈ [] ++ natText b.num.natAbs) (by simpa using minus _)
    · exact absurd (h2 ▸ (by simp) : '-' ∈ [] ++ natText a.num.natAbs) (by simpa using minus _)
    · have := natText_injective (List.append_cancel_left h2)
      omega
  exact Rat.ext hnum hden

theorem Demo.matText_lines : MatrixLines Demo.matText := fun m => by
  refine ⟨[[], lit "  ┌   ┐", lit "  │ " ++ Demo.ratText (m 0 0) ++ lit " │", lit "  └   ┘", []], ?_, ?_⟩
  · unfold Demo.matText
    rw [show lit "\n  ┌   ┐\n" = '\n' :: (lit "  ┌   ┐" ++ ['\n']) from rfl,
      show lit " │\n  └   ┘\n\n" = lit " │" ++ '\n' :: (lit "  └   ┘" ++ ['\n', '\n']) from rfl]
    simp only [List.flatMap_cons, List.flatMap_nil, List.append_assoc, List.nil_append, List.cons_append,
      List.append_nil]
  · intro l hl
    simp only [List.mem_cons, List.not_mem_nil, or_false] at hl
    rcases hl with hl | hl | hl | hl | hl <;> rw [hl]
    · decide
    · decide
    · have hh : (lit "  │ " ++ Demo.ratText (m 0 0) ++ lit " │").head? = some ' ' := rfl
      refine ⟨?_, by rw [hh]; decide⟩
      simp only [List.mem_append, (Demo.ratText_plain _).2.2.2]
      decide
    · decide
    · decide

open scoped Exact in
/-- A file with every kind of entry, as read. -/
example : readText (logText Demo.ratText Demo.matText (Demo.cfg .NewtonRaphson true 50 (1 / 100) 1) true
    [Demo.wide.text Demo.ratText] [.header, .parameters, .iteration 0 (fun _ => 1) ⟨fun _ => 1, fun _ => 2⟩ (fun _ => -1),
      .damping (fun _ => 3 / 2) ⟨fun _ => 9 / 4, fun _ => 2⟩ (fun _ => 1 / 4), .refused,
      .jacobian { JacobianMatrix.new with matrix := some fun _ _ => 3 }]) =
    [.iteration ['0'] (lit "1/1") [⟨['0'], lit "1/1", lit "1/1", lit "2/1", lit "-1/1"⟩],
      .damping (lit "1/4") [⟨['0'], lit "3/2", lit "9/4", lit "2/1", lit "1/4"⟩], .refused] := by
  rw [C65_read_back Demo.ratText_plain Demo.matText_lines _ _ (fun t ht => by
    rw [List.mem_singleton.1 ht]; exact (C65_iteratives_one_line Demo.ratText_plain).2 _)]
  decide +kernel

/-- The hypotheses on the texts of numbers and matrices can be met together. -/
example : PlainNum Demo.ratText ∧ Function.Injective Demo.ratText ∧ MatrixLines Demo.matText :=
  ⟨Demo.ratText_plain, Demo.ratText_injective, Demo.matText_lines⟩

end Nrf
