import Verif.Proofs.ReadText
import Verif.Model.Display
import Verif.Spec.ReadMatrix

/-!
# The text of a matrix
-/

namespace Nrf
open Spec

theorem cut_append_sep (c : Char) : ∀ a b : List Char, cut c (a ++ c :: b) = cut c a ++ cut c b
  | [], b => by simp [cut]
  | x :: a, b => by
    have ih := cut_append_sep c a b
    rw [List.cons_append]
    have e : ∀ t, cut c (x :: t) = if x = c then [] :: cut c t else match cut c t with
      | [] => [[x]]
      | l :: ls => (x :: l) :: ls := fun t => rfl
    rw [e, e]
    split_ifs with h
    · rw [ih]; rfl
    · rw [ih]
      have hne := cut_ne_nil c a
      cases hc : cut c a with
      | nil => exact absurd hc hne
      | cons l ls => rfl

theorem words_sep (a b : List Char) : words (a ++ ' ' :: b) = words a ++ words b := by
  unfold words
  rw [cut_append_sep, List.filter_append]

theorem words_nil : words [] = [] := by decide

theorem words_spaces (k : Nat) (t : List Char) : words (List.replicate k ' ' ++ t) = words t := by
  induction k with
  | zero => rfl
  | succ k ih =>
    rw [List.replicate_succ, List.cons_append, ← List.nil_append (' ' :: _), words_sep, words_nil, List.nil_append, ih]

theorem words_plain {t : List Char} (h : ' ' ∉ t) (h0 : t ≠ []) : words t = [t] := by
  unfold words
  rw [cut_plain h]
  simp [h0]

theorem words_row {w : Nat} {ts : List (List Char)} (h : ∀ t ∈ ts, ' ' ∉ t ∧ t ≠ []) (a b : List Char) :
    words (a ++ (ts.flatMap fun t => lit " " ++ padLeft w t) ++ ' ' :: b) = words a ++ ts ++ words b := by
  induction ts generalizing a with
  | nil => rw [List.flatMap_nil, List.append_nil, words_sep, List.append_nil]
  | cons t ts ih =>
    have ht := h t (by simp)
    have hts : ∀ t ∈ ts, ' ' ∉ t ∧ t ≠ [] := fun u hu => h u (List.mem_cons_of_mem _ hu)
    rw [List.flatMap_cons, show a ++ ((lit " " ++ padLeft w t) ++ (ts.flatMap fun t => lit " " ++ padLeft w t)) ++ ' ' :: b =
      a ++ ' ' :: (padLeft w t ++ (ts.flatMap fun t => lit " " ++ padLeft w t) ++ ' ' :: b) by
        simp [show lit " " = [' '] from rfl], words_sep, ih hts]
    have : words (padLeft w t) = [t] := by
      unfold padLeft
      rw [words_spaces, words_plain ht.1 ht.2]
    rw [this]
    simp

/-- What the texts of the entries must not contain. -/
def EntryTexts {F : Type} (num : F → List Char) : Prop :=
  ∀ x, ' ' ∉ num x ∧ '\n' ∉ num x ∧ '│' ∉ num x ∧ num x ≠ []

section
variable {F : Type} {n : Nat} {num : F → List Char}

/-- The lines of the text of a matrix. -/
def matrixLines (num : F → List Char) (A : Mat F n) : List (List Char) :=
  let entries := (List.finRange n).map fun i => (List.finRange n).map fun j => num (A i j)
  let width := (entries.flatten.map List.length).foldl max 0
  let rule := List.replicate ((width + 1) * n - 1) ' '
  [[], lit "  ┌ " ++ rule ++ lit " ┐"] ++
    (entries.map fun row => lit "  │" ++ (row.flatMap fun t => lit " " ++ padLeft width t) ++ lit " │") ++
    [lit "  └ " ++ rule ++ lit " ┘", []]

theorem matrixText_lines (hn : n ≠ 0) (A : Mat F n) : matrixText num A = unl (matrixLines num A) := by
  unfold matrixText matrixLines
  rw [if_neg hn]
  simp only [unl_append, unl_cons, unl_nil]
  rw [show lit " ┐\n" = lit " ┐" ++ ['\n'] from rfl, show lit " ┘\n" = lit " ┘" ++ ['\n'] from rfl,
    show lit " │\n" = lit " │" ++ ['\n'] from rfl, show lit "\n" = ['\n'] from rfl]
  have hm : ∀ (w : Nat) (es : List (List (List Char))),
      (es.flatMap fun row => lit "  │" ++ (row.flatMap fun t => lit " " ++ padLeft w t) ++ (lit " │" ++ ['\n'])) =
      unl (es.map fun row => lit "  │" ++ (row.flatMap fun t => lit " " ++ padLeft w t) ++ lit " │") := by
    intro w es
    induction es with
    | nil => rfl
    | cons r es ih => rw [List.flatMap_cons, ih, List.map_cons, unl_cons]; simp
  rw [hm]
  simp

theorem matrixLines_plain (hnum : EntryTexts num) (A : Mat F n) : ∀ l ∈ matrixLines num A, '\n' ∉ l := by
  have hr : ∀ k, '\n' ∉ List.replicate k ' ' := fun k h => absurd (List.eq_of_mem_replicate h) (by decide)
  intro l hl
  unfold matrixLines at hl
  simp only [List.mem_append, List.mem_cons, List.not_mem_nil, or_false, List.mem_map] at hl
  rcases hl with ((rfl | rfl) | ⟨row, ⟨i, -, rfl⟩, rfl⟩) | rfl | rfl
  · simp
  · simp only [List.mem_append, hr, or_false]; decide
  · simp only [List.mem_append, List.mem_flatMap, List.mem_map, mem_padLeft (show '\n' ≠ ' ' by decide)]
    rintro ((h | ⟨t, ⟨j, -, rfl⟩, h | h⟩) | h)
    · revert h; decide
    · revert h; decide
    · exact (hnum _).2.1 h
    · revert h; decide
  · simp only [List.mem_append, hr, or_false]; decide
  · simp

theorem matrixText_matrixLines (hnum : EntryTexts num) (hn : n ≠ 0) : MatrixLines (matrixText (n := n) num) := by
  intro A
  refine ⟨matrixLines num A, matrixText_lines hn A, fun l hl => ⟨matrixLines_plain hnum A l hl, ?_⟩⟩
  unfold matrixLines at hl
  simp only [List.mem_append, List.mem_cons, List.not_mem_nil, or_false, List.mem_map] at hl
  rcases hl with ((rfl | rfl) | ⟨row, -, rfl⟩) | rfl | rfl
  · simp
  · rw [show (lit "  ┌ ") = ' ' :: lit " ┌ " from rfl]; simp
  · rw [show (lit "  │") = ' ' :: lit " │" from rfl]; simp
  · rw [show (lit "  └ ") = ' ' :: lit " └ " from rfl]; simp
  · simp

/-- Reading the text of a matrix gives the texts of its entries. -/
theorem readMatrix_text (hnum : EntryTexts num) (A : Mat F n) :
    readMatrix (matrixText num A) = (List.finRange n).map fun i => (List.finRange n).map fun j => num (A i j) := by
  rcases Nat.eq_zero_or_pos n with rfl | hn
  · rfl
  rw [matrixText_lines (by omega)]
  unfold readMatrix
  have hc := cut_unl (matrixLines_plain hnum A) []
  rw [List.append_nil] at hc
  rw [hc, show cut '\n' [] = [[]] from rfl]
  unfold matrixLines
  simp only [List.filter_append]
  have h1 : ∀ r : List Char, (lit "  │").isPrefixOf (lit "  ┌ " ++ r) = false := fun r => rfl
  have h2 : ∀ r : List Char, (lit "  │").isPrefixOf (lit "  └ " ++ r) = false := fun r => rfl
  have h3 : ∀ r : List Char, (lit "  │").isPrefixOf (lit "  │" ++ r) = true := fun r => by
    simp
  rw [show "  │".toList = lit "  │" from rfl]
  have e0 : (lit "  │").isPrefixOf [] = false := by decide
  simp only [List.filter_cons, List.append_assoc, h1, h2, e0, List.filter_nil, Bool.false_eq_true, if_false,
    List.nil_append, List.append_nil]
  rw [List.filter_eq_self.2 (fun l hl => by
    obtain ⟨row, -, rfl⟩ := List.mem_map.1 hl
    exact h3 _), List.map_map, List.map_map]
  apply List.map_congr_left
  intro i _
  simp only [Function.comp_apply]
  rw [show lit " │" = ' ' :: ['│'] from rfl, ← List.append_assoc, words_row]
  · rw [show words (lit "  │") = [['│']] from by decide, show words ['│'] = [['│']] from by decide]
    rw [List.filter_append, List.filter_append, show [['│']].filter (· ≠ ['│']) = [] from by decide,
      List.nil_append, List.append_nil, List.filter_eq_self]
    intro t ht
    obtain ⟨j, -, rfl⟩ := List.mem_map.1 ht
    have := (hnum (A i j)).2.2.1
    simp only [ne_eq, decide_eq_true_eq]
    intro e
    rw [e] at this
    simp at this
  · intro t ht
    obtain ⟨j, -, rfl⟩ := List.mem_map.1 ht
    exact ⟨(hnum _).1, (hnum _).2.2.2⟩

end
end Nrf
