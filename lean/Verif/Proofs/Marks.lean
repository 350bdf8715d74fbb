import Verif.Proofs.ReadText
import Verif.Spec.Marks

namespace Nrf
open Spec

theorem marksFrom_append (c : Char) : ∀ (a b : List Char) (k : Nat),
    marksFrom c k (a ++ b) = marksFrom c k a ++ marksFrom c (k + a.length) b
  | [], b, k => by simp [marksFrom]
  | x :: a, b, k => by
    simp only [List.cons_append, marksFrom, List.length_cons]
    rw [marksFrom_append c a b (k + 1), show k + 1 + a.length = k + (a.length + 1) by omega]
    split <;> simp

theorem marksFrom_plain {c : Char} : ∀ {a : List Char} {k : Nat}, c ∉ a → marksFrom c k a = []
  | [], _, _ => rfl
  | x :: a, k, h => by
    have h1 : x ≠ c := fun e => h (by simp [e])
    have h2 : c ∉ a := fun e => h (by simp [e])
    simp [marksFrom, h1, marksFrom_plain h2]

/-- Left-to-right rules: a text without the character is skipped, a character is met. -/
theorem marks_skip {c : Char} {a : List Char} (h : c ∉ a) (b : List Char) (k : Nat) :
    marksFrom c k (a ++ b) = marksFrom c (k + a.length) b := by
  rw [marksFrom_append, marksFrom_plain h, List.nil_append]

theorem marks_bar (t : List Char) (k : Nat) : marksFrom '|' k (lit "| " ++ t) = k :: marksFrom '|' (k + 2) t := by
  rw [show lit "| " = ['|', ' '] from rfl]
  simp [marksFrom]

theorem marks_end (k : Nat) : marksFrom '|' k (lit "|") = [k] := rfl

theorem pad_length {w : Nat} {t : List Char} (h : t.length ≤ w) : (pad w t).length = w := by
  unfold pad; simp; omega

theorem pad_length_ge (w : Nat) (t : List Char) : w ≤ (pad w t).length ∧ t.length ≤ (pad w t).length := by
  unfold pad; simp; omega

theorem padLeft_length {w : Nat} {t : List Char} (h : t.length ≤ w) : (padLeft w t).length = w := by
  unfold padLeft; simp; omega

theorem pad_length_eq (w : Nat) (t : List Char) : (pad w t).length = max w t.length := by
  unfold pad; simp; omega

theorem padLeft_length_eq (w : Nat) (t : List Char) : (padLeft w t).length = max w t.length := by
  unfold padLeft; simp; omega

theorem natText_length {k w : Nat} (hw : 0 < w) : (natText k).length ≤ w ↔ k < 10 ^ w :=
  Nat.length_toDigits_le_iff (by decide) hw

theorem bar_pad {w : Nat} {t : List Char} (h : '|' ∉ t) : '|' ∉ pad w t := fun h' =>
  h ((mem_pad (by decide)).1 h')

theorem bool_bar (b : Bool) : '|' ∉ boolText b := by cases b <;> decide

theorem method_bar (m : ResolutionMethod) : '|' ∉ m.text := by
  rcases m with _ | q
  · decide
  · rcases q with _ | m | m
    · decide
    · cases m <;> decide
    · cases m <;> decide

end Nrf
