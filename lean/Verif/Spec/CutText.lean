import Verif.Spec.ReadText

/-!
# Reading a log which breaks off

Whoever reads a file which breaks off somewhere leaves out the last line when it is not complete.
-/

namespace Nrf.Spec

/-- The complete lines of a text. -/
def wholeLines (t : List Char) : List Char := (t.reverse.dropWhile (· ≠ '\n')).reverse

/-- What has been read of an event when the text breaks off: its number is right, the largest error is right or
missing together with all rows, the rows are the first rows. -/
def PartOf : TextEvent → TextEvent → Prop
  | .iteration k m rows, .iteration k' m' rows' => k = k' ∧ (m = m' ∨ m = [] ∧ rows = []) ∧ rows <+: rows'
  | .damping m rows, .damping m' rows' => (m = m' ∨ m = [] ∧ rows = []) ∧ rows <+: rows'
  | .refused, .refused => True
  | _, _ => False

end Nrf.Spec
