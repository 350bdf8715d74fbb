import Verif.Spec.ReadText

/-!
# Reading a matrix

The lines that begin with two spaces and a bar are rows; a row is cut at the spaces; bars are dropped.
-/

namespace Nrf.Spec

/-- The words of a line. -/
def words (t : List Char) : List (List Char) := (cut ' ' t).filter (· ≠ [])

/-- The texts of the entries, row by row. -/
def readMatrix (t : List Char) : List (List (List Char)) :=
  ((cut '\n' t).filter fun l => "  │".toList.isPrefixOf l).map fun l => (words l).filter (· ≠ ['│'])

end Nrf.Spec
