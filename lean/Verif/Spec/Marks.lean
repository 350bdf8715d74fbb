/-!
# Columns of a table

The positions of a character in a line.
-/

namespace Nrf.Spec

/-- Positions of `c` in a text which begins at position `k`. -/
def marksFrom (c : Char) : Nat → List Char → List Nat
  | _, [] => []
  | k, a :: t => if a = c then k :: marksFrom c (k + 1) t else marksFrom c (k + 1) t

/-- Positions of `c` in a line. -/
def marks (c : Char) (t : List Char) : List Nat := marksFrom c 0 t

/-- A row fits a separation line: as long, and its bars are under its crosses. -/
def Aligned (row separation : List Char) : Prop :=
  row.length = separation.length ∧ marks '|' row = marks '+' separation

instance (a b : List Char) : Decidable (Aligned a b) := inferInstanceAs (Decidable (_ ∧ _))

end Nrf.Spec
