import Verif.Model.Text
import Verif.Model.Binary64

/-!
# The texts of `f64` and of nalgebra matrices

`f64::to_string` of the Rust standard library and `Display` of nalgebra 0.33 (`base/matrix.rs`,
`impl_fmt!`).  Neither source is on this machine; this was written from their documentation and from
memory.  `Validate/Recorded.lean` compares both with a recorded log.
-/

namespace Nrf

/-- The numbers with `f` decimals around `x` (rounded to tens, hundreds... when `f` is negative), as integers:
the nearest one first (the upper one of two), then the lower and the upper one. -/
def decimalsNear (x : ℚ) (f : ℤ) : List ℤ :=
  [⌊x * (10 : ℚ) ^ f + 1 / 2⌋, ⌊x * (10 : ℚ) ^ f⌋, ⌊x * (10 : ℚ) ^ f⌋ + 1]

/-- The value of an integer with `f` decimals. -/
def decimalValue (m f : ℤ) : ℚ := m / (10 : ℚ) ^ f

/-- The shortest decimal number that is read back as the positive number `x`: an integer and its number of decimals.
No more than 17 digits are tried. -/
def shortestDecimal (x : ℚ) : Option (ℤ × ℤ) :=
  ((List.range 18).flatMap fun (k : ℕ) =>
    (decimalsNear x ((k : ℤ) - 1 - Int.log 10 x)).map fun m => (m, (k : ℤ) - 1 - Int.log 10 x)).find? fun d =>
      decide (Binary64.rnd (decimalValue d.1 d.2) = x)

/-- `m` units of `10 ^ -f` in decimal notation, without exponent. -/
def decimalText (m : Nat) (f : ℤ) : List Char :=
  if f ≤ 0 then natText m ++ List.replicate (-f).toNat '0'
  else natText (m / 10 ^ f.toNat) ++ lit "." ++
    (List.replicate (f.toNat - (natText (m % 10 ^ f.toNat)).length) '0' ++ natText (m % 10 ^ f.toNat))

/-- The text of a positive number.  (C76 shows that there always are enough digits.) -/
def positiveText (x : ℚ) : List Char :=
  match shortestDecimal x with
  | some (m, f) => decimalText m.toNat f
  | none => lit "?"

/-- `f64::to_string`: the shortest decimal number that is read back as the same value. -/
def f64Text : F64 → List Char
  | .nan => lit "NaN"
  | .inf true => lit "-inf"
  | .inf false => lit "inf"
  | .zero true => lit "-0"
  | .zero false => lit "0"
  | .num x _ => if x < 0 then lit "-" ++ positiveText (-x) else positiveText x

/-- `to_string` of a nalgebra matrix whose entries are written by `num`. -/
def matrixText {F : Type} {n : Nat} (num : F → List Char) (A : Mat F n) : List Char :=
  if n = 0 then lit "[ ]"
  else
    let entries := (List.finRange n).map fun i => (List.finRange n).map fun j => num (A i j)
    let width := (entries.flatten.map List.length).foldl max 0
    let rule := List.replicate ((width + 1) * n - 1) ' '
    lit "\n" ++ (lit "  ┌ " ++ rule ++ lit " ┐\n") ++
      (entries.flatMap fun row => lit "  │" ++ (row.flatMap fun t => lit " " ++ padLeft width t) ++ lit " │\n") ++
      (lit "  └ " ++ rule ++ lit " ┘\n") ++ lit "\n"

end Nrf
