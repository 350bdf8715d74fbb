import Verif.Model.Binary64

/-!
# The numbers that can be written in a text

The grammar of the documentation of `f64::from_str`, as a relation between texts and exact values; nothing here
refers to the functions that read or write numbers.
-/

namespace Nrf.Spec

/-- Only digits. -/
def Digits (t : List Char) : Prop := ∀ c ∈ t, c.isDigit = true

/-- `e` is an exponent part (possibly empty) of value `k`. -/
def Exponent (e : List Char) (k : ℤ) : Prop :=
  (e = [] ∧ k = 0) ∨ ∃ c s ds, (c = 'e' ∨ c = 'E') ∧ e = c :: (s ++ ds) ∧ ds ≠ [] ∧ Digits ds ∧
    ((s = [] ∨ s = ['+']) ∧ k = Nat.ofDigitChars 10 ds 0 ∨ s = ['-'] ∧ k = -(Nat.ofDigitChars 10 ds 0 : ℤ))

/-- `t` is an unsigned decimal number of value `v`: digits `a`, a point, decimals `b`, an exponent; the point may be
missing when there are no decimals; there is at least one digit. -/
def Number (t : List Char) (v : ℚ) : Prop :=
  ∃ a b e k, Digits a ∧ Digits b ∧ (a ≠ [] ∨ b ≠ []) ∧ Exponent e k ∧
    (t = a ++ '.' :: (b ++ e) ∨ b = [] ∧ t = a ++ e) ∧
    v = Nat.ofDigitChars 10 (a ++ b) 0 * (10 : ℚ) ^ (k - (b.length : ℤ))

/-- `t` is a sign (possibly none) followed by `u`; `neg` when the sign is a minus. -/
def Signed (t : List Char) (neg : Bool) (u : List Char) : Prop :=
  (t = '-' :: u ∧ neg = true) ∨ (neg = false ∧ (t = '+' :: u ∨ t = u ∧ u.head? ≠ some '-' ∧ u.head? ≠ some '+'))

/-- `v` with its sign. -/
def signedValue (neg : Bool) (v : ℚ) : ℚ := if neg then -v else v

/-- The value of a finite number. -/
def finiteValue : F64 → Option ℚ
  | .zero _ => some 0
  | .num x _ => some x
  | _ => none

/-- `x` is what `v` is rounded to: the sign is the one written; a finite result is nearest to `v` among all finite
numbers; the infinite results stand for what exceeds the largest number by half a unit of its last place. -/
def RoundedTo (neg : Bool) (v : ℚ) (x : F64) : Prop :=
  x ≠ .nan ∧ x.sign = neg ∧
  (∀ r, finiteValue x = some r → ∀ z s, finiteValue z = some s → |r - v| ≤ |s - v|) ∧
  ((∃ s, x = .inf s) ↔ 2 ^ 1024 - 2 ^ 970 ≤ |v|)

end Nrf.Spec
