import Verif.Model.Xml
import Verif.Model.Binary64

/-!
# `str::parse::<f64>`

The grammar of the documentation of `f64::from_str` (Rust standard library; the source is not on this machine):

    Float  ::= Sign? ( 'inf' | 'infinity' | 'nan' | Number )
    Number ::= ( Digit+ | Digit+ '.' Digit* | Digit* '.' Digit+ ) Exp?
    Exp    ::= 'e' Sign? Digit+

where letters may be upper case.  The result is the number of the format nearest to the one that is written.
-/

namespace Nrf

/-- `Exp?`: the exponent. -/
def parseExponent : List Char → Option ℤ
  | [] => some 0
  | c :: t =>
    if c = 'e' ∨ c = 'E' then
      match t with
      | [] => none
      | s :: ds =>
        if s = '-' then (if ds = [] then none else (parseDigits ds 0).map fun (k : ℕ) => -(k : ℤ))
        else if s = '+' then (if ds = [] then none else (parseDigits ds 0).map fun (k : ℕ) => (k : ℤ))
        else (parseDigits (s :: ds) 0).map fun (k : ℕ) => (k : ℤ)
    else none

/-- The part after the integer digits: the decimals and the rest. -/
def parseDecimals : List Char → List Char × List Char
  | [] => ([], [])
  | c :: t => if c = '.' then (t.takeWhile Char.isDigit, t.dropWhile Char.isDigit) else ([], c :: t)

/-- `Number`: the exact value. -/
def parseNumber (t : List Char) : Option ℚ :=
  let ds := t.takeWhile Char.isDigit
  let (fs, rest) := parseDecimals (t.dropWhile Char.isDigit)
  if ds = [] ∧ fs = [] then none
  else
    match parseDigits (ds ++ fs) 0, parseExponent rest with
    | some k, some e => some (k * (10 : ℚ) ^ (e - fs.length))
    | _, _ => none

/-- `Float` without sign; `neg` is the sign. -/
def parseUnsigned (neg : Bool) (t : List Char) : Option F64 :=
  match parseNumber t with
  | some v => some (Fl.ofExact neg (if neg then -v else v))
  | none =>
    let l := t.map Char.toLower
    if l = ['i', 'n', 'f'] ∨ l = ['i', 'n', 'f', 'i', 'n', 'i', 't', 'y'] then some (.inf neg)
    else if l = ['n', 'a', 'n'] then some .nan
    else none

/-- `str::parse::<f64>` on characters. -/
def parseF64Chars : List Char → Option F64
  | [] => none
  | c :: t =>
    if c = '-' then parseUnsigned true t
    else if c = '+' then parseUnsigned false t
    else parseUnsigned false (c :: t)

/-- `str::parse::<f64>`. -/
def parseF64 (s : String) : Option F64 := parseF64Chars s.toList

end Nrf
