import Verif.Model.Scalar
import Mathlib.Algebra.Order.Field.Basic
import Mathlib.Algebra.Order.AbsoluteValue.Basic
import Mathlib.Data.Nat.Cast.Order.Ring

/-!
# A model of IEEE 754 floating-point numbers

`Fl K` is the set of values of a binary format in one rounding mode: one NaN, two infinities, two
zeros, and the finite non-zero numbers that the rounding function leaves unchanged.  Operations are
the exact ones followed by rounding.  `f64` is the instance of `Model/Binary64.lean`; theorems
about `Fl K` hold for every rounding function with the listed laws.

Sources: IEEE 754-2019 sections 4 to 7, and the documentation of the Rust `f64` methods
`abs`, `signum`, `min`, `max`.  NaN payloads and the sign of NaN are not modelled.
-/

namespace Nrf

/-- A rounding function to a finite format, and the first magnitude that overflows. -/
class Rounding (K : Type) [Field K] [LinearOrder K] where
  rnd : K → K
  big : K
  mono : ∀ x y, x ≤ y → rnd x ≤ rnd y
  odd : ∀ x, rnd (-x) = -rnd x
  idem : ∀ x, rnd (rnd x) = rnd x
  one : rnd 1 = 1
  two : rnd 2 = 2
  two_lt_big : 2 < big

variable {K : Type} [Field K] [LinearOrder K]

/-- `x` is a finite non-zero number of the format. -/
def IsFloat [Rounding K] (x : K) : Prop := x ≠ 0 ∧ Rounding.rnd x = x ∧ |x| < Rounding.big

/-- Floating-point values. -/
inductive Fl (K : Type) [Field K] [LinearOrder K] [Rounding K] where
  | nan
  | inf (neg : Bool)
  | zero (neg : Bool)
  | num (x : K) (h : IsFloat x)
  deriving DecidableEq

namespace Fl
variable [Rounding K]

/-- Rounding of an exact result; `z` is the sign of an exact zero. -/
def ofExact (z : Bool) (x : K) : Fl K :=
  if h0 : x = 0 then .zero z
  else
    if h1 : Rounding.rnd x = 0 then .zero (decide (x < 0))
    else
      if h2 : |Rounding.rnd x| < Rounding.big then .num (Rounding.rnd x) ⟨h1, Rounding.idem x, h2⟩
      else .inf (decide (x < 0))

/-- Sign bit. -/
def sign : Fl K → Bool
  | .nan => false
  | .inf s => s
  | .zero s => s
  | .num x _ => decide (x < 0)

theorem isFloat_neg {x : K} [IsStrictOrderedRing K] (h : IsFloat x) : IsFloat (-x) :=
  ⟨neg_ne_zero.2 h.1, by rw [Rounding.odd, h.2.1], by rw [abs_neg]; exact h.2.2⟩

variable [IsStrictOrderedRing K]

def neg : Fl K → Fl K
  | .nan => .nan
  | .inf s => .inf !s
  | .zero s => .zero !s
  | .num x h => .num (-x) (isFloat_neg h)

def abs : Fl K → Fl K
  | .nan => .nan
  | .inf _ => .inf false
  | .zero _ => .zero false
  | .num x h => if x < 0 then .num (-x) (isFloat_neg h) else .num x h

/-- An exact zero sum of numbers of opposite signs is `+0` (rounding to nearest);
`-0 + -0` is `-0`. -/
def add : Fl K → Fl K → Fl K
  | .nan, _ => .nan
  | _, .nan => .nan
  | .inf s, .inf t => if s = t then .inf s else .nan
  | .inf s, _ => .inf s
  | _, .inf t => .inf t
  | .zero s, .zero t => .zero (s && t)
  | .zero _, .num y h => .num y h
  | .num x h, .zero _ => .num x h
  | .num x _, .num y _ => ofExact false (x + y)

def sub (a b : Fl K) : Fl K := add a (neg b)

def mul : Fl K → Fl K → Fl K
  | .nan, _ => .nan
  | _, .nan => .nan
  | .inf _, .zero _ => .nan
  | .zero _, .inf _ => .nan
  | .inf s, b => .inf (s ^^ b.sign)
  | a, .inf t => .inf (a.sign ^^ t)
  | .zero s, b => .zero (s ^^ b.sign)
  | a, .zero t => .zero (a.sign ^^ t)
  | .num x _, .num y _ => ofExact false (x * y)

def div : Fl K → Fl K → Fl K
  | .nan, _ => .nan
  | _, .nan => .nan
  | .inf _, .inf _ => .nan
  | .zero _, .zero _ => .nan
  | .inf s, b => .inf (s ^^ b.sign)
  | a, .inf t => .zero (a.sign ^^ t)
  | .zero s, b => .zero (s ^^ b.sign)
  | a, .zero t => .inf (a.sign ^^ t)
  | .num x _, .num y _ => ofExact false (x / y)

/-- Comparison of non-NaN values. -/
def ltb : Fl K → Fl K → Bool
  | .nan, _ => false
  | _, .nan => false
  | .inf s, .inf t => s && !t
  | .inf s, _ => s
  | _, .inf t => !t
  | .zero _, .zero _ => false
  | .zero _, .num y _ => decide (0 < y)
  | .num x _, .zero _ => decide (x < 0)
  | .num x _, .num y _ => decide (x < y)

def leb : Fl K → Fl K → Bool
  | .nan, _ => false
  | _, .nan => false
  | .inf s, .inf t => s || !t
  | .inf s, _ => s
  | _, .inf t => !t
  | .zero _, .zero _ => true
  | .zero _, .num y _ => decide (0 < y)
  | .num x _, .zero _ => decide (x < 0)
  | .num x _, .num y _ => decide (x ≤ y)

/-- `f64::max`: NaN is ignored. -/
def max (a b : Fl K) : Fl K :=
  match a, b with
  | .nan, b => b
  | a, .nan => a
  | a, b => if ltb a b then b else a

/-- `f64::min`: NaN is ignored. -/
def min (a b : Fl K) : Fl K :=
  match a, b with
  | .nan, b => b
  | a, .nan => a
  | a, b => if ltb b a then b else a

def one : Fl K := .num 1 ⟨one_ne_zero, Rounding.one, by
  rw [abs_one]; exact lt_trans one_lt_two Rounding.two_lt_big⟩

def two : Fl K := .num 2 ⟨two_ne_zero, Rounding.two, by
  rw [abs_of_pos two_pos]; exact Rounding.two_lt_big⟩

/-- `f64::signum`: NaN for NaN, otherwise the sign bit as `-1` or `1` (also for zeros). -/
def signum : Fl K → Fl K
  | .nan => .nan
  | a => if a.sign then neg one else one

instance : Scalar (Fl K) where
  add := add
  sub := sub
  mul := mul
  div := div
  neg := neg
  abs := abs
  signum := signum
  min := min
  max := max
  lt := ltb
  le := leb
  zero := .zero false
  one := one
  two := two
  dec m e := ofExact false ((m : K) / 10 ^ e)

instance : HasSpecials (Fl K) where
  inf := .inf false
  negInf := .inf true
  nan := .nan

end Fl
end Nrf
