import Verif.Model.Residuals
import Mathlib.LinearAlgebra.Matrix.Notation

/-!
# The test cases of the crate `util`

`util/src/test_cases/broyden1965.rs` and `polynom.rs`.  The functions take vectors of dynamic size; here the
size is fixed.  `powi` is a product, whose order of evaluation does not matter in exact arithmetic.  The cases 5 to 8
index the vector at 0 and 1 and panic below dimension 2.
-/

namespace Nrf.TestCases

section
variable {F : Type} [Scalar F]

/-- `f64::powi` for a positive exponent. -/
def powi (x : F) : Nat → F
  | 0 => Scalar.one
  | 1 => x
  | k + 2 => powi x (k + 1) *ᶠ x

/-- `(3.0 + alpha * x) * x`. -/
def bend (alpha x : F) : F := (Scalar.dec 3 0 +ᶠ alpha *ᶠ x) *ᶠ x

/-- `broyden1965.rs` L160-175, the loop of `broyden1965_cases5to8`: entry `i` of `outputs`. -/
def broydenAt {k : Nat} (alpha beta : F) (x : Vec F (k + 2)) : (i : Nat) → i < k + 2 → F
  | 0, _ => Scalar.neg (Scalar.dec 3 0 +ᶠ alpha *ᶠ x 0) *ᶠ x 0 +ᶠ Scalar.two *ᶠ x 1 -ᶠ beta
  | i + 1, h =>
    if h' : i + 1 < k + 1 then
      broydenAt alpha beta x i (by omega) -ᶠ bend alpha (x ⟨i + 1, h⟩) +ᶠ Scalar.two *ᶠ x ⟨i + 2, by omega⟩ -ᶠ beta
    else broydenAt alpha beta x i (by omega) -ᶠ bend alpha (x ⟨i + 1, h⟩) -ᶠ beta

/-- `broyden1965_cases5to8`. -/
def broyden {k : Nat} (alpha beta : F) (x : Vec F (k + 2)) : Vec F (k + 2) := fun i => broydenAt alpha beta x i i.2

/-- `broyden1965.rs` L177-203, the loop of `broyden1965_cases5to8_jac`: row `i` of `outputs`.  The entries `i` and
`i + 1` are set, then the row above is added. -/
def broydenJacAt {k : Nat} (alpha : F) (x : Vec F (k + 2)) : (i : Nat) → i < k + 2 → Vec F (k + 2)
  | 0, _ => fun j =>
    if j.val = 0 then Scalar.neg (Scalar.dec 3 0) -ᶠ Scalar.two *ᶠ alpha *ᶠ x 0
    else if j.val = 1 then Scalar.two else Scalar.zero
  | i + 1, h => fun j =>
    (if j.val = i + 1 then Scalar.neg (Scalar.dec 3 0) -ᶠ Scalar.two *ᶠ alpha *ᶠ x ⟨i + 1, h⟩
     else if j.val = i + 2 then Scalar.two else Scalar.zero) +ᶠ broydenJacAt alpha x i (by omega) j

/-- `broyden1965_cases5to8_jac`. -/
def broydenJac {k : Nat} (alpha : F) (x : Vec F (k + 2)) : Mat F (k + 2) := fun i j => broydenJacAt alpha x i i.2 j

/-- The arguments of the cases, `broyden1965.rs` L128-158: `-0.1` for case 5, `-0.5` for cases 6 to 8. -/
def alpha5 : F := Scalar.neg (Scalar.dec 1 1)
def alpha6 : F := Scalar.neg (Scalar.dec 5 1)

def broydenCase5 (x : Vec F 5) : Vec F 5 := broyden alpha5 Scalar.one x
def broydenCase5Jac (x : Vec F 5) : Mat F 5 := broydenJac alpha5 x
def broydenCase6 (x : Vec F 5) : Vec F 5 := broyden alpha6 Scalar.one x
def broydenCase6Jac (x : Vec F 5) : Mat F 5 := broydenJac alpha6 x
def broydenCase7 (x : Vec F 10) : Vec F 10 := broyden alpha6 Scalar.one x
def broydenCase7Jac (x : Vec F 10) : Mat F 10 := broydenJac alpha6 x
def broydenCase8 (x : Vec F 20) : Vec F 20 := broyden alpha6 Scalar.one x
def broydenCase8Jac (x : Vec F 20) : Mat F 20 := broydenJac alpha6 x

/-- `broyden1965.rs` L56, L69, L82, L100: the starting points of cases 5 to 8. -/
def broydenInit (n : Nat) : Vec F n := fun _ => Scalar.neg Scalar.one

/-- The values of `solution_broyden1965_case5` to `8` from the last entry to the first (`broyden1965.rs` L59-126):
`a - b.sqrt()`, then `a - (b - c * previous).sqrt()`. -/
def solutionChain (sqrt : F → F) (a b c : F) : Nat → F
  | 0 => a -ᶠ sqrt b
  | j + 1 => a -ᶠ sqrt (b -ᶠ c *ᶠ solutionChain sqrt a b c j)

/-- The solutions: entry `i` of `n`. -/
def solution (sqrt : F → F) (a b c : F) (n : Nat) : Vec F n := fun i => solutionChain sqrt a b c (n - 1 - i)

def solutionCase5 (sqrt : F → F) : Vec F 5 := solution sqrt (Scalar.dec 15 0) (Scalar.dec 235 0) (Scalar.dec 20 0) 5
def solutionCase6 (sqrt : F → F) : Vec F 5 := solution sqrt (Scalar.dec 3 0) (Scalar.dec 11 0) (Scalar.dec 4 0) 5
def solutionCase7 (sqrt : F → F) : Vec F 10 := solution sqrt (Scalar.dec 3 0) (Scalar.dec 11 0) (Scalar.dec 4 0) 10
def solutionCase8 (sqrt : F → F) : Vec F 20 := solution sqrt (Scalar.dec 3 0) (Scalar.dec 11 0) (Scalar.dec 4 0) 20

/-- `broyden1965.rs` L205-229. -/
def initCase9 : Vec F 2 := ![Scalar.neg (Scalar.dec 12 1), Scalar.one]
def solutionCase9 : Vec F 2 := ![Scalar.one, Scalar.one]
def broydenCase9 (x : Vec F 2) : Vec F 2 :=
  ![Scalar.dec 10 0 *ᶠ (x 1 -ᶠ powi (x 0) 2), Scalar.one -ᶠ x 0]
def broydenCase9Jac (x : Vec F 2) : Mat F 2 :=
  !![Scalar.neg (Scalar.dec 20 0) *ᶠ x 0, Scalar.dec 10 0; Scalar.neg Scalar.one, Scalar.zero]

/-- `broyden1965.rs` L231-256. -/
def initCase10 : Vec F 2 := ![Scalar.dec 15 0, Scalar.neg Scalar.two]
def solutionCase10 : Vec F 2 := ![Scalar.dec 5 0, Scalar.dec 4 0]
def broydenCase10 (x : Vec F 2) : Vec F 2 :=
  ![Scalar.neg (Scalar.dec 13 0) +ᶠ x 0 +ᶠ ((Scalar.neg (x 1) +ᶠ Scalar.dec 5 0) *ᶠ x 1 -ᶠ Scalar.two) *ᶠ x 1,
    Scalar.neg (Scalar.dec 29 0) +ᶠ x 0 +ᶠ ((x 1 +ᶠ Scalar.one) *ᶠ x 1 -ᶠ Scalar.dec 14 0) *ᶠ x 1]
def broydenCase10Jac (x : Vec F 2) : Mat F 2 :=
  !![Scalar.one, Scalar.neg Scalar.two +ᶠ Scalar.dec 10 0 *ᶠ x 1 -ᶠ Scalar.dec 3 0 *ᶠ powi (x 1) 2;
    Scalar.one, Scalar.neg (Scalar.dec 14 0) +ᶠ Scalar.two *ᶠ x 1 +ᶠ Scalar.dec 3 0 *ᶠ powi (x 1) 2]

/-- `polynom.rs` L1-13. -/
def square2 (x : Vec F 1) : Vec F 1 := fun _ => x 0 *ᶠ x 0 -ᶠ Scalar.two
def dsquare (x : Vec F 1) : Mat F 1 := fun _ _ => Scalar.two *ᶠ x 0

/-- `polynom.rs` L15-38. -/
def highDerivative (x : Vec F 1) : Vec F 1 := fun _ => Scalar.dec 1000000000 0 *ᶠ powi (x 0) 9 -ᶠ Scalar.one
def highDerivativeJac (x : Vec F 1) : Mat F 1 := fun _ _ => Scalar.dec 9000000000 0 *ᶠ powi (x 0) 8

end
end Nrf.TestCases
