import Verif.Model.Dynamic
import Verif.Model.TestCases

/-!
# The test cases as the loops they are written as

`util/src/test_cases/*.rs` on vectors of any length, with assignments to the entries of `outputs` and the index checks
of nalgebra.  `Model/TestCases.lean` has the same functions as recursions on vectors of a fitting dimension.
-/

namespace Nrf.TestLoops

open Dyn (DVec DMat DynPanic)

section
variable {F : Type} [Scalar F]

/-- `v[i]`. -/
def get (v : DVec F) (i : Nat) : Except DynPanic F :=
  if h : i < v.len then .ok (v.val ⟨i, h⟩) else .error .index

/-- `v[i] = a`. -/
def put (v : DVec F) (i : Nat) (a : F) : Except DynPanic (DVec F) :=
  if i < v.len then .ok ⟨v.len, fun j => if j.val = i then a else v.val j⟩ else .error .index

/-- `m[(i, j)]`. -/
def getAt (m : DMat F) (i j : Nat) : Except DynPanic F :=
  if h : i < m.len ∧ j < m.len then .ok (m.val ⟨i, h.1⟩ ⟨j, h.2⟩) else .error .index

/-- `m[(i, j)] = a`. -/
def putAt (m : DMat F) (i j : Nat) (a : F) : Except DynPanic (DMat F) :=
  if i < m.len ∧ j < m.len then
    .ok ⟨m.len, fun i' j' => if i'.val = i ∧ j'.val = j then a else m.val i' j'⟩
  else .error .index

/-- `DVector::zeros` and `DMatrix::zeros`. -/
def zeros (n : Nat) : DVec F := ⟨n, fun _ => Scalar.zero⟩
def zerosAt (n : Nat) : DMat F := ⟨n, fun _ _ => Scalar.zero⟩

/-- The body of the loop of `broyden1965_cases5to8` (`broyden1965.rs` L169-171). -/
def broydenBody (alpha beta : F) (x : DVec F) (outputs : DVec F) (i : Nat) : Except DynPanic (DVec F) := do
  let previous ← get outputs (i - 1)
  let xi ← get x i
  let next ← get x (i + 1)
  put outputs i (previous -ᶠ TestCases.bend alpha xi +ᶠ Scalar.two *ᶠ next -ᶠ beta)

/-- `broyden1965_cases5to8` (`broyden1965.rs` L160-175).  When `n - 1` is reached, `n` is at least 2: for smaller `n`
one of the indices before has panicked.  `1..n - 1` are the `n - 2` numbers from 1 on. -/
def broyden (alpha beta : F) (x : DVec F) : Except DynPanic (DVec F) := do
  let n := x.len
  let x0 ← get x 0
  let x1 ← get x 1
  let outputs ← put (zeros n) 0
    (Scalar.neg (Scalar.dec 3 0 +ᶠ alpha *ᶠ x0) *ᶠ x0 +ᶠ Scalar.two *ᶠ x1 -ᶠ beta)
  let outputs ← (List.range' 1 (n - 2)).foldlM (broydenBody alpha beta x) outputs
  let previous ← get outputs (n - 2)
  let last ← get x (n - 1)
  put outputs (n - 1) (previous -ᶠ TestCases.bend alpha last -ᶠ beta)

/-- `outputs[(i, j)] += outputs[(i - 1, j)]` (`broyden1965.rs` L193 and L199). -/
def addAbove (i : Nat) (outputs : DMat F) (j : Nat) : Except DynPanic (DMat F) := do
  let above ← getAt outputs (i - 1) j
  let entry ← getAt outputs i j
  putAt outputs i j (entry +ᶠ above)

/-- `-3.0 - 2.0 * alpha * x[i]`. -/
def slope (alpha : F) (x : F) : F := Scalar.neg (Scalar.dec 3 0) -ᶠ Scalar.two *ᶠ alpha *ᶠ x

/-- The body of the outer loop of `broyden1965_cases5to8_jac` (`broyden1965.rs` L190-194). -/
def broydenJacBody (alpha : F) (x : DVec F) (outputs : DMat F) (i : Nat) : Except DynPanic (DMat F) := do
  let xi ← get x i
  let outputs ← putAt outputs i i (slope alpha xi)
  let outputs ← putAt outputs i (i + 1) Scalar.two
  (List.range x.len).foldlM (addAbove i) outputs

/-- `broyden1965_cases5to8_jac` (`broyden1965.rs` L177-203). -/
def broydenJac (alpha : F) (x : DVec F) : Except DynPanic (DMat F) := do
  let n := x.len
  let x0 ← get x 0
  let outputs ← putAt (zerosAt n) 0 0 (slope alpha x0)
  let outputs ← putAt outputs 0 1 Scalar.two
  let outputs ← (List.range' 1 (n - 2)).foldlM (broydenJacBody alpha x) outputs
  let last ← get x (n - 1)
  let outputs ← putAt outputs (n - 1) (n - 1) (slope alpha last)
  (List.range n).foldlM (addAbove (n - 1)) outputs

/-- `broyden1965_case9` and `broyden1965_case10` read `x[0]` and `x[1]` and fill two entries
(`broyden1965.rs` L215-220 and L241-246). -/
def broyden9 (x : DVec F) : Except DynPanic (DVec F) := do
  let x1 ← get x 1
  let x0 ← get x 0
  let outputs ← put (zeros 2) 0 (Scalar.dec 10 0 *ᶠ (x1 -ᶠ TestCases.powi x0 2))
  put outputs 1 (Scalar.one -ᶠ x0)

def broyden10 (x : DVec F) : Except DynPanic (DVec F) := do
  let x0 ← get x 0
  let x1 ← get x 1
  let outputs ← put (zeros 2) 0 (Scalar.neg (Scalar.dec 13 0) +ᶠ x0 +ᶠ
    ((Scalar.neg x1 +ᶠ Scalar.dec 5 0) *ᶠ x1 -ᶠ Scalar.two) *ᶠ x1)
  put outputs 1 (Scalar.neg (Scalar.dec 29 0) +ᶠ x0 +ᶠ
    ((x1 +ᶠ Scalar.one) *ᶠ x1 -ᶠ Scalar.dec 14 0) *ᶠ x1)

/-- `broyden1965_case9_jac` and `broyden1965_case10_jac` (`broyden1965.rs` L222-229 and L248-256); the first reads
`x[0]` only, the second `x[1]` only. -/
def broyden9Jac (x : DVec F) : Except DynPanic (DMat F) := do
  let x0 ← get x 0
  let outputs ← putAt (zerosAt 2) 0 0 (Scalar.neg (Scalar.dec 20 0) *ᶠ x0)
  let outputs ← putAt outputs 0 1 (Scalar.dec 10 0)
  let outputs ← putAt outputs 1 0 (Scalar.neg Scalar.one)
  putAt outputs 1 1 Scalar.zero

def broyden10Jac (x : DVec F) : Except DynPanic (DMat F) := do
  let outputs ← putAt (zerosAt 2) 0 0 Scalar.one
  let x1 ← get x 1
  let outputs ← putAt outputs 0 1
    (Scalar.neg Scalar.two +ᶠ Scalar.dec 10 0 *ᶠ x1 -ᶠ Scalar.dec 3 0 *ᶠ TestCases.powi x1 2)
  let outputs ← putAt outputs 1 0 Scalar.one
  putAt outputs 1 1
    (Scalar.neg (Scalar.dec 14 0) +ᶠ Scalar.two *ᶠ x1 +ᶠ Scalar.dec 3 0 *ᶠ TestCases.powi x1 2)

/-- `square2` (`polynom.rs` L3-7): the product of two columns needs one row. -/
def square2 (x : DVec F) : Except DynPanic (DVec F) :=
  if x.len = 1 then do
    let x0 ← get x 0
    let y ← put (zeros x.len) 0 (x0 *ᶠ x0)
    let y0 ← get y 0
    put y 0 (y0 -ᶠ Scalar.two)
  else .error .shape

/-- `root_with_high_derivative` (`polynom.rs` L28-32). -/
def highDerivative (x : DVec F) : Except DynPanic (DVec F) := do
  let x0 ← get x 0
  put (zeros 1) 0 (Scalar.dec 1000000000 0 *ᶠ TestCases.powi x0 9 -ᶠ Scalar.one)

/-- `dsquare` and `root_with_high_derivative_jac` (`polynom.rs` L9-13 and L34-38). -/
def dsquare (x : DVec F) : Except DynPanic (DMat F) := do
  let x0 ← get x 0
  putAt (zerosAt 1) 0 0 (Scalar.two *ᶠ x0)

def highDerivativeJac (x : DVec F) : Except DynPanic (DMat F) := do
  let x0 ← get x 0
  putAt (zerosAt 1) 0 0 (Scalar.dec 9000000000 0 *ᶠ TestCases.powi x0 8)

end
end Nrf.TestLoops
