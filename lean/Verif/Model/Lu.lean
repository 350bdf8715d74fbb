import Verif.Model.Scalar
import Mathlib.Data.List.FinRange
import Mathlib.Logic.Equiv.Basic

/-!
# nalgebra's LU inverse

`compute_inverse` (`solver/jacobian/jacobian_struct.rs` L3-17) is `matrix.lu().try_inverse()`.  This file
follows nalgebra 0.33: `linalg/lu.rs` (`LU::new`, `gauss_step`, `gauss_step_swap`, `solve_mut`),
`linalg/solve.rs` (`solve_lower_triangular_with_diag_mut`, `solve_upper_triangular_mut`) and
`base/blas.rs` (`icamax`, `axpy`, `gemv`).  The source of nalgebra is not on this machine; this was
written from memory.  `Validate/Recorded.lean` compares it with a recorded run.

Multiplications by one (the argument `b` of `axpy`) are left out.  `gauss_step_swap` exchanges two rows and
eliminates in one pass; here the two are separate.  The upper solver handles the columns one after the other.
-/

namespace Nrf

section
variable {F : Type} [Scalar F] {n : Nat}

/-- `f64::is_zero`: equality with `0.0`. -/
def isZero (x : F) : Bool := Scalar.le x Scalar.zero && Scalar.le Scalar.zero x

/-- `matrix.view_range(i.., i).icamax() + i`: the first row, from `i` on, with the largest entry in column `i`. -/
def pivotRow (A : Mat F n) (i : Fin n) : Fin n :=
  ((List.finRange n).filter (i < ·)).foldl
    (fun p r => if Scalar.lt (Scalar.abs (A p i)) (Scalar.abs (A r i)) then r else p) i

/-- `matrix.swap_rows(i, p)`. -/
def swapRows (A : Mat F n) (i p : Fin n) : Mat F n := fun r => A (Equiv.swap i p r)

/-- `gauss_step`: below the diagonal entry `i`, the coefficients in column `i` and the eliminated rest. -/
def gaussStep (A : Mat F n) (i : Fin n) : Mat F n := fun r k =>
  if i < r then
    if k = i then A r i *ᶠ (Scalar.one /ᶠ A i i)
    else if i < k then Scalar.neg (A i k) *ᶠ (A r i *ᶠ (Scalar.one /ᶠ A i i)) +ᶠ A r k
    else A r k
  else A r k

/-- The body of the loop of `LU::new`.  Row `r` of the working matrix comes from row `s.2 r` of the original. -/
def luStep (s : Mat F n × (Fin n → Fin n)) (i : Fin n) : Mat F n × (Fin n → Fin n) :=
  let p := pivotRow s.1 i
  if isZero (s.1 p i) then s
  else (gaussStep (swapRows s.1 i p) i, fun r => s.2 (Equiv.swap i p r))

/-- `LU::new`. -/
def lu (A : Mat F n) : Mat F n × (Fin n → Fin n) := (List.finRange n).foldl luStep (A, fun r => r)

/-- One pass of `solve_lower_triangular_with_diag_mut` with `diag = 1`. -/
def lowerStep (M : Mat F n) (b : Vec F n) (i : Fin n) : Vec F n := fun r =>
  if i < r then Scalar.neg (b i /ᶠ Scalar.one) *ᶠ M r i +ᶠ b r else b r

/-- `solve_lower_triangular_with_diag_mut` on one column. -/
def solveLower (M : Mat F n) (b : Vec F n) : Vec F n := (List.finRange n).foldl (lowerStep M) b

/-- One pass of `solve_upper_triangular_vector_mut`. -/
def upperStep (M : Mat F n) (b : Option (Vec F n)) (i : Fin n) : Option (Vec F n) :=
  b.bind fun b =>
    if isZero (M i i) then none
    else some fun r =>
      if r = i then b i /ᶠ M i i
      else if r < i then Scalar.neg (b i /ᶠ M i i) *ᶠ M r i +ᶠ b r
      else b r

/-- `solve_upper_triangular_vector_mut`. -/
def solveUpper (M : Mat F n) (b : Vec F n) : Option (Vec F n) :=
  (List.finRange n).reverse.foldl (upperStep M) (some b)

/-- Column `j` of the identity after `permute_rows`. -/
def permutedUnit (perm : Fin n → Fin n) (j : Fin n) : Vec F n :=
  fun r => if perm r = j then Scalar.one else Scalar.zero

/-- `matrix.lu().try_inverse()`. -/
def luInverse (A : Mat F n) : Option (Mat F n) :=
  let cols := fun j => solveUpper (lu A).1 (solveLower (lu A).1 (permutedUnit (lu A).2 j))
  if h : ∀ j, (cols j).isSome then some fun r j => (cols j).get (h j) r else none

/-- The inner sums of `gemv`: column after column, the new product on the left. -/
def gemvDot (a b : Vec F n) : F :=
  match List.ofFn fun j => a j *ᶠ b j with
  | [] => Scalar.zero
  | t :: ts => ts.foldl (fun acc t => t +ᶠ acc) t

/-- The linear algebra of nalgebra, for products that do not use the crate `matrixmultiply` (dimensions up to 5). -/
def nalgebraLinAlg (F : Type) [Scalar F] (n : Nat) : LinAlg F n where
  dot := gemvDot
  inv := luInverse

end
end Nrf
