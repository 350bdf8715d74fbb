import Mathlib.LinearAlgebra.Matrix.Defs

/-!
# Numbers, vectors and the parts of nalgebra the solver uses

The Rust code computes with `f64`.  `Scalar` lists the operations the code uses
and states no law about them, so everything proved from `Scalar` alone holds for
hardware floats.
-/

namespace Nrf

/-- The `f64` operations used by the crate.

* `min`/`max` stand for `f64::min`/`f64::max`, `signum` for `f64::signum`.
* `lt a b` is Rust `a < b`, `le a b` is `a <= b`; `a > b` is `lt b a` and
  `a >= b` is `le b a` (IEEE comparisons: false as soon as one side is NaN).
* `dec m e` is the literal `m * 10^(-e)` (`1e-6`, `5.0e-8`). -/
class Scalar (F : Type) where
  add : F → F → F
  sub : F → F → F
  mul : F → F → F
  div : F → F → F
  neg : F → F
  abs : F → F
  signum : F → F
  min : F → F → F
  max : F → F → F
  lt : F → F → Bool
  le : F → F → Bool
  zero : F
  one : F
  two : F
  dec : Nat → Nat → F

/-- `f64::INFINITY`, `f64::NEG_INFINITY`, `f64::NAN`. -/
class HasSpecials (F : Type) where
  inf : F
  negInf : F
  nan : F

@[inherit_doc] infixl:65 " +ᶠ " => Scalar.add
@[inherit_doc] infixl:65 " -ᶠ " => Scalar.sub
@[inherit_doc] infixl:70 " *ᶠ " => Scalar.mul
@[inherit_doc] infixl:70 " /ᶠ " => Scalar.div

/-- A vector of dimension `n` (`nalgebra::OVector<f64, D>`). -/
abbrev Vec (F : Type) (n : Nat) := Fin n → F

/-- A square matrix of dimension `n` (`nalgebra::OMatrix<f64, D, D>`). -/
abbrev Mat (F : Type) (n : Nat) := Matrix (Fin n) (Fin n) F

/-- The two places where nalgebra's algorithm matters:

* `dot`: the inner sum of products used by every matrix product,
* `inv`: `matrix.lu().try_inverse()`
  (`solver/jacobian/jacobian_struct.rs` L3-17, `compute_inverse`; `none` is
  `Err(NonInvertibleJacobian)`).

Both are parameters.  nalgebra may use different summation orders for different
products; no theorem about rounded arithmetic depends on the order. -/
structure LinAlg (F : Type) (n : Nat) where
  dot : Vec F n → Vec F n → F
  inv : Mat F n → Option (Mat F n)

section
variable {F : Type} [Scalar F] {n : Nat}

/-- Entrywise difference of vectors. -/
def vsub (a b : Vec F n) : Vec F n := fun i => a i -ᶠ b i
/-- Entrywise sum of vectors. -/
def vadd (a b : Vec F n) : Vec F n := fun i => a i +ᶠ b i
/-- `vector * scalar`. -/
def vscale (a : Vec F n) (k : F) : Vec F n := fun i => a i *ᶠ k
/-- `vector / scalar`. -/
def vdiv (a : Vec F n) (k : F) : Vec F n := fun i => a i /ᶠ k
/-- Entrywise difference of matrices. -/
def msub (A B : Mat F n) : Mat F n := fun i j => A i j -ᶠ B i j
/-- Entrywise negation of a matrix. -/
def mneg (A : Mat F n) : Mat F n := fun i j => Scalar.neg (A i j)
/-- `matrix / scalar`. -/
def mdiv (A : Mat F n) (k : F) : Mat F n := fun i j => A i j /ᶠ k
/-- `column * row`: the matrix `u wᵀ`. -/
def outer (u w : Vec F n) : Mat F n := fun i j => u i *ᶠ w j
/-- `matrix * column`. -/
def mulVec (L : LinAlg F n) (A : Mat F n) (v : Vec F n) : Vec F n := fun i => L.dot (A i) v
/-- `row * matrix`. -/
def vecMul (L : LinAlg F n) (v : Vec F n) (A : Mat F n) : Vec F n :=
  fun j => L.dot v (fun i => A i j)
/-- `matrix * matrix`. -/
def matMul (L : LinAlg F n) (A B : Mat F n) : Mat F n :=
  fun i j => L.dot (A i) (fun k => B k j)
/-- `matrix.transpose()`. -/
def mtranspose (A : Mat F n) : Mat F n := fun i j => A j i
/-- The zero matrix (`util_nalgebra.rs` `omatrix_zeros_like_ovector`). -/
def mzero : Mat F n := fun _ _ => Scalar.zero
/-- `matrix.set_column(j, &col)`. -/
def setColumn (A : Mat F n) (j : Fin n) (col : Vec F n) : Mat F n :=
  fun i k => if k = j then col i else A i k

/-- simba's `simd_max` on `f64`: `if self >= other { self } else { other }`. -/
def simdMax (a b : F) : F := if Scalar.le b a then a else b

/-- nalgebra 0.33 `Matrix::amax`: the absolute value of the first component
(zero for an empty vector), folded with `simd_max` over the absolute values of
the others.  Written from memory of nalgebra, see DESIGN.md section 1. -/
def amax (v : Vec F n) : F :=
  match List.ofFn v with
  | [] => Scalar.abs Scalar.zero
  | e :: es => es.foldl (fun a b => simdMax a (Scalar.abs b)) (Scalar.abs e)

end
end Nrf
