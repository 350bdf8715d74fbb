import Verif.Proofs.Lu
import Mathlib.LinearAlgebra.Matrix.ToLinearEquiv

/-!
# C75: the LU inverse is the inverse
-/

namespace Nrf

section
variable {K : Type} [Field K] [LinearOrder K] [IsStrictOrderedRing K] {n : Nat}
open scoped Exact

/-- The packed matrix of `LU::new` holds a unit lower triangular and an upper triangular matrix whose product
is the given matrix with its rows exchanged; no multiplier exceeds one. -/
theorem C75_factors (A : Mat K n) : ∃ (M L U : Mat K n) (σ : Equiv.Perm (Fin n)), lu A = (M, fun i => σ i) ∧
    (∀ i j, L i j = if j < i then M i j else if i = j then 1 else 0) ∧
    (∀ i j, U i j = if i ≤ j then M i j else 0) ∧
    L * U = A.submatrix σ id ∧ ∀ i j, |L i j| ≤ 1 := by
  refine ⟨(lu A).1, lowerPart (lu A).1, upperPart (lu A).1, Equiv.ofBijective _ (lu_factored A).1, rfl,
    fun i j => ?_, fun i j => rfl, lu_mul A, fun i j => ?_⟩
  · unfold lowerPart
    simp only [eq_comm]
  · unfold lowerPart
    split_ifs with h1 h2
    · exact lu_bounded A i j j.2 h1
    · simp
    · simp

/-- `lu().try_inverse()` returns exactly the inverse of the matrix. -/
theorem C75_inverse (A B : Mat K n) : luInverse A = some B ↔ A * B = 1 := by
  constructor
  · intro h
    by_cases hd : A.det = 0
    · rw [luInverse_none A hd] at h
      cases h
    · rw [luInverse_some A hd] at h
      cases h
      exact A.mul_nonsing_inv (isUnit_iff_ne_zero.2 hd)
  · intro h
    have hd : A.det ≠ 0 := by
      intro h0
      have := congrArg Matrix.det h
      rw [Matrix.det_mul, h0, zero_mul, Matrix.det_one] at this
      exact zero_ne_one this
    rw [luInverse_some A hd, Matrix.inv_eq_right_inv h]

/-- It fails exactly when the matrix has a vector that it sends to zero. -/
theorem C75_singular (A : Mat K n) : luInverse A = none ↔ ∃ v, v ≠ 0 ∧ A.mulVec v = 0 := by
  rw [Matrix.exists_mulVec_eq_zero_iff]
  constructor
  · intro h
    by_contra hd
    rw [luInverse_some A hd] at h
    cases h
  · exact luInverse_none A

/-- In exact arithmetic nalgebra's operations are the mathematical ones, so that every theorem of this
development about an exact `LinAlg` holds for them. -/
theorem C75_exact : (nalgebraLinAlg K n).IsExact where
  dot := gemvDot_exact
  inv_some := luInverse_some
  inv_none := luInverse_none

/-- A matrix whose elimination exchanges rows twice. -/
example : luInverse (!![0, 1, 2; 2, 0, 1; 1, 3, 0] : Mat ℚ 3) =
    some !![-3/13, 6/13, 1/13; 1/13, -2/13, 4/13; 6/13, 1/13, -2/13] :=
  (C75_inverse _ _).2 (by
    ext i j
    fin_cases i <;> fin_cases j <;> norm_num [Matrix.mul_apply, Fin.sum_univ_three, Matrix.cons_val_two])

example : luInverse (!![1, 2; 2, 4] : Mat ℚ 2) = none :=
  (C75_singular _).2 ⟨![2, -1], by simp, by ext i; fin_cases i <;> norm_num [Matrix.mulVec, dotProduct]⟩

end
end Nrf
