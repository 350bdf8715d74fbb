import Verif.Proofs.TestCases

/-!
# C68: the Jacobians of the test cases are the derivatives of the test functions
-/

namespace Nrf
open Spec TestCases
open scoped Exact
open Matrix

/-- Cases 5 to 8 of Broyden, in every dimension from 2, for all parameters. -/
theorem C68_cases5to8 {k : Nat} (alpha beta : ℝ) (x : Vec ℝ (k + 2)) :
    IsJacobian (broyden alpha beta) (broydenJac alpha x) x :=
  broyden_isJacobian alpha beta x

/-- The functions of the cases as they are exported. -/
theorem C68_case5 (x : Vec ℝ 5) : IsJacobian broydenCase5 (broydenCase5Jac x) x := C68_cases5to8 _ _ x
theorem C68_case6 (x : Vec ℝ 5) : IsJacobian broydenCase6 (broydenCase6Jac x) x := C68_cases5to8 _ _ x
theorem C68_case7 (x : Vec ℝ 10) : IsJacobian broydenCase7 (broydenCase7Jac x) x := C68_cases5to8 (k := 8) _ _ x
theorem C68_case8 (x : Vec ℝ 20) : IsJacobian broydenCase8 (broydenCase8Jac x) x := C68_cases5to8 (k := 18) _ _ x

private theorem coord {n : Nat} (i : Fin n) (x : Vec ℝ n) :
    HasFDerivAt (fun y : Vec ℝ n => y i) (ContinuousLinearMap.proj (R := ℝ) (φ := fun _ : Fin n => ℝ) i) x :=
  (ContinuousLinearMap.proj (R := ℝ) (φ := fun _ : Fin n => ℝ) i).hasFDerivAt

/-- Case 9. -/
theorem C68_case9 (x : Vec ℝ 2) : IsJacobian broydenCase9 (broydenCase9Jac x) x := by
  have hf : broydenCase9 = fun y : Vec ℝ 2 => ![10 * (y 1 - y 0 * y 0), 1 - y 0] := by
    funext y i
    fin_cases i
    · change ((10 : ℕ) / 10 ^ 0 : ℝ) * (y 1 - y 0 * y 0) = 10 * (y 1 - y 0 * y 0); simp
    · rfl
  rw [hf]
  refine hasFDerivAt_pi'.2 fun i => ?_
  fin_cases i
  · refine (((coord 1 x).sub ((coord 0 x).mul (coord 0 x))).const_mul 10).congr_fderiv ?_
    ext v
    simp [broydenCase9Jac, Matrix.mulVec, dotProduct, Fin.sum_univ_two, ex_dec, ex_neg, ex_mul, ex_one]
    ring
  · refine ((coord 0 x).const_sub 1).congr_fderiv ?_
    ext v
    simp [broydenCase9Jac, Matrix.mulVec, dotProduct, Fin.sum_univ_two, ex_neg, ex_one, ex_zero]

/-- Case 10. -/
theorem C68_case10 (x : Vec ℝ 2) : IsJacobian broydenCase10 (broydenCase10Jac x) x := by
  have hf : broydenCase10 = fun y : Vec ℝ 2 => ![-13 + y 0 + ((-y 1 + 5) * y 1 - 2) * y 1,
      -29 + y 0 + ((y 1 + 1) * y 1 - 14) * y 1] := by
    funext y i
    fin_cases i
    · change -((13 : ℕ) / 10 ^ 0 : ℝ) + y 0 + ((-y 1 + ((5 : ℕ) / 10 ^ 0 : ℝ)) * y 1 - 2) * y 1 =
        -13 + y 0 + ((-y 1 + 5) * y 1 - 2) * y 1
      simp
    · change -((29 : ℕ) / 10 ^ 0 : ℝ) + y 0 + ((y 1 + 1) * y 1 - ((14 : ℕ) / 10 ^ 0 : ℝ)) * y 1 =
        -29 + y 0 + ((y 1 + 1) * y 1 - 14) * y 1
      simp
  rw [hf]
  refine hasFDerivAt_pi'.2 fun i => ?_
  fin_cases i
  · refine (((coord 0 x).const_add (-13)).add
      ((((((coord 1 x).neg).add_const 5).mul (coord 1 x)).sub_const 2).mul (coord 1 x))).congr_fderiv ?_
    ext v
    simp [broydenCase10Jac, Matrix.mulVec, dotProduct, Fin.sum_univ_two, ex_dec, ex_neg, ex_mul, ex_one, ex_two, ex_add,
      ex_sub, powi]
    ring
  · refine (((coord 0 x).const_add (-29)).add
      ((((((coord 1 x)).add_const 1).mul (coord 1 x)).sub_const 14).mul (coord 1 x))).congr_fderiv ?_
    ext v
    simp [broydenCase10Jac, Matrix.mulVec, dotProduct, Fin.sum_univ_two, ex_dec, ex_neg, ex_mul, ex_one, ex_two, ex_add,
      powi]
    ring

/-- `x² = 2`. -/
theorem C68_square2 (x : Vec ℝ 1) : IsJacobian square2 (dsquare x) x := by
  refine hasFDerivAt_pi'.2 fun i => ?_
  refine (((coord 0 x).mul (coord 0 x)).sub_const 2).congr_fderiv ?_
  ext v
  simp [dsquare, Matrix.mulVec, dotProduct, ex_mul, ex_two]
  ring

/-- `10⁹ x⁹ = 1`. -/
theorem C68_high_derivative (x : Vec ℝ 1) : IsJacobian highDerivative (highDerivativeJac x) x := by
  have hf : highDerivative = fun (y : Vec ℝ 1) (_ : Fin 1) => (1000000000 : ℝ) * y 0 ^ 9 - 1 := by
    funext y i
    simp only [highDerivative, powi, ex_dec, ex_mul, ex_sub, ex_one]
    norm_num
    ring
  rw [hf]
  refine hasFDerivAt_pi'.2 fun i => ?_
  refine ((((coord 0 x).pow 9).const_mul 1000000000).sub_const 1).congr_fderiv ?_
  ext v
  simp [highDerivativeJac, Matrix.mulVec, dotProduct, ex_mul, ex_dec, powi]
  ring

/-- The Jacobian of case 6 at the starting point is not trivial. -/
example : (broydenCase6Jac (broydenInit 5) : Mat ℚ 5) =
    !![-4, 2, 0, 0, 0; -4, -2, 2, 0, 0; -4, -2, -2, 2, 0; -4, -2, -2, -2, 2; -4, -2, -2, -2, -2] := by
  decide +kernel

end Nrf
