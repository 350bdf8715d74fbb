import Verif.Props.C69

/-!
# C70: what the documentation says about the test cases
-/

namespace Nrf
open Spec TestCases
open scoped Exact
open Matrix

namespace Spec

/-- `broyden1965.rs` L59-67, the comments. -/
def documented5 : Vec ℚ 5 :=
  ![-0.822216860374942, -0.7671273188366534, -0.6801151944202548, -0.5433006255144477, -0.32970971675589134]

/-- `broyden1965.rs` L72-80, the comments. -/
def documented6 : Vec ℚ 5 :=
  ![-0.6955898448220816, -0.6643460752880244, -0.606858039869687, -0.5023562299431505, -0.3166247903553998]

/-- `broyden1965.rs` L85-98, the comments. -/
def documented7 : Vec ℚ 10 :=
  ![-0.7304305192613079, -0.7290279647590476, -0.726412390488751, -0.7215373259970219, -0.7124600171972664,
    -0.6955898448220816, -0.6643460752880244, -0.606858039869687, -0.5023562299431505, -0.3166247903553998]

/-- `broyden1965.rs` L103-126, the comments. -/
def documented8 : Vec ℚ 20 :=
  ![-0.7320476414628936, -0.7320448995371867, -0.7320397830403826, -0.7320302355490265, -0.7320124197630307,
    -0.7319791753163778, -0.7319171412487782, -0.7318013872866129, -0.7315853985385723, -0.7311823966465685,
    -0.7304305192613079, -0.7290279647590476, -0.726412390488751, -0.7215373259970219, -0.7124600171972664,
    -0.6955898448220816, -0.6643460752880244, -0.606858039869687, -0.5023562299431505, -0.3166247903553998]

end Spec

private theorem approximates {n : Nat} {a b c δ : ℚ} (hc : 0 ≤ c) (hδ : 0 ≤ δ) (v : Vec ℚ n)
    (h : enclosesAll a b c δ 0 (List.ofFn v).reverse = true) (i : Fin n) :
    |solution Real.sqrt (a : ℝ) b c n i - v i| ≤ δ := by
  have hlen : (List.ofFn v).reverse.length = n := by simp
  have := chain_encloses hc hδ h (n - 1 - i) (by rw [hlen]; have := i.2; omega)
  rw [List.getElem_reverse, List.getElem_ofFn] at this
  have e : (⟨(List.ofFn v).length - 1 - (n - 1 - i.val), by simp; have := i.2; omega⟩ : Fin n) = i := by
    apply Fin.ext
    have := i.2
    simp
    omega
  rw [e] at this
  exact this

private theorem dec_nat (k : Nat) : (Scalar.dec k 0 : ℝ) = ((k : ℚ) : ℝ) := by
  rw [ex_dec]; simp

/-- The values in the comments are exact up to `2e-15`. -/
theorem C70_values :
    (∀ i, |solutionCase5 Real.sqrt i - documented5 i| ≤ 2 / 10 ^ 15) ∧
    (∀ i, |solutionCase6 Real.sqrt i - documented6 i| ≤ 2 / 10 ^ 15) ∧
    (∀ i, |solutionCase7 Real.sqrt i - documented7 i| ≤ 2 / 10 ^ 15) ∧
    (∀ i, |solutionCase8 Real.sqrt i - documented8 i| ≤ 2 / 10 ^ 15) := by
  have hδ : ((2 / 10 ^ 15 : ℚ) : ℝ) = 2 / 10 ^ 15 := by norm_num
  refine ⟨fun i => ?_, fun i => ?_, fun i => ?_, fun i => ?_⟩
  · have := approximates (a := (15 : ℕ)) (b := (235 : ℕ)) (c := (20 : ℕ)) (δ := 2 / 10 ^ 15) (by norm_num) (by norm_num)
      documented5 (by decide +kernel) i
    rw [hδ, ← dec_nat, ← dec_nat, ← dec_nat] at this
    exact this
  · have := approximates (a := (3 : ℕ)) (b := (11 : ℕ)) (c := (4 : ℕ)) (δ := 2 / 10 ^ 15) (by norm_num) (by norm_num)
      documented6 (by decide +kernel) i
    rw [hδ, ← dec_nat, ← dec_nat, ← dec_nat] at this
    exact this
  · have := approximates (a := (3 : ℕ)) (b := (11 : ℕ)) (c := (4 : ℕ)) (δ := 2 / 10 ^ 15) (by norm_num) (by norm_num)
      documented7 (by decide +kernel) i
    rw [hδ, ← dec_nat, ← dec_nat, ← dec_nat] at this
    exact this
  · have := approximates (a := (3 : ℕ)) (b := (11 : ℕ)) (c := (4 : ℕ)) (δ := 2 / 10 ^ 15) (by norm_num) (by norm_num)
      documented8 (by decide +kernel) i
    rw [hδ, ← dec_nat, ← dec_nat, ← dec_nat] at this
    exact this

/-- `broyden1965.rs` L44-54: when the Jacobian of case 10 is singular, with the two points and the table of signs. -/
theorem C70_case10_singular : ∃ r₁ r₂ : ℝ, |r₁ - -0.8968| ≤ 1 / 10 ^ 4 ∧ |r₂ - 2.23| ≤ 1 / 10 ^ 3 ∧
    (∀ x : Vec ℝ 2, (broydenCase10Jac x).det = 0 ↔ broydenCase10Jac x 0 1 = broydenCase10Jac x 1 1) ∧
    (∀ x : Vec ℝ 2, (broydenCase10Jac x).det = 0 ↔ -3 * x 1 ^ 2 + 4 * x 1 + 6 = 0) ∧
    (∀ x : Vec ℝ 2, (broydenCase10Jac x).det = 0 ↔ x 1 = r₁ ∨ x 1 = r₂) ∧
    (∀ y < r₁, -3 * y ^ 2 + 4 * y + 6 < 0) ∧ (∀ y, r₁ < y → y < r₂ → 0 < -3 * y ^ 2 + 4 * y + 6) ∧
    ∀ y > r₂, -3 * y ^ 2 + 4 * y + 6 < 0 := by
  have hs : Real.sqrt 22 ^ 2 = 22 := Real.sq_sqrt (by norm_num)
  have h1 : (4.6904 : ℝ) < Real.sqrt 22 := Real.lt_sqrt_of_sq_lt (by norm_num)
  have h2 : Real.sqrt 22 < 4.6905 := (Real.sqrt_lt' (by norm_num)).2 (by norm_num)
  have hdet : ∀ x : Vec ℝ 2, (broydenCase10Jac x).det = broydenCase10Jac x 1 1 - broydenCase10Jac x 0 1 := by
    intro x
    rw [Matrix.det_fin_two]
    change 1 * _ - _ * 1 = _
    ring
  have hdet' : ∀ x : Vec ℝ 2, (broydenCase10Jac x).det = -2 * (-3 * x 1 ^ 2 + 4 * x 1 + 6) := by
    intro x
    rw [hdet]
    simp [broydenCase10Jac, powi, ex_dec, ex_neg, ex_mul, ex_add, ex_sub, ex_two]
    ring
  have hpoly : ∀ y : ℝ, -3 * y ^ 2 + 4 * y + 6 =
      -3 * (y - (2 - Real.sqrt 22) / 3) * (y - (2 + Real.sqrt 22) / 3) := by
    intro y
    have : -3 * (y - (2 - Real.sqrt 22) / 3) * (y - (2 + Real.sqrt 22) / 3) =
        -3 * y ^ 2 + 4 * y - (4 - Real.sqrt 22 ^ 2) / 3 := by ring
    rw [this, hs]; ring
  refine ⟨(2 - Real.sqrt 22) / 3, (2 + Real.sqrt 22) / 3, ?_, ?_, ?_, ?_, ?_, ?_, ?_, ?_⟩
  · rw [abs_le]; constructor <;> linarith
  · rw [abs_le]; constructor <;> linarith
  · intro x; rw [hdet, sub_eq_zero, eq_comm]
  · intro x
    rw [hdet']
    constructor <;> intro h <;> linarith
  · intro x
    rw [hdet', hpoly]
    simp only [mul_eq_zero, sub_eq_zero]
    norm_num
  · intro y hy
    rw [hpoly]
    nlinarith [mul_pos (sub_pos.2 hy) (show (0 : ℝ) < (2 + Real.sqrt 22) / 3 - y by linarith)]
  · intro y h3 h4
    rw [hpoly]
    nlinarith [mul_pos (sub_pos.2 h3) (sub_pos.2 h4)]
  · intro y hy
    rw [hpoly]
    nlinarith [mul_pos (sub_pos.2 hy) (show (0 : ℝ) < y - (2 - Real.sqrt 22) / 3 by linarith)]

/-- `polynom.rs` L15-27: the residual of `root_with_high_derivative` at 1 is not `0.9`, the Newton step from 1 is not
`1e-10` but more than `0.1`. -/
theorem C70_high_derivative_refuted :
    highDerivative (fun _ => (1 : ℝ)) 0 = 999999999 ∧
    1 / 10 < |highDerivative (fun _ => (1 : ℝ)) 0 / highDerivativeJac (fun _ => (1 : ℝ)) 0 0| := by
  have h1 : highDerivative (fun _ => (1 : ℝ)) 0 = 999999999 := by
    simp only [highDerivative, powi, ex_dec, ex_mul, ex_sub, ex_one]
    norm_num
  have h2 : highDerivativeJac (fun _ => (1 : ℝ)) 0 0 = 9000000000 := by
    simp only [highDerivativeJac, powi, ex_dec, ex_mul]
    norm_num
  refine ⟨h1, ?_⟩
  rw [h1, h2, abs_of_pos (by norm_num)]
  norm_num

/-- What holds of it: the root, and the derivative at 1. -/
theorem C70_high_derivative_partial :
    (∀ x : Vec ℝ 1, highDerivative x = 0 ↔ x 0 = 0.1) ∧ highDerivativeJac (fun _ => (1 : ℝ)) 0 0 = 9e9 := by
  constructor
  · intro x
    have e : highDerivative x 0 = 1000000000 * x 0 ^ 9 - 1 := by
      simp only [highDerivative, powi, ex_dec, ex_mul, ex_sub, ex_one]
      norm_num
      ring
    constructor
    · intro h
      have h0 : highDerivative x 0 = 0 := congrFun h 0
      rw [e] at h0
      have h9 : x 0 ^ 9 = (0.1 : ℝ) ^ 9 := by norm_num; linarith
      exact (Odd.strictMono_pow (by decide : Odd 9)).injective h9
    · intro h
      funext i
      rw [Subsingleton.elim i 0, e, h]
      norm_num
  · simp only [highDerivativeJac, powi, ex_dec, ex_mul]
    norm_num

end Nrf
