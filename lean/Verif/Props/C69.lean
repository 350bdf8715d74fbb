import Verif.Proofs.Solutions
import Verif.Props.C63
import Verif.Props.C68

/-!
# C69: the solutions of the test cases are roots at which Newton-Raphson converges quadratically
-/

namespace Nrf
open Spec TestCases
open scoped Exact Topology
open Matrix Filter

/-- A root of `F` with invertible Jacobian; `jac` is the derivative everywhere. -/
structure Spec.SimpleRoot {n : Nat} (F : Vec ℝ n → Vec ℝ n) (jac : Vec ℝ n → Mat ℝ n) (root : Vec ℝ n) : Prop where
  zero : F root = 0
  smooth : ContDiff ℝ 2 F
  jacobian : ∀ x, IsJacobian F (jac x) x
  invertible : (jac root).det ≠ 0

private theorem simple {k : Nat} {alpha a b c : ℝ} (h : Belongs alpha a b c) :
    SimpleRoot (broyden alpha 1) (broydenJac alpha) (solution Real.sqrt a b c (k + 2)) :=
  ⟨solution_root h, broyden_contDiff _ _, fun x => C68_cases5to8 _ _ x,
    jac_invertible h.neg fun i => (chain_spec h (k + 2 - 1 - i)).2.1.le⟩

theorem C69_case5 : SimpleRoot broydenCase5 broydenCase5Jac (solutionCase5 Real.sqrt) := simple belongs5
theorem C69_case6 : SimpleRoot broydenCase6 broydenCase6Jac (solutionCase6 Real.sqrt) := simple belongs6
theorem C69_case7 : SimpleRoot broydenCase7 broydenCase7Jac (solutionCase7 Real.sqrt) := simple (k := 8) belongs6
theorem C69_case8 : SimpleRoot broydenCase8 broydenCase8Jac (solutionCase8 Real.sqrt) := simple (k := 18) belongs6

/-- The construction of the solutions gives a root in every dimension from 2; the root lies between the starting
point and zero, and is the only root without positive entry. -/
theorem C69_cases5to8 {k : Nat} :
    (∀ x : Vec ℝ (k + 2), (broyden alpha5 1 x = 0 ∧ ∀ i, x i ≤ 0) ↔
      x = solution Real.sqrt (Scalar.dec 15 0) (Scalar.dec 235 0) (Scalar.dec 20 0) (k + 2)) ∧
    (∀ x : Vec ℝ (k + 2), (broyden alpha6 1 x = 0 ∧ ∀ i, x i ≤ 0) ↔
      x = solution Real.sqrt (Scalar.dec 3 0) (Scalar.dec 11 0) (Scalar.dec 4 0) (k + 2)) ∧
    ∀ i : Fin (k + 2),
      (-1 < solution Real.sqrt (Scalar.dec 15 0) (Scalar.dec 235 0) (Scalar.dec 20 0) (k + 2) i ∧
        solution Real.sqrt (Scalar.dec 15 0) (Scalar.dec 235 0) (Scalar.dec 20 0) (k + 2) i < 0) ∧
      (-1 < solution Real.sqrt (Scalar.dec 3 0) (Scalar.dec 11 0) (Scalar.dec 4 0) (k + 2) i ∧
        solution Real.sqrt (Scalar.dec 3 0) (Scalar.dec 11 0) (Scalar.dec 4 0) (k + 2) i < 0) := by
  refine ⟨fun x => ⟨fun h => solution_unique belongs5 h.1 h.2, ?_⟩,
    fun x => ⟨fun h => solution_unique belongs6 h.1 h.2, ?_⟩, fun i => ⟨?_, ?_⟩⟩
  · rintro rfl
    exact ⟨solution_root belongs5, fun i => (chain_spec belongs5 _).2.1.le⟩
  · rintro rfl
    exact ⟨solution_root belongs6, fun i => (chain_spec belongs6 _).2.1.le⟩
  · exact ⟨(chain_spec belongs5 _).1, (chain_spec belongs5 _).2.1⟩
  · exact ⟨(chain_spec belongs6 _).1, (chain_spec belongs6 _).2.1⟩

theorem C69_case9 : SimpleRoot broydenCase9 broydenCase9Jac solutionCase9 where
  zero := by
    funext i
    fin_cases i <;> simp [broydenCase9, solutionCase9, powi, ex_dec, ex_mul, ex_sub, ex_one]
  smooth := by
    refine contDiff_pi.2 fun i => ?_
    fin_cases i <;> simp only [broydenCase9, powi, ex_dec, ex_mul, ex_sub, ex_one] <;> simp <;> fun_prop
  jacobian := C68_case9
  invertible := by
    simp [broydenCase9Jac, Matrix.det_fin_two, ex_dec, ex_neg, ex_mul, ex_one, ex_zero]

theorem C69_case10 : SimpleRoot broydenCase10 broydenCase10Jac solutionCase10 where
  zero := by
    funext i
    fin_cases i <;> simp [broydenCase10, solutionCase10, ex_dec, ex_mul, ex_sub, ex_add, ex_neg, ex_one, ex_two] <;>
      norm_num
  smooth := by
    refine contDiff_pi.2 fun i => ?_
    fin_cases i <;> simp only [broydenCase10, ex_dec, ex_mul, ex_sub, ex_add, ex_neg, ex_one, ex_two] <;> simp <;> fun_prop
  jacobian := C68_case10
  invertible := by
    simp [broydenCase10Jac, solutionCase10, powi, Matrix.det_fin_two, ex_dec, ex_neg, ex_mul, ex_add, ex_sub, ex_one,
      ex_two]
    norm_num

/-- The roots `√2` and `0.1`. -/
theorem C69_polynoms : SimpleRoot square2 dsquare (fun _ => Real.sqrt 2) ∧
    SimpleRoot highDerivative highDerivativeJac (fun _ => 1 / 10) := by
  constructor
  · refine ⟨?_, ?_, C68_square2, ?_⟩
    · funext i
      change Real.sqrt 2 * Real.sqrt 2 - 2 = 0
      rw [Real.mul_self_sqrt (by norm_num), sub_self]
    · refine contDiff_pi.2 fun i => ?_
      simp only [square2, ex_mul, ex_sub, ex_two]
      fun_prop
    · rw [Matrix.det_fin_one]
      change 2 * Real.sqrt 2 ≠ 0
      positivity
  · refine ⟨?_, ?_, C68_high_derivative, ?_⟩
    · funext i
      simp only [highDerivative, powi, ex_dec, ex_mul, ex_sub, ex_one]
      norm_num
    · refine contDiff_pi.2 fun i => ?_
      simp only [highDerivative, powi, ex_dec, ex_mul, ex_sub, ex_one]
      fun_prop
    · rw [Matrix.det_fin_one]
      simp only [highDerivativeJac, powi, ex_dec, ex_mul]
      norm_num

/-- Near a simple root Newton-Raphson on the pair of functions, with absolute residuals as in the tests, converges
quadratically, with or without damping. -/
theorem C69_quadratic {n : Nat} (F : Vec ℝ n → Vec ℝ n) (jac : Vec ℝ n → Mat ℝ n) (root : Vec ℝ n)
    (h : SimpleRoot F jac root) (R : ℝ) (hR : 0 < R) :
    ∃ ρ > 0, ∃ C > 0, C * ρ ≤ 1 / 2 ∧ ∀ tol > 0, ∃ N, ∀ c : Config ℝ n,
      LocalConfig c ⟨fun _ => .Abs, fun _ => .Abs⟩ root R ρ →
      c.params.method = .NewtonRaphson → c.params.tolerance = tol → N ≤ c.params.maxIter → ∀ s : AdapterState ℝ n,
      s.right = 0 → ∀ e0 < ρ, (∀ i, |c.guess i - root i| ≤ e0) →
      ∃ st' s', solve c (fromFunctionAndJacobian F jac) .new s = .ok (st', s', .ok ()) ∧
        ∀ i, C * |s'.inputs i - root i| ≤ (C * e0) ^ 2 ^ st'.iter :=
  C63_quadratic (fromFunctionAndJacobian F jac) (fun s => s.right = 0) (fun _ => True) (fun x => ⟨F x, 0⟩)
    (fun x => ⟨jac x, mzero⟩) ⟨fun _ => .Abs, fun _ => .Abs⟩ root (fromFunctionAndJacobian_computes F jac 0)
    (Eventually.of_forall fun _ => trivial)
    { equal := h.zero
      left := h.smooth.contDiffAt
      right := contDiffAt_const
      leftJacobian := Eventually.of_forall h.jacobian
      rightJacobian := Eventually.of_forall fun x => by
        refine (hasFDerivAt_const (0 : Vec ℝ n) _).congr_fderiv ?_
        ext v i
        simp [Matrix.mulVec, dotProduct, mzero, ex_zero]
      invertible := by
        have : jac root - (mzero : Mat ℝ n) = jac root := sub_zero _
        change (jac root - mzero).det ≠ 0
        rw [this]; exact h.invertible
      normalized := fun i hi => by
        rcases hi with hi | hi
        · exact absurd rfl hi
        · exact absurd hi (by simp) }
    (fromFunctionAndJacobian_differentiates F jac 0) R hR

/-- The hypothesis holds for every case, for instance in dimension 20. -/
example : ∃ ρ > 0, ∃ C > 0, C * ρ ≤ 1 / 2 ∧ ∀ tol > 0, ∃ N, ∀ c : Config ℝ 20,
      LocalConfig c ⟨fun _ => .Abs, fun _ => .Abs⟩ (solutionCase8 Real.sqrt) 1 ρ →
      c.params.method = .NewtonRaphson → c.params.tolerance = tol → N ≤ c.params.maxIter → ∀ s : AdapterState ℝ 20,
      s.right = 0 → ∀ e0 < ρ, (∀ i, |c.guess i - solutionCase8 Real.sqrt i| ≤ e0) →
      ∃ st' s', solve c (fromFunctionAndJacobian broydenCase8 broydenCase8Jac) .new s = .ok (st', s', .ok ()) ∧
        ∀ i, C * |s'.inputs i - solutionCase8 Real.sqrt i| ≤ (C * e0) ^ 2 ^ st'.iter :=
  C69_quadratic _ _ _ C69_case8 1 one_pos

end Nrf
