import Verif.Proofs.QuotientFloat
import Verif.Model.TestCases
import Verif.Props.C80
import Mathlib.LinearAlgebra.Matrix.Notation

/-!
# Case 9 of Broyden's tests evaluated in binary64
-/

namespace Nrf
open Fl Spec TestCases

/-- An absolute error of operations whose results are at most `2 ^ 15`. -/
noncomputable def wr : ℝ := 2 ^ (-37 : ℤ)

theorem wr_pos : 0 < wr := by unfold wr; positivity
theorem wr_le : wr ≤ 8 / 10 ^ 12 := by unfold wr; norm_num

theorem moderate {x : ℝ} (h : |x| ≤ 2 ^ 15) : |x| ≤ 2 ^ 1000 := h.trans (pow_le_pow_right₀ (by norm_num) (by norm_num))

theorem ur_moderate {x : ℝ} (h : |x| ≤ 2 ^ 15) : |x| * ur + tr ≤ wr := by
  have h1 : |x| * ur ≤ 2 ^ 15 * ur := mul_le_mul_of_nonneg_right h ur_pos.le
  have h2 : tr ≤ ur := by
    refine tr_le.trans ?_
    have : (2 : ℝ) ^ (-1000 : ℤ) ≤ 2 ^ (0 : ℤ) := zpow_le_zpow_right₀ (by norm_num) (by norm_num)
    rw [zpow_zero] at this
    exact (mul_le_mul_of_nonneg_left this ur_pos.le).trans (le_of_eq (_root_.mul_one _))
  have h3 : (2 ^ 15 + 1) * ur ≤ wr := by unfold ur wr; norm_num
  linarith

theorem mul_moderate {a b : F64} (ha : a.IsFinite) (hb : b.IsFinite) (h : |rv a * rv b| ≤ 2 ^ 15) :
    (Fl.mul a b).IsFinite ∧ |rv (Fl.mul a b) - rv a * rv b| ≤ wr := by
  obtain ⟨h1, h2⟩ := rv_mul ha hb (moderate h)
  exact ⟨h1, h2.trans (ur_moderate h)⟩

theorem add_moderate {a b : F64} (ha : a.IsFinite) (hb : b.IsFinite) (h : |rv a + rv b| ≤ 2 ^ 15) :
    (Fl.add a b).IsFinite ∧ |rv (Fl.add a b) - (rv a + rv b)| ≤ wr := by
  obtain ⟨h1, h2⟩ := rv_add ha hb (moderate h)
  exact ⟨h1, h2.trans ((le_add_of_nonneg_right tr_nonneg).trans (ur_moderate h))⟩

theorem sub_moderate {a b : F64} (ha : a.IsFinite) (hb : b.IsFinite) (h : |rv a - rv b| ≤ 2 ^ 15) :
    (Fl.sub a b).IsFinite ∧ |rv (Fl.sub a b) - (rv a - rv b)| ≤ wr := by
  obtain ⟨h1, h2⟩ := rv_sub ha hb (moderate h)
  exact ⟨h1, h2.trans ((le_add_of_nonneg_right tr_nonneg).trans (ur_moderate h))⟩

/-- The equations of case 9, over the reals. -/
noncomputable def case9Phi (x : Fin 2 → ℝ) : Fin 2 → ℝ := ![10 * (x 1 - x 0 ^ 2), 1 - x 0]

/-- Their Jacobian. -/
noncomputable def case9A (x : Fin 2 → ℝ) : Matrix (Fin 2) (Fin 2) ℝ := !![-20 * x 0, 10; -1, 0]

/-- Its inverse. -/
noncomputable def case9B (x : Fin 2 → ℝ) : Matrix (Fin 2) (Fin 2) ℝ := !![0, -1; 1 / 10, -2 * x 0]

/-- The model of case 9, with right hand sides of zero. -/
def case9F (x : Vec F64 2) : ResidualsValues F64 2 := ⟨broydenCase9 x, fun _ => .zero false⟩

def case9G (x : Vec F64 2) : JacobianValues F64 2 := ⟨broydenCase9Jac x, mzero⟩

private theorem ten_val : (Scalar.dec 10 0 : F64).IsFinite ∧ (Scalar.dec 10 0 : F64).val = 10 := by decide +kernel
private theorem twenty_val : (Scalar.neg (Scalar.dec 20 0) : F64).IsFinite ∧ (Scalar.neg (Scalar.dec 20 0) : F64).val = -20 := by
  decide +kernel
private theorem rest_val : ((Fl.sub (Scalar.dec 10 0) (.zero false) : F64).IsFinite ∧
    (Fl.sub (Scalar.dec 10 0) (.zero false) : F64).val = 10) ∧
    ((Fl.sub (Scalar.neg Scalar.one) (.zero false) : F64).IsFinite ∧
    (Fl.sub (Scalar.neg Scalar.one) (.zero false) : F64).val = -1) ∧
    ((Fl.sub (.zero false) (.zero false) : F64).IsFinite ∧ (Fl.sub (.zero false) (.zero false) : F64).val = 0) := by decide +kernel

private theorem zero_fin : (.zero false : F64).IsFinite := trivial

theorem case9_evaluates {x : Vec F64 2} (hx : ∀ i, (x i).IsFinite) (h0 : |rv (x 0)| ≤ 33) (h1 : |rv (x 1)| ≤ 1200) :
    (∀ i, (differences case9F x i).IsFinite) ∧ ‖reals (differences case9F x) - case9Phi (reals x)‖ ≤ 1 / 10 ^ 9 := by
  obtain ⟨f10, v10⟩ := ten_val
  have v10' : rv (Scalar.dec 10 0 : F64) = 10 := by unfold rv; rw [v10]; norm_num
  obtain ⟨w, hw⟩ : ∃ w, w = wr := ⟨_, rfl⟩
  have w0 := wr_pos
  have w1 := wr_le
  have fz := zero_fin
  have vz := rv_zero
  rw [← hw] at w0 w1
  have hsq : |rv (x 0) * rv (x 0)| ≤ 1089 := by
    rw [abs_mul]
    calc |rv (x 0)| * |rv (x 0)| ≤ 33 * 33 := mul_le_mul h0 h0 (_root_.abs_nonneg _) (by norm_num)
      _ = 1089 := by norm_num
  obtain ⟨a1, a2⟩ := mul_moderate (hx 0) (hx 0) (hsq.trans (by norm_num))
  rw [← hw] at a2
  rw [abs_le] at h0 h1 hsq a2
  obtain ⟨b1, b2⟩ := sub_moderate (hx 1) a1 (by rw [abs_le]; constructor <;> linarith)
  rw [← hw, abs_le] at b2
  obtain ⟨c1, c2⟩ := mul_moderate f10 b1 (by rw [v10', abs_le]; constructor <;> linarith)
  rw [← hw, v10', abs_le] at c2
  obtain ⟨d1, d2⟩ := sub_moderate c1 fz (by rw [vz, abs_le]; constructor <;> linarith)
  rw [← hw, vz, abs_le] at d2
  have v1 := rv_one
  obtain ⟨e1, e2⟩ := sub_moderate one_finite (hx 0) (by rw [v1, abs_le]; constructor <;> linarith)
  rw [← hw, v1, abs_le] at e2
  obtain ⟨g1, g2⟩ := sub_moderate e1 fz (by rw [vz, abs_le]; constructor <;> linarith)
  rw [← hw, vz, abs_le] at g2
  refine ⟨Fin.forall_fin_two.2 ⟨d1, g1⟩, (pi_norm_le_iff_of_nonneg (by norm_num)).2 (Fin.forall_fin_two.2 ⟨?_, ?_⟩)⟩
  · change |rv (Fl.sub (Fl.mul (Scalar.dec 10 0) (Fl.sub (x 1) (Fl.mul (x 0) (x 0)))) (.zero false)) -
      10 * (rv (x 1) - rv (x 0) ^ 2)| ≤ _
    rw [sq, abs_le]
    constructor <;> linarith
  · change |rv (Fl.sub (Fl.sub Fl.one (x 0)) (.zero false)) - (1 - rv (x 0))| ≤ _
    rw [abs_le]
    constructor <;> linarith

theorem case9_jacobian {x : Vec F64 2} (hx : ∀ i, (x i).IsFinite) (h0 : |rv (x 0)| ≤ 33) :
    (∀ i j, (jacobianDifferences case9G x i j).IsFinite) ∧
      ∀ i, ∑ j, |case9A (reals x) i j - ((jacobianDifferences case9G x i j).val : ℝ)| ≤ 2 / 10 ^ 11 := by
  obtain ⟨f20, v20⟩ := twenty_val
  have v20' : rv (Scalar.neg (Scalar.dec 20 0) : F64) = -20 := by unfold rv; rw [v20]; norm_num
  obtain ⟨w, hw⟩ : ∃ w, w = wr := ⟨_, rfl⟩
  have w0 := wr_pos
  have w1 := wr_le
  have fz := zero_fin
  have vz := rv_zero
  rw [← hw] at w0 w1
  rw [abs_le] at h0
  obtain ⟨a1, a2⟩ := mul_moderate f20 (hx 0) (by rw [v20', abs_le]; constructor <;> linarith)
  rw [← hw, v20', abs_le] at a2
  obtain ⟨d1, d2⟩ := sub_moderate a1 fz (by rw [vz, abs_le]; constructor <;> linarith)
  rw [← hw, vz, abs_le] at d2
  obtain ⟨⟨p1, p2⟩, ⟨q1, q2⟩, ⟨r1, r2⟩⟩ := rest_val
  refine ⟨Fin.forall_fin_two.2 ⟨Fin.forall_fin_two.2 ⟨d1, p1⟩, Fin.forall_fin_two.2 ⟨q1, r1⟩⟩, Fin.forall_fin_two.2 ⟨?_, ?_⟩⟩
  · rw [Fin.sum_univ_two]
    have k0 : |case9A (reals x) 0 0 - ((jacobianDifferences case9G x 0 0).val : ℝ)| ≤ 2 / 10 ^ 11 := by
      change |-20 * rv (x 0) - rv (Fl.sub (Fl.mul (Scalar.neg (Scalar.dec 20 0)) (x 0)) (.zero false))| ≤ _
      rw [abs_le]
      constructor <;> linarith
    have k1 : |case9A (reals x) 0 1 - ((jacobianDifferences case9G x 0 1).val : ℝ)| = 0 := by
      change |(10 : ℝ) - ((Fl.sub (Scalar.dec 10 0) (.zero false) : F64).val : ℝ)| = 0
      rw [p2]
      norm_num
    linarith
  · rw [Fin.sum_univ_two]
    have k0 : |case9A (reals x) 1 0 - ((jacobianDifferences case9G x 1 0).val : ℝ)| = 0 := by
      change |(-1 : ℝ) - ((Fl.sub (Scalar.neg Scalar.one) (.zero false) : F64).val : ℝ)| = 0
      rw [q2]
      norm_num
    have k1 : |case9A (reals x) 1 1 - ((jacobianDifferences case9G x 1 1).val : ℝ)| = 0 := by
      change |(0 : ℝ) - ((Fl.sub (.zero false) (.zero false) : F64).val : ℝ)| = 0
      rw [r2]
      norm_num
    rw [k0, k1]
    norm_num

theorem case9_posed {x : Fin 2 → ℝ} {a α β : ℝ} (h : |x 0| ≤ a) (hα : 20 * a ≤ α) (hα' : 10 ≤ α) (hβ : 1 ≤ β) (hβ' : 1 / 10 + 2 * a ≤ β)
    (hα1 : α ≤ 2 ^ 20) (hβ1 : β ≤ 2 ^ 20) (hc : (α * β) ^ 2 ≤ 15 * 10 ^ 9) : WellPosed (case9A x) (case9B x) α β := by
  have hbig : (2 : ℝ) ^ 20 ≤ 2 ^ 89 := pow_le_pow_right₀ (by norm_num) (by norm_num)
  refine ⟨?_, Fin.forall_fin_two.2 ⟨Fin.forall_fin_two.2 ⟨?_, ?_⟩, Fin.forall_fin_two.2 ⟨?_, ?_⟩⟩,
    Fin.forall_fin_two.2 ⟨?_, ?_⟩, hα1.trans hbig, hβ1.trans hbig, ?_⟩
  · ext i j
    fin_cases i <;> fin_cases j <;> simp [case9A, case9B, Matrix.mul_apply, Fin.sum_univ_two] <;> ring
  · change |-20 * x 0| ≤ α
    rw [abs_mul]
    norm_num
    linarith
  · change |(10 : ℝ)| ≤ α
    norm_num
    exact hα'
  · change |(-1 : ℝ)| ≤ α
    norm_num
    linarith
  · change |(0 : ℝ)| ≤ α
    norm_num
    linarith
  · rw [Fin.sum_univ_two]
    change |(0 : ℝ)| + |(-1 : ℝ)| ≤ β
    norm_num
    exact hβ
  · rw [Fin.sum_univ_two]
    change |(1 / 10 : ℝ)| + |-2 * x 0| ≤ β
    rw [abs_mul]
    norm_num
    linarith
  · have : (2048 * ((2 : ℕ) : ℝ) ^ 5 * 3 ^ 2 * 2 ^ (-53 : ℤ)) * (15 * 10 ^ 9) ≤ 1 := by norm_num
    exact (mul_le_mul_of_nonneg_left hc (by positivity)).trans this

/-- The exact Newton iterate. -/
theorem case9_exact (x : Fin 2 → ℝ) : x - (case9B x).mulVec (case9Phi x) = ![1, 1 - (1 - x 0) ^ 2] := by
  funext i
  fin_cases i <;> simp [case9B, case9Phi] <;> ring

end Nrf
