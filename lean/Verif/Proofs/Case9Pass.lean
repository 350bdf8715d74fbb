import Verif.Proofs.SystemFollow
import Verif.Proofs.Case9Float

/-!
# The passes of Newton-Raphson on case 9 in binary64
-/

namespace Nrf
open Fl Spec TestCases

section
variable {c : Config F64 2}

/-- From a point whose first unknown is at most `a`, a pass leads to `(1, 1 - (1 - x) ^ 2)` with an error of at most `δ`. -/
theorem case9_pass (hc : SystemDefault c) (hdot : AccurateDot c.la) (hla : c.la.inv = luInverse)
    (hmeth : c.params.method = .NewtonRaphson) {x : Vec F64 2} (hx : ∀ i, (x i).IsFinite) {a α β M δ : ℝ}
    (h0 : |rv (x 0)| ≤ a) (ha : a ≤ 33) (h1 : |rv (x 1)| ≤ 1200) (hα : 20 * a ≤ α) (hα' : 10 ≤ α) (hβ : 1 ≤ β)
    (hβ' : 1 / 10 + 2 * a ≤ β) (hα1 : α ≤ 2 ^ 20) (hβ1 : β ≤ 100) (hcond : (α * β) ^ 2 ≤ 15 * 10 ^ 9)
    (hM : |10 * (rv (x 1) - rv (x 0) ^ 2)| ≤ M) (hM' : |1 - rv (x 0)| ≤ M) (hM1 : M ≤ 20000)
    (hδ : stepError 2 α β (2 / 10 ^ 11) (1 / 10 ^ 9) M 2000 ≤ δ) {st : Solver F64 2} {s : AdapterState F64 2}
    (hdb : st.debug = false)
    (hat : At (fromFunctionAndJacobian broydenCase9 broydenCase9Jac) (fun s => s.right = fun _ => .zero false) case9F s x) :
    ∃ st' s' y, iterate c (fromFunctionAndJacobian broydenCase9 broydenCase9Jac) st s =
        .ok (st', s', .ok (amax (evaluateErrors c (fromFunctionAndJacobian broydenCase9 broydenCase9Jac) s'))) ∧
      At (fromFunctionAndJacobian broydenCase9 broydenCase9Jac) (fun s => s.right = fun _ => .zero false) case9F s' y ∧
      st'.debug = false ∧ st'.valid = true ∧ (∀ i, (y i).IsFinite) ∧ |rv (y 0) - 1| ≤ δ ∧
      |rv (y 1) - (1 - (1 - rv (x 0)) ^ 2)| ≤ δ := by
  have h0' := h0.trans ha
  have hx0 := abs_le.1 h0'
  have hM0 : 0 ≤ M := (_root_.abs_nonneg _).trans hM
  have hphi : ‖case9Phi (reals x)‖ ≤ M := (pi_norm_le_iff_of_nonneg hM0).2 (Fin.forall_fin_two.2 ⟨hM, hM'⟩)
  have hX : ‖reals x - (case9B (reals x)).mulVec (case9Phi (reals x))‖ ≤ 2000 := by
    rw [case9_exact]
    refine (pi_norm_le_iff_of_nonneg (by norm_num)).2 (Fin.forall_fin_two.2 ⟨?_, ?_⟩)
    · change |(1 : ℝ)| ≤ _
      norm_num
    · change |1 - (1 - rv (x 0)) ^ 2| ≤ _
      have h2 : (1 - rv (x 0)) ^ 2 ≤ 34 ^ 2 := by
        rw [← sq_abs]
        refine pow_le_pow_left₀ (_root_.abs_nonneg _) ?_ 2
        rw [abs_le]
        constructor <;> linarith
      have h3 := sq_nonneg (1 - rv (x 0))
      rw [abs_le]
      constructor <;> linarith
  obtain ⟨e1, e2⟩ := case9_evaluates hx h0' h1
  obtain ⟨j1, j2⟩ := case9_jacobian hx h0'
  have hf := fromFunctionAndJacobian_computes (F := F64) broydenCase9 broydenCase9Jac (fun _ => .zero false)
  have hg := fromFunctionAndJacobian_differentiates (F := F64) broydenCase9 broydenCase9Jac (fun _ => .zero false)
  obtain ⟨st', s', y, k1, k2, k3, k4, k5, k6⟩ := system_newton_pass (n := 2) (by norm_num) hc hdot hla hmeth hf hg
    (case9_posed (x := reals x) h0 hα hα' hβ hβ' hα1 (hβ1.trans (by norm_num)) hcond) (by linarith) hx (by norm_num) j1 j2 (by linarith) e1 e2 hphi hX
    ((by linarith : M + 1 / 10 ^ 9 ≤ 2 ^ 15).trans (pow_le_pow_right₀ (by norm_num) (by norm_num)))
    ((zpow_le_zpow_right₀ (by norm_num) (by norm_num : (-900 : ℤ) ≤ 0)).trans (by norm_num))
    ((by norm_num : (2000 : ℝ) ≤ 2 ^ 11).trans (pow_le_pow_right₀ (by norm_num) (by norm_num)))
    (fun _ _ _ => trivial) hdb hat
  have k7 := k6.trans hδ
  rw [case9_exact] at k7
  refine ⟨st', s', y, k1, k2, k3, k4, k5, ?_, ?_⟩
  · exact (norm_le_pi_norm (reals y - ![1, 1 - (1 - reals x 0) ^ 2]) 0).trans k7
  · exact (norm_le_pi_norm (reals y - ![1, 1 - (1 - reals x 0) ^ 2]) 1).trans k7

end
end Nrf
