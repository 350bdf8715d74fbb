import Verif.Proofs.DampedScalar
import Verif.Proofs.KantorovichStationary

/-!
# Newton steps with any slope between the bounds
-/

namespace Nrf
open Spec
open scoped Exact
open Matrix

variable {f f' : ℝ → ℝ} {μ M : ℝ}

theorem Spec.Slopes.chords (h : Slopes f f' μ M) : Chords f μ M := ⟨h.pos, h.chord⟩

/-- The factor gained by a step. -/
theorem Spec.Chords.factor (h : Chords f μ M) (hM : M < 2 * μ) :
    0 ≤ max (1 - μ / M) (M / μ - 1) ∧ max (1 - μ / M) (M / μ - 1) < 1 := by
  obtain ⟨σ, h1, h2, -⟩ := h.chord 0 0
  have hM0 : 0 < M := h.pos.trans_le (h1.trans h2)
  have h3 : μ / M ≤ 1 := by rw [div_le_one hM0]; exact h1.trans h2
  have h4 : 0 < μ / M := div_pos h.pos hM0
  have h5 : M / μ < 2 := by rw [div_lt_iff₀ h.pos]; exact hM
  exact ⟨le_max_of_le_left (by linarith), max_lt (by linarith) (by linarith)⟩

/-- A step with any slope between the bounds. -/
theorem Spec.Chords.cut (h : Chords f μ M) {σ : ℝ} (h1 : μ ≤ σ) (h2 : σ ≤ M) (x : ℝ) :
    |f (x - f x / σ)| ≤ max (1 - μ / M) (M / μ - 1) * |f x| := by
  obtain ⟨τ, g1, g2, g3⟩ := h.chord x (x - f x / σ)
  have hσ : 0 < σ := h.pos.trans_le h1
  have hM : 0 < M := hσ.trans_le h2
  have e : f (x - f x / σ) = (1 - τ / σ) * f x := by
    have : f (x - f x / σ) = f x + τ * (-(f x / σ)) := by linarith
    rw [this]
    field_simp
    ring
  have k1 : μ / M ≤ τ / σ := by
    rw [div_le_div_iff₀ hM hσ]
    exact mul_le_mul g1 h2 hσ.le (h.pos.le.trans g1)
  have k2 : τ / σ ≤ M / μ := by
    rw [div_le_div_iff₀ hσ h.pos]
    exact mul_le_mul g2 h1 h.pos.le hM.le
  rw [e, abs_mul]
  refine mul_le_mul_of_nonneg_right ?_ (abs_nonneg _)
  rw [abs_le]
  constructor
  · have := le_max_right (1 - μ / M) (M / μ - 1)
    linarith
  · exact le_max_of_le_left (by linarith)

/-- The slope of the finite difference. -/
theorem Spec.Chords.quotient (h : Chords f μ M) (x : ℝ) {d : ℝ} (hd : d ≠ 0) :
    μ ≤ (f (x + d) - f x) / d ∧ (f (x + d) - f x) / d ≤ M := by
  obtain ⟨σ, h1, h2, h3⟩ := h.chord x (x + d)
  have : (f (x + d) - f x) / d = σ := by
    rw [h3, add_sub_cancel_left, mul_div_cancel_right₀ _ hd]
  rw [this]
  exact ⟨h1, h2⟩

theorem one_det {σ : ℝ} (h : σ ≠ 0) : (Matrix.of fun _ _ => σ : Mat ℝ 1).det ≠ 0 := by
  rw [Matrix.det_fin_one]
  exact h

theorem one_solve {σ : ℝ} (h : σ ≠ 0) (v : ℝ) :
    (Matrix.of fun _ _ => σ : Mat ℝ 1)⁻¹ *ᵥ (fun _ => v : Vec ℝ 1) = fun _ => v / σ := by
  have e : (fun _ => v : Vec ℝ 1) = (Matrix.of fun _ _ => σ : Mat ℝ 1) *ᵥ fun _ => v / σ := by
    funext i
    simp only [Matrix.mulVec, dotProduct, Matrix.of_apply, Fin.sum_univ_one]
    rw [mul_div_cancel₀ _ h]
  rw [e, Matrix.mulVec_mulVec, ex_inv_mul (one_det h), Matrix.one_mulVec]

end Nrf
