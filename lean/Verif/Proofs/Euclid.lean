import Verif.Proofs.RankOne
import Mathlib.Analysis.InnerProductSpace.PiL2

/-!
# The Euclidean length of vectors
-/

namespace Nrf
open Matrix

variable {n : Nat}

/-- The Euclidean length. -/
noncomputable def len (v : Fin n → ℝ) : ℝ := ‖(WithLp.toLp 2 v : EuclideanSpace ℝ (Fin n))‖

theorem len_nonneg (v : Fin n → ℝ) : 0 ≤ len v := norm_nonneg _

theorem len_add (v w : Fin n → ℝ) : len (v + w) ≤ len v + len w := by
  unfold len
  rw [WithLp.toLp_add]
  exact norm_add_le _ _

theorem len_neg (v : Fin n → ℝ) : len (-v) = len v := by
  unfold len
  rw [WithLp.toLp_neg]
  exact norm_neg _

theorem len_sub (v w : Fin n → ℝ) : len (v - w) ≤ len v + len w := by
  rw [sub_eq_add_neg, ← len_neg w]
  exact len_add _ _

theorem len_smul (a : ℝ) (v : Fin n → ℝ) : len (a • v) = |a| * len v := by
  unfold len
  rw [WithLp.toLp_smul]
  exact norm_smul _ _

theorem len_zero : len (0 : Fin n → ℝ) = 0 := by
  unfold len
  rw [WithLp.toLp_zero]
  exact norm_zero

theorem len_eq_zero {v : Fin n → ℝ} : len v = 0 ↔ v = 0 := by
  unfold len
  rw [norm_eq_zero, WithLp.toLp_eq_zero]

theorem len_pos {v : Fin n → ℝ} (h : v ≠ 0) : 0 < len v :=
  lt_of_le_of_ne (len_nonneg v) fun e => h (len_eq_zero.1 e.symm)

theorem dot_self (v : Fin n → ℝ) : v ⬝ᵥ v = len v ^ 2 := by
  unfold len
  rw [EuclideanSpace.norm_sq_eq, dotProduct]
  exact Finset.sum_congr rfl fun i _ => by rw [Real.norm_eq_abs, sq_abs, sq]

theorem abs_dot (v w : Fin n → ℝ) : |v ⬝ᵥ w| ≤ len v * len w := by
  refine abs_le_of_sq_le_sq ?_ (mul_nonneg (len_nonneg _) (len_nonneg _))
  rw [mul_pow, ← dot_self, ← dot_self]
  have := Finset.sum_mul_sq_le_sq_mul_sq Finset.univ v w
  simpa [dotProduct, sq] using this

theorem norm_le_len (v : Fin n → ℝ) : ‖v‖ ≤ len v := by
  refine (pi_norm_le_iff_of_nonneg (len_nonneg v)).2 fun i => ?_
  refine abs_le_of_sq_le_sq ?_ (len_nonneg v)
  rw [← dot_self, dotProduct, sq]
  exact Finset.single_le_sum (f := fun i => v i * v i) (fun i _ => mul_self_nonneg _) (Finset.mem_univ i)

theorem len_le_norm (v : Fin n → ℝ) : len v ≤ (n + 1) * ‖v‖ := by
  refine (le_abs_self _).trans (abs_le_of_sq_le_sq ?_ (by positivity))
  rw [← dot_self, dotProduct]
  have h : ∀ i ∈ Finset.univ, v i * v i ≤ ‖v‖ ^ 2 := by
    intro i _
    have := norm_le_pi_norm v i
    rw [Real.norm_eq_abs] at this
    rw [← abs_mul_abs_self, sq]
    exact mul_self_le_mul_self (abs_nonneg _) this
  refine (Finset.sum_le_card_nsmul _ _ _ h).trans ?_
  rw [Finset.card_univ, Fintype.card_fin, nsmul_eq_mul, mul_pow]
  have : (n : ℝ) ≤ (n + 1) ^ 2 := by nlinarith [(Nat.cast_nonneg n : (0 : ℝ) ≤ n)]
  exact mul_le_mul_of_nonneg_right this (by positivity)

/-- The matrix stretches no vector by more than `c`. -/
def Stretch (A : Matrix (Fin n) (Fin n) ℝ) (c : ℝ) : Prop := ∀ v, len (A *ᵥ v) ≤ c * len v

theorem Stretch.mono {A : Matrix (Fin n) (Fin n) ℝ} {c d : ℝ} (h : Stretch A c) (hcd : c ≤ d) : Stretch A d :=
  fun v => (h v).trans (mul_le_mul_of_nonneg_right hcd (len_nonneg v))

/-- Entries bound the stretching. -/
theorem stretch_of_entries {A : Matrix (Fin n) (Fin n) ℝ} {a : ℝ} (ha : 0 ≤ a) (h : ∀ i j, |A i j| ≤ a) :
    Stretch A ((n + 1) * (n * a)) := by
  intro v
  refine (len_le_norm _).trans ?_
  rw [mul_assoc]
  refine mul_le_mul_of_nonneg_left ?_ (by positivity)
  refine (pi_norm_le_iff_of_nonneg (by have := len_nonneg v; positivity)).2 fun i => ?_
  rw [Real.norm_eq_abs, Matrix.mulVec, dotProduct]
  refine (Finset.abs_sum_le_sum_abs _ _).trans ?_
  have h : ∀ j ∈ Finset.univ, |A i j * v j| ≤ a * len v := by
    intro j _
    rw [abs_mul]
    exact mul_le_mul (h i j) ((norm_le_pi_norm v j).trans (norm_le_len v)) (abs_nonneg _) ha
  refine (Finset.sum_le_card_nsmul _ _ _ h).trans ?_
  rw [Finset.card_univ, Fintype.card_fin, nsmul_eq_mul, mul_assoc]

theorem exists_stretch (A : Matrix (Fin n) (Fin n) ℝ) : ∃ c > 0, Stretch A c := by
  have hs : ∀ i j, |A i j| ≤ ∑ i, ∑ j, |A i j| := fun i j =>
    (Finset.single_le_sum (f := fun j => |A i j|) (fun j _ => abs_nonneg _) (Finset.mem_univ j)).trans
      (Finset.single_le_sum (f := fun i => ∑ j, |A i j|) (fun i _ => Finset.sum_nonneg fun j _ => abs_nonneg _)
        (Finset.mem_univ i))
  have h := stretch_of_entries (Finset.sum_nonneg fun i _ => Finset.sum_nonneg fun j _ => abs_nonneg _) hs
  exact ⟨|(n + 1) * (n * ∑ i, ∑ j, |A i j|)| + 1, by positivity, h.mono ((le_abs_self _).trans (by linarith))⟩

/-- A matrix that keeps lengths from below is invertible. -/
theorem det_ne_of_len {A : Matrix (Fin n) (Fin n) ℝ} {b : ℝ} (h : ∀ v, len v ≤ b * len (A *ᵥ v)) : A.det ≠ 0 := by
  intro hd
  obtain ⟨v, hv, h0⟩ := Matrix.exists_mulVec_eq_zero_iff.2 hd
  have := h v
  rw [h0, len_zero, mul_zero] at this
  exact hv (len_eq_zero.1 (le_antisymm this (len_nonneg v)))

theorem inv_mulVec {A : Matrix (Fin n) (Fin n) ℝ} (h : A.det ≠ 0) (v : Fin n → ℝ) : A *ᵥ (A⁻¹ *ᵥ v) = v := by
  rw [mulVec_mulVec, mul_nonsing_inv _ (isUnit_iff_ne_zero.2 h), one_mulVec]

theorem mulVec_inv {A : Matrix (Fin n) (Fin n) ℝ} (h : A.det ≠ 0) (v : Fin n → ℝ) : A⁻¹ *ᵥ (A *ᵥ v) = v := by
  rw [mulVec_mulVec, nonsing_inv_mul _ (isUnit_iff_ne_zero.2 h), one_mulVec]

/-- The projection along `s` shortens. -/
theorem len_project (s v : Fin n → ℝ) : len (v - ((s ⬝ᵥ s)⁻¹ * (s ⬝ᵥ v)) • s) ≤ len v := by
  by_cases hs : s = 0
  · subst hs; simp
  have hp : 0 < s ⬝ᵥ s := by rw [dot_self]; have := len_pos hs; positivity
  refine (le_abs_self _).trans (abs_le_of_sq_le_sq ?_ (len_nonneg v))
  rw [← dot_self, ← dot_self]
  simp only [sub_dotProduct, dotProduct_sub, smul_dotProduct, dotProduct_smul, smul_eq_mul]
  rw [dotProduct_comm v s]
  have : (s ⬝ᵥ s)⁻¹ * (s ⬝ᵥ v) * (s ⬝ᵥ v) ≥ 0 := by
    rw [mul_assoc]; exact mul_nonneg (inv_nonneg.2 hp.le) (mul_self_nonneg _)
  have e : (s ⬝ᵥ s)⁻¹ * (s ⬝ᵥ v) * ((s ⬝ᵥ s)⁻¹ * (s ⬝ᵥ v) * (s ⬝ᵥ s)) = (s ⬝ᵥ s)⁻¹ * (s ⬝ᵥ v) * (s ⬝ᵥ v) := by
    field_simp
  linarith

/-- The change of the distance of a matrix `J` to `A` by an update with the pair `s`, `y` in the direction `s`. -/
theorem stretch_update {J A : Matrix (Fin n) (Fin n) ℝ} {c b : ℝ} {s y : Fin n → ℝ} (h : Stretch (J - A) c) (hc : 0 ≤ c)
    (hb : len (y - A *ᵥ s) ≤ b * len s) (hb0 : 0 ≤ b) :
    Stretch (J + (s ⬝ᵥ s)⁻¹ • vecMulVec (y - J *ᵥ s) s - A) (c + b) := by
  intro v
  have e : (J + (s ⬝ᵥ s)⁻¹ • vecMulVec (y - J *ᵥ s) s - A) *ᵥ v =
      (J - A) *ᵥ (v - ((s ⬝ᵥ s)⁻¹ * (s ⬝ᵥ v)) • s) + ((s ⬝ᵥ s)⁻¹ * (s ⬝ᵥ v)) • (y - A *ᵥ s) := by
    rw [sub_mulVec, add_mulVec, smul_mulVec, vecMulVec_mulVec', mulVec_sub, mulVec_smul, sub_mulVec, sub_mulVec,
      smul_smul]
    module
  rw [e]
  refine (len_add _ _).trans ?_
  rw [add_mul]
  refine add_le_add ((h _).trans (mul_le_mul_of_nonneg_left (len_project s v) hc)) ?_
  rw [len_smul, abs_mul]
  by_cases hs : s = 0
  · subst hs; simp [mul_nonneg hb0 (len_nonneg v)]
  have hp := len_pos hs
  rw [dot_self, abs_of_pos (by positivity)]
  calc (len s ^ 2)⁻¹ * |s ⬝ᵥ v| * len (y - A *ᵥ s) ≤ (len s ^ 2)⁻¹ * (len s * len v) * (b * len s) := by
        refine mul_le_mul (mul_le_mul_of_nonneg_left (abs_dot s v) (by positivity)) hb (len_nonneg _) ?_
        have := len_nonneg v
        positivity
    _ = b * len v := by field_simp

end Nrf
