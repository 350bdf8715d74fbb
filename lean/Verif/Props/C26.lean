import Verif.Proofs.Exact

/-!
# C26: the adaptive residual interpolates between the absolute and the relative one
-/

namespace Nrf
open scoped Exact

variable {K : Type} [Field K] [LinearOrder K] [IsStrictOrderedRing K]

private theorem half_nn {a : K} (h : 0 ≤ a) : 0 ≤ a / 2 := div_nonneg h zero_le_two

/-- `Adapt` is never above `Abs`. -/
theorem C26_adapt_le_abs (x y : K) : |normalization x y .Adapt| ≤ |normalization x y .Abs| := by
  rw [normalization_exact, normalization_exact]
  simp only [Spec.residual]
  have h := abs_nonneg (x + y)
  have h1 : (1 : K) ≤ 1 + |x + y| / 2 := by linarith [half_nn h]
  rw [abs_div, abs_of_pos (by linarith : (0 : K) < 1 + |x + y| / 2)]
  exact div_le_self (abs_nonneg _) h1

/-- `Adapt` is never above `Rel`, when the sum is not zero. -/
theorem C26_adapt_le_rel (x y : K) (h : x + y ≠ 0) :
    |normalization x y .Adapt| ≤ |normalization x y .Rel| := by
  rw [normalization_exact, normalization_exact]
  simp only [Spec.residual]
  have h0 := abs_pos.2 h
  rw [abs_div, abs_div, abs_of_pos (by linarith [half_pos h0] : (0 : K) < 1 + |x + y| / 2),
    abs_of_pos (half_pos h0)]
  exact div_le_div_of_nonneg_left (abs_nonneg _) (half_pos h0) (by linarith)

/-- The inverses add up. -/
theorem C26_harmonic (x y : K) (hxy : x ≠ y) (h : x + y ≠ 0) :
    1 / |normalization x y .Adapt| = 1 / |normalization x y .Abs| + 1 / |normalization x y .Rel| := by
  rw [normalization_exact, normalization_exact, normalization_exact]
  simp only [Spec.residual]
  have h0 := abs_pos.2 h
  have h1 := abs_pos.2 (sub_ne_zero.2 hxy)
  rw [abs_div, abs_div, abs_of_pos (by linarith [half_pos h0] : (0 : K) < 1 + |x + y| / 2),
    abs_of_pos (half_pos h0)]
  field_simp

/-- `Rel` does not depend on the unit. -/
theorem C26_rel_scale (k x y : K) (hk : 0 < k) :
    normalization (k * x) (k * y) .Rel = normalization x y .Rel := by
  rw [normalization_exact, normalization_exact]
  simp only [Spec.residual]
  rw [← mul_sub, ← mul_add, abs_mul, abs_of_pos hk, mul_div_assoc k |x + y| 2, mul_div_mul_left _ _ hk.ne']

/-- For sides of the same sign `Rel` is at most 2 and `Adapt` below 2. -/
theorem C26_same_sign (x y : K) (h : (0 ≤ x ∧ 0 ≤ y) ∨ (x ≤ 0 ∧ y ≤ 0)) :
    |normalization x y .Rel| ≤ 2 ∧ |normalization x y .Adapt| < 2 := by
  rw [normalization_exact, normalization_exact]
  simp only [Spec.residual]
  have key : |x - y| ≤ |x + y| := by
    rcases h with ⟨h1, h2⟩ | ⟨h1, h2⟩
    · rw [abs_of_nonneg (add_nonneg h1 h2), abs_le]; constructor <;> linarith
    · rw [abs_of_nonpos (add_nonpos h1 h2), abs_le]; constructor <;> linarith
  have h0 := abs_nonneg (x + y)
  have hp : (0 : K) < 1 + |x + y| / 2 := by linarith [half_nn h0]
  constructor
  · rw [abs_div, abs_of_nonneg (half_nn h0)]
    rcases eq_or_lt_of_le h0 with hz | hz
    · rw [← hz]; simp
    · rw [div_le_iff₀ (half_pos hz)]; linarith
  · rw [abs_div, abs_of_pos hp, div_lt_iff₀ hp]
    linarith

/-- Towards zero `Adapt` behaves like `Abs`: within a factor `1 + ε` when the mean is at most `ε`. -/
theorem C26_near_zero (x y ε : K) (h : |x + y| / 2 ≤ ε) :
    |normalization x y .Abs| ≤ (1 + ε) * |normalization x y .Adapt| := by
  rw [normalization_exact, normalization_exact]
  simp only [Spec.residual]
  have h0 := abs_nonneg (x + y)
  have hp : (0 : K) < 1 + |x + y| / 2 := by linarith [half_nn h0]
  rw [abs_div, abs_of_pos hp, ← mul_div_assoc, le_div_iff₀ hp, mul_comm]
  exact mul_le_mul_of_nonneg_right (by linarith) (abs_nonneg _)

/-- For big values `Adapt` behaves like `Rel`: within a factor `1 + 1/B` when the mean is at least `B`. -/
theorem C26_big_values (x y B : K) (hB : 0 < B) (h : B ≤ |x + y| / 2) :
    |normalization x y .Rel| ≤ (1 + 1 / B) * |normalization x y .Adapt| := by
  rw [normalization_exact, normalization_exact]
  simp only [Spec.residual]
  have hm : (0 : K) < |x + y| / 2 := lt_of_lt_of_le hB h
  have hp : (0 : K) < 1 + |x + y| / 2 := by linarith
  rw [abs_div (x - y), abs_div (x - y), abs_of_pos hp, abs_of_pos hm, ← mul_div_assoc, div_le_div_iff₀ hm hp]
  have h2 : 1 + |x + y| / 2 ≤ (1 + 1 / B) * (|x + y| / 2) := by
    have : 1 ≤ 1 / B * (|x + y| / 2) := by
      rw [one_div_mul_eq_div, le_div_iff₀ hB]; linarith
    linarith
  calc |x - y| * (1 + |x + y| / 2) ≤ |x - y| * ((1 + 1 / B) * (|x + y| / 2)) :=
        mul_le_mul_of_nonneg_left h2 (abs_nonneg _)
    _ = (1 + 1 / B) * |x - y| * (|x + y| / 2) := by ring

/-- The hypotheses hold for 3 and 5: Abs 2, Rel 1/2, Adapt 2/5. -/
example : (3 : ℚ) ≠ 5 ∧ (3 : ℚ) + 5 ≠ 0 ∧ |normalization (3 : ℚ) 5 .Abs| = 2 ∧
    |normalization (3 : ℚ) 5 .Rel| = 1/2 ∧ |normalization (3 : ℚ) 5 .Adapt| = 2/5 := by
  refine ⟨?_, ?_, ?_, ?_, ?_⟩ <;> decide +kernel

/-- Hypotheses of the two limits. -/
example : |(1/10 : ℚ) + 1/5| / 2 ≤ 1/5 ∧ (0 : ℚ) < 100 ∧ (100 : ℚ) ≤ |101 + 102| / 2 := by
  refine ⟨?_, ?_, ?_⟩ <;> decide +kernel

end Nrf
