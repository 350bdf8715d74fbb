import Verif.Proofs.QuasiNewton
import Verif.Spec.Demo

/-!
# C35: Broyden's first update is the least change
-/

namespace Nrf
open scoped Exact
open Matrix

/-- The square of the Frobenius norm. -/
def Spec.frobeniusSq {K : Type} [Field K] {n : Nat} (A : Matrix (Fin n) (Fin n) K) : K :=
  ∑ i, ∑ j, A i j ^ 2

section
variable {K : Type} [Field K] [LinearOrder K] [IsStrictOrderedRing K] {n : Nat}

private theorem dot_self_ne_zero {s : Fin n → K} (hs : s ≠ 0) : s ⬝ᵥ s ≠ 0 := by
  intro h
  apply hs
  funext i
  have := (Finset.sum_eq_zero_iff_of_nonneg (fun i _ => mul_self_nonneg (s i))).1 h i (Finset.mem_univ i)
  exact mul_self_eq_zero.1 this

/-- Pythagoras for the projection on the matrices that map `s` to `y`. -/
private theorem pythagoras (J B : Matrix (Fin n) (Fin n) K) {s y : Fin n → K} (hs : s ≠ 0)
    (hB : B *ᵥ s = y) :
    Spec.frobeniusSq (B - J) = Spec.frobeniusSq (rankJac J s y s - J) +
      Spec.frobeniusSq (B - rankJac J s y s) := by
  have hd := dot_self_ne_zero hs
  unfold Spec.frobeniusSq
  rw [← Finset.sum_add_distrib]
  refine Finset.sum_congr rfl fun i _ => ?_
  rw [← Finset.sum_add_distrib]
  have hy : y i = ∑ j, B i j * s j := by rw [← hB]; rfl
  have hJ : (J *ᵥ s) i = ∑ j, J i j * s j := rfl
  obtain ⟨t, ht⟩ : ∃ t, t = (y i - (J *ᵥ s) i) / (s ⬝ᵥ s) := ⟨_, rfl⟩
  have hU : ∀ j, rankJac J s y s i j = J i j + t * s j := by
    intro j
    simp only [rankJac, Matrix.sub_apply, Matrix.smul_apply, vecMulVec_apply, Pi.sub_apply, smul_eq_mul]
    rw [ht, div_eq_mul_inv]
    ring
  have hts : t * (s ⬝ᵥ s) = ∑ j, (B i j - J i j) * s j := by
    rw [ht, div_mul_cancel₀ _ hd, hy, hJ, ← Finset.sum_sub_distrib]
    exact Finset.sum_congr rfl fun j _ => by ring
  have hcross : ∑ j, t * s j * (B i j - J i j - t * s j) = 0 := by
    have : ∑ j, t * s j * (B i j - J i j - t * s j) =
        t * ((∑ j, (B i j - J i j) * s j) - t * (s ⬝ᵥ s)) := by
      rw [dotProduct, Finset.mul_sum, ← Finset.sum_sub_distrib, Finset.mul_sum]
      exact Finset.sum_congr rfl fun j _ => by ring
    rw [this, hts]; ring
  have : ∑ j, ((B - J) i j) ^ 2 = ∑ j, (((rankJac J s y s - J) i j) ^ 2 +
      ((B - rankJac J s y s) i j) ^ 2) + 2 * ∑ j, t * s j * (B i j - J i j - t * s j) := by
    rw [Finset.mul_sum, ← Finset.sum_add_distrib]
    refine Finset.sum_congr rfl fun j _ => ?_
    simp only [Matrix.sub_apply, hU]
    ring
  rw [this, hcross]
  ring

private theorem frobeniusSq_nonneg (A : Matrix (Fin n) (Fin n) K) : 0 ≤ Spec.frobeniusSq A :=
  Finset.sum_nonneg fun _ _ => Finset.sum_nonneg fun _ _ => sq_nonneg _

private theorem frobeniusSq_eq_zero {A : Matrix (Fin n) (Fin n) K} (h : Spec.frobeniusSq A ≤ 0) :
    A = 0 := by
  have h := le_antisymm h (frobeniusSq_nonneg A)
  ext i j
  have h1 := (Finset.sum_eq_zero_iff_of_nonneg
    (fun i _ => Finset.sum_nonneg fun j _ => sq_nonneg (A i j))).1 h i (Finset.mem_univ i)
  have h2 := (Finset.sum_eq_zero_iff_of_nonneg (fun j _ => sq_nonneg (A i j))).1 h1 j (Finset.mem_univ j)
  exact pow_eq_zero_iff (two_ne_zero) |>.1 h2

/-- Any dimension, matrix `J`, step `s ≠ 0`, change `y`: the update maps `s` to `y`, and every other
matrix doing so is strictly farther from `J` in Frobenius norm. -/
theorem C35_least_change (L : LinAlg K n) (hL : L.IsExact) (J B : Mat K n) (s y : Vec K n) (hs : s ≠ 0)
    (hB : B *ᵥ s = y) :
    broydenFirstJac L J s y *ᵥ s = y ∧
    Spec.frobeniusSq (broydenFirstJac L J s y - J) ≤ Spec.frobeniusSq (B - J) ∧
    (Spec.frobeniusSq (B - J) ≤ Spec.frobeniusSq (broydenFirstJac L J s y - J) →
      B = broydenFirstJac L J s y) := by
  rw [ex_broydenFirstJac hL, pythagoras J B hs hB]
  refine ⟨rankJac_secant J s y s (dot_self_ne_zero hs), ?_, fun h => ?_⟩
  · have := frobeniusSq_nonneg (B - rankJac J s y s)
    linarith
  · exact sub_eq_zero.1 (frobeniusSq_eq_zero (by linarith))

omit [IsStrictOrderedRing K] in
/-- An already consistent matrix is left unchanged. -/
theorem C35_consistent (L : LinAlg K n) (hL : L.IsExact) (J : Mat K n) (s y : Vec K n)
    (hJ : J *ᵥ s = y) : broydenFirstJac L J s y = J := by
  rw [ex_broydenFirstJac hL, rankJac, hJ, sub_self, zero_vecMulVec, smul_zero, sub_zero]

/-- The same optimality holds for the inverse under Broyden's second method. -/
theorem C35_second_inverse (L : LinAlg K n) (hL : L.IsExact) (H B : Mat K n) (s y : Vec K n) (hy : y ≠ 0)
    (hB : B *ᵥ y = s) :
    broydenSecondInv L H s y *ᵥ y = s ∧
    Spec.frobeniusSq (broydenSecondInv L H s y - H) ≤ Spec.frobeniusSq (B - H) ∧
    (Spec.frobeniusSq (B - H) ≤ Spec.frobeniusSq (broydenSecondInv L H s y - H) →
      B = broydenSecondInv L H s y) := by
  have e : broydenSecondInv L H s y = broydenFirstJac L H y s := by
    rw [ex_broydenSecondInv hL, ex_broydenFirstJac hL]; rfl
  rw [e]
  exact C35_least_change L hL H B y s hy hB

/-- In the solver: the matrix stored by a successful Broyden update in Jacobian form is the least
change of the one stored before. -/
theorem C35_stored (L : LinAlg K n) (hL : L.IsExact) (j j' : JacobianMatrix K n) (J B : Mat K n)
    (hJ : j.matrix = some J) (s y c : Vec K n) (hs : s ≠ 0) (hB : B *ᵥ s = y)
    (h : approximateJacobian L j .BroydenFirst s y c = .ok (j', true)) :
    ∃ J', j'.matrix = some J' ∧ J' *ᵥ s = y ∧
      Spec.frobeniusSq (J' - J) ≤ Spec.frobeniusSq (B - J) := by
  simp only [approximateJacobian, hJ, JacobianMatrix.updateApproximated, JacobianMatrix.update] at h
  split at h
  · cases h
    obtain ⟨h1, h2, -⟩ := C35_least_change L hL J B s y hs hB
    exact ⟨_, rfl, h1, h2⟩
  · cases h

end

/-- Two different matrices with the prescribed image: the update of the identity for step `(1, 1)` and
change `(2, 0)` is not the competitor `!![2, 0; 0, 0]`. -/
example (L : LinAlg ℚ 2) (hL : L.IsExact) :
    (!![2, 0; 0, 0] : Mat ℚ 2) *ᵥ ![1, 1] = ![2, 0] ∧ (![1, 1] : Fin 2 → ℚ) ≠ 0 ∧
    broydenFirstJac L (1 : Matrix (Fin 2) (Fin 2) ℚ) ![1, 1] ![2, 0] = !![3/2, 1/2; -1/2, 1/2] := by
  refine ⟨by ext i; fin_cases i <;> decide +kernel, by decide +kernel, ?_⟩
  rw [ex_broydenFirstJac hL]
  ext i j
  fin_cases i <;> fin_cases j <;> decide +kernel

end Nrf
