import Verif.Proofs.ExactMat
import Mathlib.Tactic.Module
import Mathlib.LinearAlgebra.Matrix.NonsingularInverse

/-!
# Rank-one updates
-/

namespace Nrf

section
variable {K : Type} [Field K] {n : Nat}
open Matrix

/-- The update of a Jacobian in direction `w`. -/
def rankJac (J : Matrix (Fin n) (Fin n) K) (s y w : Fin n → K) : Matrix (Fin n) (Fin n) K :=
  J - (w ⬝ᵥ s)⁻¹ • vecMulVec (J *ᵥ s - y) w

/-- The update of an inverse in direction `w`. -/
def rankInv (H : Matrix (Fin n) (Fin n) K) (s y w : Fin n → K) : Matrix (Fin n) (Fin n) K :=
  H - (w ⬝ᵥ y)⁻¹ • vecMulVec (H *ᵥ y - s) w

theorem vecMulVec_mulVec' (u w v : Fin n → K) : vecMulVec u w *ᵥ v = (w ⬝ᵥ v) • u := by
  funext i
  simp only [Matrix.mulVec, dotProduct, vecMulVec_apply, Pi.smul_apply, smul_eq_mul, Finset.sum_mul]
  exact Finset.sum_congr rfl fun j _ => by ring

theorem rankJac_secant (J : Matrix (Fin n) (Fin n) K) (s y w : Fin n → K) (h : w ⬝ᵥ s ≠ 0) :
    rankJac J s y w *ᵥ s = y := by
  rw [rankJac, sub_mulVec, smul_mulVec, vecMulVec_mulVec', smul_smul, inv_mul_cancel₀ h, one_smul]
  abel

theorem rankInv_secant (H : Matrix (Fin n) (Fin n) K) (s y w : Fin n → K) (h : w ⬝ᵥ y ≠ 0) :
    rankInv H s y w *ᵥ y = s := rankJac_secant H y s w h

/-- Sherman-Morrison for the two updates. -/
theorem rank_mul {J H : Matrix (Fin n) (Fin n) K} (hJH : J * H = 1) (s y w : Fin n → K)
    (hd : w ⬝ᵥ s ≠ 0) (he : (w ᵥ* H) ⬝ᵥ y ≠ 0) :
    rankJac J s y w * rankInv H s y (w ᵥ* H) = 1 := by
  have hHJ : H * J = 1 := mul_eq_one_comm.1 hJH
  have hu : H *ᵥ y - s = - (H *ᵥ (J *ᵥ s - y)) := by
    rw [mulVec_sub, mulVec_mulVec, hHJ, one_mulVec]; abel
  have hd' : w ⬝ᵥ (H *ᵥ (J *ᵥ s - y)) = w ⬝ᵥ s - (w ᵥ* H) ⬝ᵥ y := by
    rw [mulVec_sub, mulVec_mulVec, hHJ, one_mulVec, dotProduct_sub, dotProduct_mulVec w H y]
  rw [rankJac, rankInv, hu]
  generalize hv : J *ᵥ s - y = u at hd' ⊢
  rw [Matrix.sub_mul, Matrix.mul_sub, Matrix.mul_sub, hJH]
  have e1 : J * ((w ᵥ* H ⬝ᵥ y)⁻¹ • vecMulVec (-(H *ᵥ u)) (w ᵥ* H)) =
      -((w ᵥ* H ⬝ᵥ y)⁻¹ • vecMulVec u (w ᵥ* H)) := by
    rw [Matrix.mul_smul, mul_vecMulVec, mulVec_neg, mulVec_mulVec, hJH, one_mulVec, neg_vecMulVec, smul_neg]
  have e2 : ((w ⬝ᵥ s)⁻¹ • vecMulVec u w) * H = (w ⬝ᵥ s)⁻¹ • vecMulVec u (w ᵥ* H) := by
    rw [Matrix.smul_mul, vecMulVec_mul]
  have e3 : ((w ⬝ᵥ s)⁻¹ • vecMulVec u w) * ((w ᵥ* H ⬝ᵥ y)⁻¹ • vecMulVec (-(H *ᵥ u)) (w ᵥ* H)) =
      -(((w ⬝ᵥ s)⁻¹ * (w ᵥ* H ⬝ᵥ y)⁻¹ * (w ⬝ᵥ s - w ᵥ* H ⬝ᵥ y)) • vecMulVec u (w ᵥ* H)) := by
    rw [Matrix.smul_mul, Matrix.mul_smul, vecMulVec_mul_vecMulVec, dotProduct_neg, hd']
    rw [smul_smul, neg_smul, vecMulVec_neg, smul_neg, vecMulVec_smul, smul_smul]
  rw [e1, e2, e3]
  have : (w ᵥ* H ⬝ᵥ y)⁻¹ - (w ⬝ᵥ s)⁻¹ - (w ⬝ᵥ s)⁻¹ * (w ᵥ* H ⬝ᵥ y)⁻¹ * (w ⬝ᵥ s - w ᵥ* H ⬝ᵥ y) = 0 := by
    field_simp
    ring
  rw [show (1 : Matrix (Fin n) (Fin n) K) - -((w ᵥ* H ⬝ᵥ y)⁻¹ • vecMulVec u (w ᵥ* H)) -
      ((w ⬝ᵥ s)⁻¹ • vecMulVec u (w ᵥ* H) -
        -(((w ⬝ᵥ s)⁻¹ * (w ᵥ* H ⬝ᵥ y)⁻¹ * (w ⬝ᵥ s - w ᵥ* H ⬝ᵥ y)) • vecMulVec u (w ᵥ* H))) =
      1 + ((w ᵥ* H ⬝ᵥ y)⁻¹ - (w ⬝ᵥ s)⁻¹ - (w ⬝ᵥ s)⁻¹ * (w ᵥ* H ⬝ᵥ y)⁻¹ * (w ⬝ᵥ s - w ᵥ* H ⬝ᵥ y)) •
        vecMulVec u (w ᵥ* H) by module]
  rw [this, zero_smul, add_zero]

/-- The Jacobian update is invertible exactly when the denominator of the inverse update is not
zero. -/
theorem rank_invertible {J H : Matrix (Fin n) (Fin n) K} (hJH : J * H = 1) (s y w : Fin n → K)
    (hd : w ⬝ᵥ s ≠ 0) : (rankJac J s y w).det ≠ 0 ↔ (w ᵥ* H) ⬝ᵥ y ≠ 0 := by
  constructor
  · intro hdet he
    have hHJ : H * J = 1 := mul_eq_one_comm.1 hJH
    have h1 : rankJac J s y w *ᵥ (H *ᵥ y) = y := by
      rw [rankJac, sub_mulVec, smul_mulVec, vecMulVec_mulVec', mulVec_mulVec, hJH, one_mulVec,
        dotProduct_mulVec, he, zero_smul, smul_zero, sub_zero]
    have h2 := rankJac_secant J s y w hd
    have h3 : H *ᵥ y = s := by
      have := Matrix.mulVec_injective_iff_isUnit.2 ((Matrix.isUnit_iff_isUnit_det _).2
        (isUnit_iff_ne_zero.2 hdet))
      exact this (h1.trans h2.symm)
    apply hd
    rw [← h3, dotProduct_mulVec, he]
  · intro he
    have := congrArg Matrix.det (rank_mul hJH s y w hd he)
    rw [Matrix.det_mul, Matrix.det_one] at this
    exact left_ne_zero_of_mul (by rw [this]; exact one_ne_zero)

end

section
open scoped Exact
variable {K : Type} [Field K] [LinearOrder K] {n : Nat} {L : LinAlg K n}
open Matrix

theorem ex_broydenFirstJac (hL : L.IsExact) (J : Mat K n) (s y : Vec K n) :
    broydenFirstJac L J s y = rankJac J s y s := by
  unfold broydenFirstJac rankJac
  rw [ex_msub, ex_mdiv, ex_outer, ex_vsub, ex_mulVec hL, ex_dot hL]

theorem ex_broydenFirstInv (hL : L.IsExact) (H : Mat K n) (s y : Vec K n) :
    broydenFirstInv L H s y = rankInv H s y (s ᵥ* H) := by
  unfold broydenFirstInv rankInv
  rw [ex_msub, ex_mdiv, ex_matMul hL, ex_outer, ex_vsub, ex_mulVec hL, ex_dot hL, ex_vecMul hL,
    vecMulVec_mul]

theorem ex_quasiJac (hL : L.IsExact) (J : Mat K n) (s y c : Vec K n) :
    quasiJac L J s y c = rankJac J s y (c ᵥ* J) := by
  unfold quasiJac rankJac
  rw [ex_msub, ex_mdiv, ex_matMul hL, ex_outer, ex_vsub, ex_mulVec hL, ex_dot hL, ex_vecMul hL,
    vecMulVec_mul]

theorem ex_quasiInv (hL : L.IsExact) (H : Mat K n) (s y c : Vec K n) :
    quasiInv L H s y c = rankInv H s y c := by
  unfold quasiInv rankInv
  rw [ex_msub, ex_mdiv, ex_outer, ex_vsub, ex_mulVec hL, ex_dot hL]

theorem ex_broydenSecondJac (hL : L.IsExact) (J : Mat K n) (s y : Vec K n) :
    broydenSecondJac L J s y = rankJac J s y (y ᵥ* J) := ex_quasiJac hL J s y y

theorem ex_broydenSecondInv (hL : L.IsExact) (H : Mat K n) (s y : Vec K n) :
    broydenSecondInv L H s y = rankInv H s y y := ex_quasiInv hL H s y y

theorem ex_greenstadtSecondJac (hL : L.IsExact) (J : Mat K n) (s y w : Vec K n) :
    greenstadtSecondJac L J s y w = rankJac J s y w := by
  unfold greenstadtSecondJac rankJac
  rw [ex_msub, ex_mdiv, ex_outer, ex_vsub, ex_mulVec hL, ex_dot hL]

end
end Nrf
