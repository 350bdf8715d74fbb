import Verif.Proofs.Exact
import Verif.Model.RootFinder

/-!
# The linear algebra of the model in mathlib notation
-/

namespace Nrf
open scoped Exact

section
variable {K : Type} [Field K] [LinearOrder K] {n : Nat} {L : LinAlg K n}

theorem ex_mulVec (hL : L.IsExact) (A : Mat K n) (v : Vec K n) : mulVec L A v = A.mulVec v := by
  funext i; exact hL.dot _ _

theorem ex_vecMul (hL : L.IsExact) (v : Vec K n) (A : Mat K n) : vecMul L v A = Matrix.vecMul v A := by
  funext j; exact hL.dot _ _

theorem ex_matMul (hL : L.IsExact) (A B : Mat K n) : matMul L A B = A * B := by
  funext i j; rw [Matrix.mul_apply]; exact hL.dot _ _

theorem ex_dot (hL : L.IsExact) (v w : Vec K n) : L.dot v w = v ⬝ᵥ w := hL.dot v w

theorem ex_mneg (A : Mat K n) : mneg A = -A := rfl
theorem ex_msub (A B : Mat K n) : msub A B = A - B := rfl
theorem ex_vsub (v w : Vec K n) : vsub v w = v - w := rfl
theorem ex_vadd (v w : Vec K n) : vadd v w = v + w := rfl
theorem ex_vscale (v : Vec K n) (k : K) : vscale v k = k • v := by
  funext i; exact mul_comm _ _
theorem ex_vdiv (v : Vec K n) (k : K) : vdiv v k = k⁻¹ • v := by
  funext i; change v i / k = k⁻¹ * v i; rw [div_eq_mul_inv, mul_comm]
theorem ex_mdiv (A : Mat K n) (k : K) : mdiv A k = k⁻¹ • A := by
  funext i j; change A i j / k = k⁻¹ * A i j; rw [div_eq_mul_inv, mul_comm]
theorem ex_outer (u w : Vec K n) : outer u w = Matrix.vecMulVec u w := rfl
theorem ex_mtranspose (A : Mat K n) : mtranspose A = A.transpose := rfl
theorem ex_mzero : (mzero : Mat K n) = 0 := rfl

theorem ex_inv (hL : L.IsExact) {A B : Mat K n} (h : L.inv A = some B) : A.det ≠ 0 ∧ B = A⁻¹ := by
  by_cases hd : A.det = 0
  · rw [hL.inv_none A hd] at h; cases h
  · rw [hL.inv_some A hd] at h; exact ⟨hd, (Option.some.inj h).symm⟩

theorem ex_inv_mul {A : Mat K n} (h : A.det ≠ 0) : A⁻¹ * A = 1 :=
  Matrix.nonsing_inv_mul A (isUnit_iff_ne_zero.2 h)

theorem ex_mul_inv {A : Mat K n} (h : A.det ≠ 0) : A * A⁻¹ = 1 :=
  Matrix.mul_nonsing_inv A (isUnit_iff_ne_zero.2 h)

/-- The proposed point without limits. -/
theorem ex_computeNext {EI EU S : Type} {c : Config K n} {m : UserModel K n EI EU S}
    {st : Solver K n} {s : S} {x : Vec K n} (hL : c.la.IsExact)
    (hfree : ∀ i v r, (c.iters i).stepLimitation v r = v + r)
    (h : computeNext c m st s = .ok x) :
    ∃ inv, st.jac.inverse = some inv ∧
      x = m.getIteratives s - inv.mulVec (c.res.evaluateUpdate (m.getResiduals s)) := by
  unfold computeNext at h
  dsimp only at h
  split at h
  · cases h
  · rename_i inv hi
    cases h
    refine ⟨inv, hi, ?_⟩
    funext i
    simp only [stepLimitations, hfree, ex_mulVec hL, ex_mneg, Matrix.neg_mulVec]
    simp [sub_eq_add_neg]

end
end Nrf
