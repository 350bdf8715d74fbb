import Verif.Proofs.Follow
import Verif.Proofs.ExactMat

/-!
# Newton passes in exact arithmetic
-/

set_option linter.unusedSectionVars false

namespace Nrf
open Spec
open scoped Exact
open Matrix

section
variable {K : Type} [Field K] [LinearOrder K] {n : Nat} {EI EU S : Type}
variable {c : Config K n} {m : UserModel K n EI EU S}
variable {inv : S → Prop} {D : Vec K n → Prop} {f : Vec K n → ResidualsValues K n}

/-- `J` is the matrix the solver computes at `x`: the analytic one, or the finite differences for
the perturbations `pert`. -/
inductive Source (c : Config K n) (m : UserModel K n EI EU S) (inv : S → Prop) (D : Vec K n → Prop)
    (f : Vec K n → ResidualsValues K n) (x pert : Vec K n) : Mat K n → Prop where
  | analytic (g) (hg : Differentiates m inv f g) : Source c m inv D f x pert (analyticAt c f g x)
  | fd (hu : Underived m inv f) (hp : computePerturbations c.iters x = some pert)
      (hne : ∀ i, pert i ≠ 0) (hD : ∀ i, D (moved x i (pert i))) :
      Source c m inv D f x pert (differencesAt c f pert x)

/-- The points at which a Jacobian computation may leave the model. -/
def Base (x pert z : Vec K n) : Prop := z = x ∨ ∃ i, z = moved x i (pert i)

theorem moved_eq (x : Vec K n) (i : Fin n) (d : K) : moved x i d = x + Pi.single i d := by
  funext l
  by_cases h : l = i
  · subst h; simp [moved, ex_add]
  · simp [moved, h]

/-- The displaced base point gives the same Newton step. -/
theorem displaced_step {x pert : Vec K n} (i : Fin n) (hne : pert i ≠ 0)
    (hdet : (differencesAt c f pert x).det ≠ 0) :
    moved x i (pert i) - (differencesAt c f pert x)⁻¹ *ᵥ updateAt c f (moved x i (pert i)) =
      x - (differencesAt c f pert x)⁻¹ *ᵥ updateAt c f x := by
  have e2 : updateAt c f (moved x i (pert i)) =
      updateAt c f x + differencesAt c f pert x *ᵥ Pi.single i (pert i) := by
    funext row
    have : differencesAt c f pert x row i * pert i =
        updateAt c f (moved x i (pert i)) row - updateAt c f x row := by
      unfold differencesAt
      rw [ex_div, ex_sub, div_mul_cancel₀ _ hne]
    rw [Matrix.mulVec_single]
    simp only [Pi.add_apply, Matrix.col_apply, Pi.smul_apply, MulOpposite.smul_eq_mul_unop,
      MulOpposite.unop_op]
    rw [this]
    exact (add_sub_cancel _ _).symm
  rw [e2, Matrix.mulVec_add, Matrix.mulVec_mulVec, ex_inv_mul hdet, Matrix.one_mulVec, moved_eq]
  abel

theorem source_jac (hL : c.la.IsExact) (hf : Computes m inv D f) {x pert : Vec K n} {J : Mat K n}
    (hJ : Source c m inv D f x pert J) (hdet : J.det ≠ 0) {s : S} (hs : At m inv f s x)
    (j : JacobianMatrix K n) :
    ∃ s' z, At m inv f s' z ∧ Base x pert z ∧
      z - J⁻¹ *ᵥ updateAt c f z = x - J⁻¹ *ᵥ updateAt c f x ∧
      computeJac c m j s = .ok (⟨some J, some J⁻¹, false, false⟩, s', .ok ()) := by
  cases hJ with
  | analytic g hg =>
    obtain ⟨s', h1, h2⟩ := computeJac_analytic hg hs j (hL.inv_some _ hdet)
    exact ⟨s', x, h1, .inl rfl, rfl, h2⟩
  | fd hu hp hne hD =>
    obtain ⟨s', z, h1, h2, h3⟩ := computeJac_fd hf hu hs hp hD j (hL.inv_some _ hdet)
    rcases h2 with ⟨rfl, -⟩ | ⟨last, -, rfl⟩
    · exact ⟨s', z, h1, .inl rfl, rfl, h3⟩
    · exact ⟨s', _, h1, .inr ⟨last, rfl⟩, displaced_step last (hne last) hdet, h3⟩

theorem source_singular (hL : c.la.IsExact) (hf : Computes m inv D f) {x pert : Vec K n} {J : Mat K n}
    (hJ : Source c m inv D f x pert J) (hdet : J.det = 0) {s : S} (hs : At m inv f s x)
    (j : JacobianMatrix K n) :
    ∃ j' s', computeJac c m j s = .ok (j', s', .error .invalidJacobianInverse) := by
  cases hJ with
  | analytic g hg =>
    obtain ⟨j', s', h1, h2⟩ := computeJac_analytic_singular hg hs j (hL.inv_none _ hdet)
    exact ⟨j', s', h2⟩
  | fd hu hp hne hD =>
    obtain ⟨j', s', h1, h2⟩ := computeJac_fd_singular hf hu hs hp hD j (hL.inv_none _ hdet)
    exact ⟨j', s', h2⟩

theorem limited_eq (hL : c.la.IsExact) {z x' : Vec K n} {H : Mat K n}
    (hx' : z - H *ᵥ updateAt c f z = x')
    (hlim : ∀ i, (c.iters i).stepLimitation (z i) (x' i - z i) = x' i) :
    stepLimitations c.iters z (mulVec c.la (mneg H) (updateAt c f z)) = x' := by
  funext i
  have : mulVec c.la (mneg H) (updateAt c f z) = x' - z := by
    rw [ex_mulVec hL, ex_mneg, Matrix.neg_mulVec, ← hx']
    abel
  rw [stepLimitations, this]
  exact hlim i

/-- A pass that computes a Jacobian, with inactive limits and damping. -/
theorem iterate_newton (hL : c.la.IsExact) (hf : Computes m inv D f) {x pert x' : Vec K n} {J : Mat K n}
    (hJ : Source c m inv D f x pert J) (hdet : J.det ≠ 0)
    (hx' : x - J⁻¹ *ᵥ updateAt c f x = x') (hDx : D x')
    (hlim : ∀ z, Base x pert z → ∀ i, (c.iters i).stepLimitation (z i) (x' i - z i) = x' i)
    (hdamp : c.params.damping = true → ∀ z, Base x pert z →
      z - J⁻¹ *ᵥ updateAt c f z = x' → amax (errorsAt c f x') ≤ amax (errorsAt c f z))
    {st : Solver K n} (hd : st.debug = false)
    (hm : c.params.method = .NewtonRaphson ∨ st.jac.computeNext = true)
    {s : S} (hs : At m inv f s x) :
    ∃ st' s' z, At m inv f s' x' ∧ Base x pert z ∧
      iterate c m st s = .ok (st', s', .ok (amax (evaluateErrors c m s'))) ∧
      st' = storeSteps c.params.method
        { st with iter := st.iter + 1, jac := ⟨some J, some J⁻¹, false, false⟩, valid := true }
        x' z (errorsAt c f x') (errorsAt c f z) := by
  obtain ⟨s1, z, hs1, hz, hzx, hj⟩ := source_jac hL hf hJ hdet hs st.jac
  have hstep := computeStep_computed (c := c) (st := { st with iter := st.iter + 1 }) (f := f) hd hm hs1 hj
  rw [limited_eq hL (hzx.trans hx') (hlim z hz)] at hstep
  obtain ⟨s', hs', hi⟩ := iterate_at hf hstep hd hs1 hDx
    (fun h => (ex_lt_false _ _).2 (hdamp h z hz (hzx.trans hx')))
  exact ⟨_, s', z, hs', hz, by rw [hi, hs'.errors], rfl⟩

/-- A pass of stationary Newton with a kept matrix. -/
theorem iterate_kept (hL : c.la.IsExact) (hf : Computes m inv D f) {x x' : Vec K n} {H : Mat K n}
    (hx' : x - H *ᵥ updateAt c f x = x') (hDx : D x')
    (hlim : ∀ i, (c.iters i).stepLimitation (x i) (x' i - x i) = x' i)
    (hdamp : c.params.damping = true → amax (errorsAt c f x') ≤ amax (errorsAt c f x))
    {st : Solver K n} (hd : st.debug = false)
    (hm : c.params.method = .QuasiNewton .StationaryNewton) (hcn : st.jac.computeNext = false)
    (hH : st.jac.inverse = some H) {s : S} (hs : At m inv f s x) :
    ∃ s', At m inv f s' x' ∧ iterate c m st s =
      .ok ({ st with iter := st.iter + 1, valid := true }, s', .ok (amax (evaluateErrors c m s'))) := by
  have hstep := computeStep_kept (c := c) (st := { st with iter := st.iter + 1 }) (f := f) hd hm hcn hs hH
  rw [limited_eq hL hx' hlim] at hstep
  obtain ⟨s', hs', hi⟩ := iterate_at hf hstep hd hs hDx
    (fun h => (ex_lt_false _ _).2 (hdamp h))
  refine ⟨s', hs', ?_⟩
  rw [hi, hm, hs'.errors]
  rfl

end
end Nrf
