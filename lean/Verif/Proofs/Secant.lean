import Verif.Proofs.FollowExact
import Verif.Proofs.QuasiNewton

/-!
# One unknown: every updating method is a secant method
-/

set_option linter.unusedSectionVars false

namespace Nrf
open Spec
open scoped Exact
open Matrix

section
variable {K : Type} [Field K] [LinearOrder K] {EI EU S : Type}
variable {c : Config K 1} {m : UserModel K 1 EI EU S}
variable {inv : S → Prop} {D : Vec K 1 → Prop} {f : Vec K 1 → ResidualsValues K 1}

/-- The vector with entry `a`. -/
def vec1 (a : K) : Vec K 1 := fun _ => a

/-- The matrix with entry `a`. -/
def mat1 (a : K) : Mat K 1 := fun _ _ => a

/-- The methods that update a matrix. -/
inductive Updates : ResolutionMethod → UpdateMethod → Bool → Prop where
  | jac (u) : Updates (.QuasiNewton (.JacobianUpdate u)) u true
  | inv (u) : Updates (.QuasiNewton (.InverseJacobianUpdate u)) u false

/-- The cache holds the slope `a`. -/
structure Slope (full : Bool) (j : JacobianMatrix K 1) (a : K) : Prop where
  ne : a ≠ 0
  pending : j.computeNext = false
  inverse : j.inverse = some (mat1 a⁻¹)
  matrix : full = true → j.matrix = some (mat1 a)

theorem mulVec_one (A : Mat K 1) (v : Vec K 1) : (A *ᵥ v) 0 = A 0 0 * v 0 := by
  simp [Matrix.mulVec, dotProduct]

theorem vecMul_one (A : Mat K 1) (v : Vec K 1) : (v ᵥ* A) 0 = v 0 * A 0 0 := by
  simp [Matrix.vecMul, dotProduct]

theorem mat_one (A : Mat K 1) : A = mat1 (A 0 0) := by
  funext i j
  rw [Subsingleton.elim i 0, Subsingleton.elim j 0]
  rfl

theorem vec_one (v : Vec K 1) : v = vec1 (v 0) := by
  funext i
  rw [Subsingleton.elim i 0]
  rfl

theorem det_one_ne {a : K} (h : a ≠ 0) : (mat1 a).det ≠ 0 := by
  rw [Matrix.det_fin_one]; exact h

theorem inv_one {a : K} : (mat1 a)⁻¹ = mat1 a⁻¹ := by
  funext i j
  rw [Subsingleton.elim i 0, Subsingleton.elim j 0]
  simp [Matrix.inv_def, Matrix.adjugate_fin_one, Matrix.det_fin_one, Ring.inverse_eq_inv', mat1]

/-- An update with a non-zero pair stores the slope of the secant. -/
theorem secant_jac {L : LinAlg K 1} (hL : L.IsExact) {j : JacobianMatrix K 1} {a : K}
    (hj : Slope true j a) (u : UpdateMethod) {ds dy cur : K} (h1 : ds ≠ 0) (h2 : dy ≠ 0)
    (h3 : cur ≠ 0) :
    ∃ j', approximateJacobian L j u (vec1 ds) (vec1 dy) (vec1 cur) = .ok (j', true) ∧
      Slope true j' (dy / ds) := by
  rw [ex_approximateJacobian hL (hj.matrix rfl) hj.inverse]
  have hden : direction u (mat1 a) (mat1 a⁻¹) (vec1 ds) (vec1 dy)
      (vec1 cur) ⬝ᵥ (vec1 ds) ≠ 0 := by
    rw [direction_dot]
    cases u <;> simp [Spec.denomJac, dotProduct, Matrix.mulVec, vec1, mat1, h1, h2, h3, hj.ne]
  have hsec := rankJac_secant (mat1 a) (vec1 ds) (vec1 dy) _ hden
  generalize rankJac (mat1 a) (vec1 ds) (vec1 dy)
    (direction u (mat1 a) (mat1 a⁻¹) (vec1 ds) (vec1 dy) (vec1 cur)) = M at hsec
  have h0 : M 0 0 * ds = dy := (mulVec_one M (vec1 ds)).symm.trans (congrFun hsec 0)
  have hM : M = mat1 (dy / ds) := by
    rw [mat_one M, ← h0, mul_div_cancel_right₀ _ h1]
  have hne : dy / ds ≠ 0 := div_ne_zero h2 h1
  subst hM
  refine ⟨⟨some (mat1 (dy / ds)), some (mat1 (dy / ds)⁻¹), false, true⟩, ?_, hne, rfl, rfl, fun _ => rfl⟩
  simp only [JacobianMatrix.updateApproximated, JacobianMatrix.update,
    hL.inv_some _ (det_one_ne hne), inv_one]

theorem secant_inv {L : LinAlg K 1} (hL : L.IsExact) {j : JacobianMatrix K 1} {a : K}
    (hj : Slope false j a) (u : UpdateMethod) {ds dy cur : K} (h1 : ds ≠ 0) (h2 : dy ≠ 0)
    (h3 : cur ≠ 0) :
    ∃ j', approximateInvJacobian L j u (vec1 ds) (vec1 dy) (vec1 cur) = .ok j' ∧
      Slope false j' (dy / ds) := by
  rw [ex_approximateInvJacobian hL hj.inverse]
  have hden : directionInv u (mat1 a⁻¹) (vec1 ds) (vec1 dy)
      (vec1 cur) ⬝ᵥ (vec1 dy) ≠ 0 := by
    rw [directionInv_dot]
    cases u <;> simp [Spec.denomInv, dotProduct, Matrix.mulVec, vec1, mat1, h1, h2, h3, hj.ne]
  have hsec := rankInv_secant (mat1 a⁻¹) (vec1 ds) (vec1 dy) _ hden
  generalize rankInv (mat1 a⁻¹) (vec1 ds) (vec1 dy)
    (directionInv u (mat1 a⁻¹) (vec1 ds) (vec1 dy) (vec1 cur)) = M at hsec
  have h0 : M 0 0 * dy = ds := (mulVec_one M (vec1 dy)).symm.trans (congrFun hsec 0)
  have hM : M = mat1 (dy / ds)⁻¹ := by
    rw [mat_one M, inv_div, ← h0, mul_div_cancel_right₀ _ h2]
  subst hM
  exact ⟨_, rfl, div_ne_zero h2 h1, hj.pending, rfl, fun h => absurd h (by simp)⟩

/-- The state of the solver between two passes at `x`, with the pair of the last pass. -/
structure SecantState (m : UserModel K 1 EI EU S) (inv : S → Prop)
    (f : Vec K 1 → ResidualsValues K 1) (full : Bool) (st : Solver K 1) (s : S) (x ds dy cur : K) : Prop where
  debug : st.debug = false
  valid : st.valid = true
  slope : ∃ a, Slope full st.jac a
  itStep : st.itStep = some (vec1 ds)
  resStep : st.resStep = some (vec1 dy)
  resCur : st.resCur = some (vec1 cur)
  here : At m inv f s (vec1 x)

/-- A pass that updates: one step of the secant method. -/
theorem iterate_secant (hL : c.la.IsExact) (hf : Computes m inv D f) {u full}
    (hm : Updates c.params.method u full) (hdamp : c.params.damping = false)
    (hfree : ∀ i v d, (c.iters i).stepLimitation v d = v + d)
    {st : Solver K 1} {s : S} {x ds dy cur x' : K} (h : SecantState m inv f full st s x ds dy cur)
    (h1 : ds ≠ 0) (h2 : dy ≠ 0) (h3 : cur ≠ 0)
    (hx' : x' = x - updateAt c f (vec1 x) 0 * (ds / dy)) (hD : D (vec1 x')) :
    ∃ st' s', iterate c m st s = .ok (st', s', .ok (amax (evaluateErrors c m s'))) ∧
      st'.iter = st.iter + 1 ∧
      SecantState m inv f full st' s' x' (x' - x)
        (errorsAt c f (vec1 x') 0 - errorsAt c f (vec1 x) 0) (errorsAt c f (vec1 x') 0) := by
  obtain ⟨a, ha⟩ := h.slope
  have hlim : ∀ H : Mat K 1, H = (mat1 (dy / ds)⁻¹) →
      stepLimitations c.iters (vec1 x) (mulVec c.la (mneg H) (updateAt c f (vec1 x))) = vec1 x' := by
    rintro H rfl
    refine limited_eq hL ?_ (fun i => by rw [hfree]; ring)
    funext i
    rw [Subsingleton.elim i 0, Pi.sub_apply, mulVec_one, hx', inv_div]
    change x - ds / dy * _ = x - _ * (ds / dy)
    ring
  have hstep : ∃ j', Slope full j' (dy / ds) ∧ computeStep c m { st with iter := st.iter + 1 } s =
      .ok ({ st with iter := st.iter + 1, jac := j' }, s, .ok (vec1 x')) := by
    generalize hmeth : c.params.method = meth at hm
    cases hm with
    | jac u =>
      obtain ⟨j', hj', hsl⟩ := secant_jac hL ha u h1 h2 h3
      refine ⟨j', hsl, ?_⟩
      rw [computeStep_updated (st := { st with iter := st.iter + 1 }) (f := f) h.debug hmeth ha.pending
        h.here h.itStep h.resStep h.resCur hj' hsl.inverse, hlim _ rfl]
    | inv u =>
      obtain ⟨j', hj', hsl⟩ := secant_inv hL ha u h1 h2 h3
      refine ⟨j', hsl, ?_⟩
      rw [computeStep_invUpdated (st := { st with iter := st.iter + 1 }) (f := f) h.debug hmeth ha.pending
        h.here h.itStep h.resStep h.resCur hj' hsl.inverse, hlim _ rfl]
  obtain ⟨j', hsl, hstep⟩ := hstep
  obtain ⟨s', hs', hi⟩ := iterate_at hf hstep h.debug h.here hD (fun h => by rw [hdamp] at h; cases h)
  refine ⟨_, s', by rw [hi, hs'.errors], (storeSteps_fields ..).1, ?_⟩
  generalize c.params.method = meth at hm
  cases hm <;> exact ⟨h.debug, rfl, ⟨_, hsl⟩, congrArg some (by rfl),
      congrArg some (vec_one _), congrArg some (vec_one _), hs'⟩

/-- The first pass, with an analytic Jacobian. -/
theorem iterate_first (hL : c.la.IsExact) (hf : Computes m inv D f)
    {g : Vec K 1 → JacobianValues K 1} (hg : Differentiates m inv f g) {u full}
    (hm : Updates c.params.method u full) (hdamp : c.params.damping = false)
    (hfree : ∀ i v d, (c.iters i).stepLimitation v d = v + d)
    {st : Solver K 1} {s : S} {x x' : K} (hd : st.debug = false) (hcn : st.jac.computeNext = true)
    (hs : At m inv f s (vec1 x)) (ha : analyticAt c f g (vec1 x) 0 0 ≠ 0)
    (hx' : x' = x - updateAt c f (vec1 x) 0 / analyticAt c f g (vec1 x) 0 0)
    (hD : D (vec1 x')) :
    ∃ st' s', iterate c m st s = .ok (st', s', .ok (amax (evaluateErrors c m s'))) ∧
      st'.iter = st.iter + 1 ∧
      SecantState m inv f full st' s' x' (x' - x)
        (errorsAt c f (vec1 x') 0 - errorsAt c f (vec1 x) 0) (errorsAt c f (vec1 x') 0) := by
  have hJ := mat_one (analyticAt c f g (vec1 x))
  have hsrc : Source c m inv D f (vec1 x) 0 (mat1 (analyticAt c f g (vec1 x) 0 0)) := by
    rw [← hJ]; exact .analytic g hg
  have hbase : ∀ z, Base (vec1 x) 0 z → z = vec1 x := by
    rintro z (rfl | ⟨i, rfl⟩)
    · rfl
    · rw [moved_eq]; simp
  generalize analyticAt c f g (vec1 x) 0 0 = a at ha hx' hsrc
  obtain ⟨st', s', z, hs', hz, hi, rfl⟩ := iterate_newton (x' := vec1 x') hL hf hsrc (det_one_ne ha)
    (by
      funext i
      rw [Subsingleton.elim i 0, Pi.sub_apply, mulVec_one, hx', inv_one]
      change x - a⁻¹ * _ = x - _ / a
      ring)
    hD (fun z hz i => by rw [hfree]; ring) (fun h => by rw [hdamp] at h; cases h) hd (.inr hcn) hs
  cases hbase z hz
  refine ⟨_, s', hi, (storeSteps_fields ..).1, ?_⟩
  generalize c.params.method = meth at hm
  have hsl : ∀ b, Slope b (⟨some (mat1 a), some (mat1 a)⁻¹, false, false⟩ :
      JacobianMatrix K 1) a := fun _ => ⟨ha, rfl, by rw [inv_one], fun _ => rfl⟩
  cases hm <;> exact ⟨hd, rfl, ⟨_, hsl _⟩, congrArg some (by rfl),
      congrArg some (vec_one _), congrArg some (vec_one _), hs'⟩

end
end Nrf
