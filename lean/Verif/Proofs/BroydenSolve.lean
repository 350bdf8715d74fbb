import Verif.Proofs.Secant
import Verif.Proofs.Kantorovich

/-!
# The updating methods in any dimension, while no residual is negative
-/

set_option linter.unusedSectionVars false

namespace Nrf
open Spec
open scoped Exact
open Matrix

section
variable {K : Type} [Field K] [LinearOrder K] [IsStrictOrderedRing K] {n : Nat} {EI EU S : Type}
variable {c : Config K n} {m : UserModel K n EI EU S}
variable {inv : S → Prop} {D : Vec K n → Prop} {f : Vec K n → ResidualsValues K n}

/-- The cache holds the inverse `H`, and the matrix `J` when `full`. -/
structure Cached (full : Bool) (j : JacobianMatrix K n) (J H : Mat K n) : Prop where
  mul : J * H = 1
  pending : j.computeNext = false
  inverse : j.inverse = some H
  matrix : full = true → j.matrix = some J

/-- The state of the solver between two passes at `x`, with the pair of the last pass. -/
structure PairState (m : UserModel K n EI EU S) (inv : S → Prop) (f : Vec K n → ResidualsValues K n) (full : Bool)
    (st : Solver K n) (s : S) (x : Vec K n) (J H : Mat K n) (ds dy cur : Vec K n) : Prop where
  debug : st.debug = false
  valid : st.valid = true
  cached : Cached full st.jac J H
  itStep : st.itStep = some ds
  resStep : st.resStep = some dy
  resCur : st.resCur = some cur
  here : At m inv f s x

/-- A pass that updates. -/
theorem iterate_pair (hL : c.la.IsExact) (hf : Computes m inv D f) {u full} (hm : Updates c.params.method u full)
    (hdamp : c.params.damping = false) {st : Solver K n} {s : S} {x x' ds dy cur : Vec K n} {J H J' H' : Mat K n}
    (h : PairState m inv f full st s x J H ds dy cur) (hd : direction u J H ds dy cur ⬝ᵥ ds ≠ 0)
    (he : directionInv u H ds dy cur ⬝ᵥ dy ≠ 0) (hJ' : rankJac J ds dy (direction u J H ds dy cur) = J')
    (hH' : rankInv H ds dy (directionInv u H ds dy cur) = H') (hx' : x - H' *ᵥ updateAt c f x = x')
    (hlim : ∀ i, (c.iters i).stepLimitation (x i) (x' i - x i) = x' i) (hD : D x') :
    ∃ st' s', iterate c m st s = .ok (st', s', .ok (amax (evaluateErrors c m s'))) ∧ st'.iter = st.iter + 1 ∧
      PairState m inv f full st' s' x' J' H' (x' - x) (errorsAt c f x' - errorsAt c f x) (errorsAt c f x') := by
  have hmul : J' * H' = 1 := by
    have := rank_mul h.cached.mul ds dy (direction u J H ds dy cur) hd (by rw [direction_inv h.cached.mul]; exact he)
    rwa [direction_inv h.cached.mul, hJ', hH'] at this
  have hlim' : stepLimitations c.iters x (mulVec c.la (mneg H') (updateAt c f x)) = x' := limited_eq hL hx' hlim
  have hstep : ∃ j', Cached full j' J' H' ∧ computeStep c m { st with iter := st.iter + 1 } s =
      .ok ({ st with iter := st.iter + 1, jac := j' }, s, .ok x') := by
    generalize hmeth : c.params.method = meth at hm
    cases hm with
    | jac u =>
      have hdet : J'.det ≠ 0 := by
        have := congrArg Matrix.det hmul
        rw [Matrix.det_mul, Matrix.det_one] at this
        exact left_ne_zero_of_mul (by rw [this]; exact one_ne_zero)
      have hj' : approximateJacobian c.la st.jac u ds dy cur = .ok (⟨some J', some H', false, true⟩, true) := by
        rw [ex_approximateJacobian hL (h.cached.matrix rfl) h.cached.inverse, hJ']
        simp only [JacobianMatrix.updateApproximated, JacobianMatrix.update, hL.inv_some _ hdet]
        rw [Matrix.inv_eq_right_inv hmul]
      refine ⟨⟨some J', some H', false, true⟩, ⟨hmul, rfl, rfl, fun _ => rfl⟩, ?_⟩
      rw [computeStep_updated (st := { st with iter := st.iter + 1 }) (f := f) h.debug hmeth h.cached.pending
        h.here h.itStep h.resStep h.resCur hj' rfl, hlim']
    | inv u =>
      have hj' := ex_approximateInvJacobian hL h.cached.inverse u ds dy cur
      rw [hH'] at hj'
      refine ⟨st.jac.updateInverse H', ⟨hmul, h.cached.pending, rfl, fun h => by cases h⟩, ?_⟩
      rw [computeStep_invUpdated (st := { st with iter := st.iter + 1 }) (f := f) h.debug hmeth h.cached.pending
        h.here h.itStep h.resStep h.resCur hj' rfl, hlim']
  obtain ⟨j', hsl, hstep⟩ := hstep
  obtain ⟨s', hs', hi⟩ := iterate_at hf hstep h.debug h.here hD (fun h => by rw [hdamp] at h; cases h)
  refine ⟨_, s', by rw [hi, hs'.errors], (storeSteps_fields ..).1, ?_⟩
  generalize c.params.method = meth at hm
  cases hm <;> exact ⟨h.debug, rfl, hsl, rfl, rfl, rfl, hs'⟩

/-- The first pass, with an analytic Jacobian. -/
theorem iterate_pair_first (hL : c.la.IsExact) (hf : Computes m inv D f) {g : Vec K n → JacobianValues K n}
    (hg : Differentiates m inv f g) {u full} (hm : Updates c.params.method u full) (hdamp : c.params.damping = false)
    {st : Solver K n} {s : S} {x x' : Vec K n} {J : Mat K n} (hd : st.debug = false) (hcn : st.jac.computeNext = true)
    (hs : At m inv f s x) (hJ : analyticAt c f g x = J) (hdet : J.det ≠ 0) (hx' : x - J⁻¹ *ᵥ updateAt c f x = x')
    (hlim : ∀ i, (c.iters i).stepLimitation (x i) (x' i - x i) = x' i) (hD : D x') :
    ∃ st' s', iterate c m st s = .ok (st', s', .ok (amax (evaluateErrors c m s'))) ∧ st'.iter = st.iter + 1 ∧
      PairState m inv f full st' s' x' J J⁻¹ (x' - x) (errorsAt c f x' - errorsAt c f x) (errorsAt c f x') := by
  have hbase : ∀ z, Base x 0 z → z = x := by
    rintro z (rfl | ⟨i, rfl⟩)
    · rfl
    · rw [moved_eq]; simp
  have hsrc : Source c m inv D f x 0 J := by rw [← hJ]; exact .analytic g hg
  obtain ⟨st', s', z, hs', hz, hi, rfl⟩ := iterate_newton hL hf hsrc hdet hx' hD
    (fun z hz i => by rw [hbase z hz]; exact hlim i) (fun h => by rw [hdamp] at h; cases h) hd (.inr hcn) hs
  cases hbase z hz
  refine ⟨_, s', hi, (storeSteps_fields ..).1, ?_⟩
  generalize c.params.method = meth at hm
  have hc : ∀ b, Cached b (⟨some J, some J⁻¹, false, false⟩ : JacobianMatrix K n) J J⁻¹ :=
    fun _ => ⟨mul_nonsing_inv _ (isUnit_iff_ne_zero.2 hdet), rfl, rfl, fun _ => rfl⟩
  cases hm <;> exact ⟨hd, rfl, hc _, rfl, rfl, rfl, hs'⟩

/-- The first pass, with finite differences: the pair starts at the displaced point. -/
theorem iterate_pair_differences {n : Nat} {c : Config K (n + 1)} {m : UserModel K (n + 1) EI EU S}
    {D : Vec K (n + 1) → Prop} {f : Vec K (n + 1) → ResidualsValues K (n + 1)}
    (hL : c.la.IsExact) (hf : Computes m inv D f) (hu : Underived m inv f)
    {u full} (hm : Updates c.params.method u full) (hdamp : c.params.damping = false)
    {st : Solver K (n + 1)} {s : S} {x x' z pert : Vec K (n + 1)} {J : Mat K (n + 1)} (hd : st.debug = false)
    (hcn : st.jac.computeNext = true) (hs : At m inv f s x) (hp : computePerturbations c.iters x = some pert)
    (hD : ∀ i, D (moved x i (pert i))) (hJ : differencesAt c f pert x = J) (hdet : J.det ≠ 0)
    (hz : z = moved x (Fin.last n) (pert (Fin.last n))) (hx' : z - J⁻¹ *ᵥ updateAt c f z = x')
    (hlim : ∀ i, (c.iters i).stepLimitation (z i) (x' i - z i) = x' i) (hDx : D x') :
    ∃ st' s', iterate c m st s = .ok (st', s', .ok (amax (evaluateErrors c m s'))) ∧ st'.iter = st.iter + 1 ∧
      PairState m inv f full st' s' x' J J⁻¹ (x' - z) (errorsAt c f x' - errorsAt c f z) (errorsAt c f x') := by
  subst hJ
  obtain ⟨s1, z', hs1, hz', hj⟩ := computeJac_fd hf hu hs hp hD st.jac (hL.inv_some _ hdet)
  have hzz : z' = z := by
    rcases hz' with ⟨-, h⟩ | ⟨last, hlast, h⟩
    · omega
    · rw [h, hz, show last = Fin.last n from Fin.ext (by simp at hlast ⊢; omega)]
  subst hzz
  have hstep := computeStep_computed (c := c) (st := { st with iter := st.iter + 1 }) (f := f) hd (.inr hcn) hs1 hj
  rw [limited_eq hL hx' hlim] at hstep
  obtain ⟨s', hs', hi⟩ := iterate_at hf hstep hd hs1 hDx (fun h => by rw [hdamp] at h; cases h)
  refine ⟨_, s', by rw [hi, hs'.errors], (storeSteps_fields ..).1, ?_⟩
  generalize c.params.method = meth at hm
  have hc : ∀ b, Cached b (⟨some (differencesAt c f pert x), some (differencesAt c f pert x)⁻¹, false, false⟩ :
      JacobianMatrix K (n + 1)) (differencesAt c f pert x) (differencesAt c f pert x)⁻¹ :=
    fun _ => ⟨mul_nonsing_inv _ (isUnit_iff_ne_zero.2 hdet), rfl, rfl, fun _ => rfl⟩
  cases hm <;> exact ⟨hd, rfl, hc _, rfl, rfl, rfl, hs'⟩

/-- A method that updates a matrix, in exact arithmetic: no damping, absolute residuals. -/
structure Spec.PlainUpdating (c : Config K n) (u : UpdateMethod) : Prop where
  exact : c.la.IsExact
  method : c.params.method = .QuasiNewton (.JacobianUpdate u) ∨ c.params.method = .QuasiNewton (.InverseJacobianUpdate u)
  damping : c.params.damping = false
  stop : ∀ i, c.res.stop i = .Abs
  upd : ∀ i, c.res.upd i = .Abs

variable {u : UpdateMethod}

theorem Spec.PlainUpdating.newton (hc : PlainUpdating c u) :
    PlainNewton { c with params := { c.params with method := .NewtonRaphson } } :=
  ⟨hc.exact, rfl, hc.damping, hc.stop, hc.upd⟩

/-- Points `x` and inverse matrices `J`, `H`: steps with `H`, and updates with the change of the residuals. -/
structure Pairs (u : UpdateMethod) (F : Vec K n → Vec K n) (x : Nat → Vec K n) (J H : Nat → Mat K n) : Prop where
  mul : ∀ k, J k * H k = 1
  step : ∀ k, x (k + 1) = x k - H k *ᵥ F (x k)
  matrix : ∀ k, x (k + 1) - x k ≠ 0 → J (k + 1) = rankJac (J k) (x (k + 1) - x k) (F (x (k + 1)) - F (x k))
    (direction u (J k) (H k) (x (k + 1) - x k) (F (x (k + 1)) - F (x k)) (F (x (k + 1))))
  inverse : ∀ k, x (k + 1) - x k ≠ 0 → H (k + 1) = rankInv (H k) (x (k + 1) - x k) (F (x (k + 1)) - F (x k))
    (directionInv u (H k) (x (k + 1) - x k) (F (x (k + 1)) - F (x k)) (F (x (k + 1))))
  dir : ∀ k, x (k + 1) - x k ≠ 0 → direction u (J k) (H k) (x (k + 1) - x k) (F (x (k + 1)) - F (x k))
    (F (x (k + 1))) ⬝ᵥ (x (k + 1) - x k) ≠ 0
  dirInv : ∀ k, x (k + 1) - x k ≠ 0 → directionInv u (H k) (x (k + 1) - x k) (F (x (k + 1)) - F (x k))
    (F (x (k + 1))) ⬝ᵥ (F (x (k + 1)) - F (x k)) ≠ 0

/-- The solver follows a sequence `x` of points with matrices `J`, `H` as long as no residual is negative. -/
theorem pair_run (hc : PlainUpdating c u) (F : Vec K n → Vec K n) (jac : Vec K n → Mat K n) (x : Nat → Vec K n)
    (J H : Nat → Mat K n) (N : Nat) (hN : N ≤ c.params.maxIter) (hx0 : x 0 = c.guess) (hJ0 : J 0 = jac c.guess)
    (hP : Pairs u F x J H)
    (hlim : ∀ k < N, ∀ i, (c.iters i).stepLimitation (x k i) (x (k + 1) i - x k i) = x (k + 1) i)
    (hpos : ∀ k < N, ∀ i, 0 ≤ F (x k) i)
    (hend : ∀ i, |F (x N) i| ≤ c.params.tolerance) (htol : 0 ≤ c.params.tolerance) (s : AdapterState K n)
    (hs : s.right = 0) :
    ∃ st' s', solve c (fromFunctionAndJacobian F jac) .new s = .ok (st', s', .ok ()) ∧ st'.iter ≤ N ∧
      s'.inputs = x st'.iter ∧ ∀ i, |F s'.inputs i| ≤ c.params.tolerance := by
  obtain ⟨hJH, hx, hJ, hH, hd, he⟩ := hP
  obtain ⟨full, hm⟩ : ∃ full, Updates c.params.method u full := by
    rcases hc.method with h | h
    · exact ⟨true, h ▸ .jac u⟩
    · exact ⟨false, h ▸ .inv u⟩
  have hamax : ∀ x, amax (errorsAt c (fun x => ⟨F x, 0⟩) x) ≤ c.params.tolerance ↔ ∀ i, |F x i| ≤ c.params.tolerance := by
    intro x
    rw [amax_le_iff _ htol]
    simp only [show ∀ i, errorsAt c (fun x => ⟨F x, 0⟩) x i = |F x i| from hc.newton.errors F x, abs_abs]
  have herr : ∀ k < N, errorsAt c (fun x => ⟨F x, 0⟩) (x k) = F (x k) := fun k hk => funext fun i =>
    (hc.newton.errors F (x k) i).trans (abs_of_nonneg (hpos k hk i))
  have hupd : ∀ y, updateAt c (fun x => ⟨F x, 0⟩) y = F y := hc.newton.update F
  have hf := fromFunctionAndJacobian_computes F jac 0
  have hcontinue : ∀ k st s, At (fromFunctionAndJacobian F jac) (fun s => s.right = 0) (fun x => ⟨F x, 0⟩) s (x k) →
      k ≤ N → continues c st (amax (evaluateErrors c (fromFunctionAndJacobian F jac) s)) = true →
      k < N ∧ F (x k) ≠ 0 := by
    intro k st s hat hk hcont
    rw [hat.errors] at hcont
    simp only [continues, Bool.and_eq_true] at hcont
    have hcont := (ex_lt _ _).1 hcont.1
    refine ⟨lt_of_le_of_ne hk ?_, fun h0 => ?_⟩
    · rintro rfl
      exact absurd ((hamax _).2 hend) (not_le.2 hcont)
    · exact absurd ((hamax (x k)).2 fun i => by rw [h0]; simpa using htol) (not_le.2 hcont)
  have hne : ∀ k, F (x k) ≠ 0 → x (k + 1) - x k ≠ 0 := by
    intro k h h0
    rw [hx k, sub_sub_cancel_left, neg_eq_zero] at h0
    apply h
    have := congrArg (J k *ᵥ ·) h0
    simpa [mulVec_mulVec, hJH] using this
  obtain ⟨k, st', s', h1, h2, h3, h4⟩ := solve_follow (c := c) hf
    (fun k st s => k ≤ N ∧ st.iter = k ∧
      ((k = 0 ∧ st.debug = false ∧ st.valid = true ∧ st.jac.computeNext = true ∧
        At (fromFunctionAndJacobian F jac) (fun s => s.right = 0) (fun x => ⟨F x, 0⟩) s (x 0)) ∨
      ∃ j, k = j + 1 ∧ x (j + 1) - x j ≠ 0 ∧ PairState (fromFunctionAndJacobian F jac) (fun s => s.right = 0)
        (fun x => ⟨F x, 0⟩) full st s (x (j + 1)) (J j) (H j) (x (j + 1) - x j)
        (errorsAt c (fun x => ⟨F x, 0⟩) (x (j + 1)) - errorsAt c (fun x => ⟨F x, 0⟩) (x j))
        (errorsAt c (fun x => ⟨F x, 0⟩) (x (j + 1)))))
    (by
      rintro k st s ⟨hk, hi, ⟨rfl, hd0, -, hcn, hat⟩ | ⟨j, rfl, hsj, hst⟩⟩ hcont
      · obtain ⟨hk, h0⟩ := hcontinue 0 st s hat hk hcont
        have hJ0' : J 0 = jac (x 0) := by rw [hJ0, hx0]
        have hdet : (J 0).det ≠ 0 := by
          have := congrArg Matrix.det (hJH 0)
          rw [Matrix.det_mul, Matrix.det_one] at this
          exact left_ne_zero_of_mul (by rw [this]; exact one_ne_zero)
        have hH0 : (J 0)⁻¹ = H 0 := Matrix.inv_eq_right_inv (hJH 0)
        obtain ⟨st', s', g1, g2, g3⟩ := iterate_pair_first hc.exact hf (fromFunctionAndJacobian_differentiates F jac 0) hm
          hc.damping hd0 hcn hat ((hc.newton.jacobian F jac (x 0)).trans hJ0'.symm) hdet (x' := x 1)
          (by rw [hupd, hH0]; exact (hx 0).symm) (hlim 0 hk) trivial
        rw [hH0] at g3
        exact ⟨st', s', g1, hk, by rw [g2, hi], .inr ⟨0, rfl, hne 0 h0, g3⟩⟩
      · obtain ⟨hk, h0⟩ := hcontinue (j + 1) st s hst.here hk hcont
        rw [herr j (by omega), herr (j + 1) hk] at hst
        obtain ⟨st', s', g1, g2, g3⟩ := iterate_pair hc.exact hf hm hc.damping hst (hd j hsj) (he j hsj)
          (hJ j hsj).symm (hH j hsj).symm (x' := x (j + 2)) (by rw [hupd]; exact (hx (j + 1)).symm) (hlim (j + 1) hk)
          trivial
        exact ⟨st', s', g1, hk, by rw [g2, hi], .inr ⟨j + 1, rfl, hne _ h0, g3⟩⟩)
    hs trivial (fun s0 h => ⟨Nat.zero_le _, rfl, .inl ⟨rfl, rfl, rfl, rfl, hx0 ▸ h⟩⟩)
  obtain ⟨hk, hi, hcase⟩ := h2
  have hat : st'.valid = true ∧
      At (fromFunctionAndJacobian F jac) (fun s => s.right = 0) (fun x => ⟨F x, 0⟩) s' (x k) := by
    rcases hcase with ⟨rfl, -, hv, -, hat⟩ | ⟨j, rfl, -, hst⟩
    · exact ⟨hv, hat⟩
    · exact ⟨hst.valid, hst.here⟩
  obtain ⟨hv, hat⟩ := hat
  have hle : amax (errorsAt c (fun x => ⟨F x, 0⟩) (x k)) ≤ c.params.tolerance := by
    rcases Nat.lt_or_ge k N with h | h
    · have : decide (st'.iter < c.params.maxIter) = true := by rw [hi]; simp; omega
      rw [continues, this, Bool.and_true, hat.errors, ex_lt_false] at h3
      exact h3
    · obtain rfl : k = N := by omega
      exact (hamax _).2 hend
  have hin : s'.inputs = x k := hat.iteratives
  refine ⟨st', s', ?_, by omega, by rw [hi]; exact hin, by rw [hin]; exact (hamax _).1 hle⟩
  rw [h1]
  have hlt : Scalar.lt c.params.tolerance (amax (evaluateErrors c (fromFunctionAndJacobian F jac) s')) = false := by
    rw [hat.errors, ex_lt_false]; exact hle
  simp only [finalResult, hlt, Bool.false_eq_true, if_false, hv, if_true]

/-- The same with finite differences: the sequence starts at the displaced point. -/
theorem pair_run_differences {n : Nat} {c : Config K (n + 1)} (hc : PlainUpdating c u) (F : Vec K (n + 1) → Vec K (n + 1))
    {pert : Vec K (n + 1)} (hp : computePerturbations c.iters c.guess = some pert) (x : Nat → Vec K (n + 1))
    (J H : Nat → Mat K (n + 1)) (N : Nat) (hN : N ≤ c.params.maxIter) (hN0 : 0 < N)
    (hx0 : x 0 = moved c.guess (Fin.last n) (pert (Fin.last n)))
    (hJ0 : ∀ i k, J 0 i k = (F (moved c.guess k (pert k)) i - F c.guess i) / pert k)
    (hP : Pairs u F x J H)
    (hlim : ∀ k < N, ∀ i, (c.iters i).stepLimitation (x k i) (x (k + 1) i - x k i) = x (k + 1) i)
    (hpos : ∀ k < N, ∀ i, 0 ≤ F (x k) i)
    (hend : ∀ i, |F (x N) i| ≤ c.params.tolerance) (htol : 0 ≤ c.params.tolerance) (s : AdapterState K (n + 1))
    (hs : s.right = 0) :
    ∃ st' s', solve c (fromFunction F) .new s = .ok (st', s', .ok ()) ∧ st'.iter ≤ N ∧
      s'.inputs = (if st'.iter = 0 then c.guess else x st'.iter) ∧ ∀ i, |F s'.inputs i| ≤ c.params.tolerance := by
  obtain ⟨hJH, hx, hJ, hH, hd, he⟩ := hP
  obtain ⟨full, hm⟩ : ∃ full, Updates c.params.method u full := by
    rcases hc.method with h | h
    · exact ⟨true, h ▸ .jac u⟩
    · exact ⟨false, h ▸ .inv u⟩
  have hamax : ∀ x, amax (errorsAt c (fun x => ⟨F x, 0⟩) x) ≤ c.params.tolerance ↔ ∀ i, |F x i| ≤ c.params.tolerance := by
    intro x
    rw [amax_le_iff _ htol]
    simp only [show ∀ i, errorsAt c (fun x => ⟨F x, 0⟩) x i = |F x i| from hc.newton.errors F x, abs_abs]
  have herr : ∀ k < N, errorsAt c (fun x => ⟨F x, 0⟩) (x k) = F (x k) := fun k hk => funext fun i =>
    (hc.newton.errors F (x k) i).trans (abs_of_nonneg (hpos k hk i))
  have hupd : ∀ y, updateAt c (fun x => ⟨F x, 0⟩) y = F y := hc.newton.update F
  have hf := fromFunction_computes F 0
  have hcontinue : ∀ k st s, At (fromFunction F) (fun s => s.right = 0) (fun x => ⟨F x, 0⟩) s (x k) →
      k ≤ N → continues c st (amax (evaluateErrors c (fromFunction F) s)) = true →
      k < N ∧ F (x k) ≠ 0 := by
    intro k st s hat hk hcont
    rw [hat.errors] at hcont
    simp only [continues, Bool.and_eq_true] at hcont
    have hcont := (ex_lt _ _).1 hcont.1
    refine ⟨lt_of_le_of_ne hk ?_, fun h0 => ?_⟩
    · rintro rfl
      exact absurd ((hamax _).2 hend) (not_le.2 hcont)
    · exact absurd ((hamax (x k)).2 fun i => by rw [h0]; simpa using htol) (not_le.2 hcont)
  have hne : ∀ k, F (x (k + 1)) ≠ 0 → x (k + 1) - x k ≠ 0 := by
    intro k h h0
    apply h
    rw [sub_eq_zero.1 h0]
    rw [hx k, sub_sub_cancel_left, neg_eq_zero] at h0
    have := congrArg (J k *ᵥ ·) h0
    simpa [mulVec_mulVec, hJH] using this
  obtain ⟨k, st', s', h1, h2, h3, h4⟩ := solve_follow (c := c) hf
    (fun k st s => k ≤ N ∧ st.iter = k ∧
      ((k = 0 ∧ st.debug = false ∧ st.valid = true ∧ st.jac.computeNext = true ∧
        At (fromFunction F) (fun s => s.right = 0) (fun x => ⟨F x, 0⟩) s c.guess) ∨
      ∃ j, k = j + 1 ∧ PairState (fromFunction F) (fun s => s.right = 0)
        (fun x => ⟨F x, 0⟩) full st s (x (j + 1)) (J j) (H j) (x (j + 1) - x j)
        (errorsAt c (fun x => ⟨F x, 0⟩) (x (j + 1)) - errorsAt c (fun x => ⟨F x, 0⟩) (x j))
        (errorsAt c (fun x => ⟨F x, 0⟩) (x (j + 1)))))
    (by
      rintro k st s ⟨hk, hi, ⟨rfl, hd0, -, hcn, hat⟩ | ⟨j, rfl, hst⟩⟩ hcont
      · have hJ0' : differencesAt c (fun x => ⟨F x, 0⟩) pert c.guess = J 0 := by
          ext i k
          rw [hJ0, differencesAt, hupd, hupd]
          rfl
        have hdet : (J 0).det ≠ 0 := by
          have := congrArg Matrix.det (hJH 0)
          rw [Matrix.det_mul, Matrix.det_one] at this
          exact left_ne_zero_of_mul (by rw [this]; exact one_ne_zero)
        have hH0 : (J 0)⁻¹ = H 0 := Matrix.inv_eq_right_inv (hJH 0)
        obtain ⟨st', s', g1, g2, g3⟩ := iterate_pair_differences hc.exact hf (fromFunction_underived F 0) hm
          hc.damping hd0 hcn hat hp (fun _ => trivial) hJ0' hdet hx0 (x' := x 1)
          (by rw [hupd, hH0]; exact (hx 0).symm) (hlim 0 hN0) trivial
        rw [hH0] at g3
        exact ⟨st', s', g1, hN0, by rw [g2, hi], .inr ⟨0, rfl, g3⟩⟩
      · obtain ⟨hk, h0⟩ := hcontinue (j + 1) st s hst.here hk hcont
        have hsj := hne j h0
        rw [herr j (by omega), herr (j + 1) hk] at hst
        obtain ⟨st', s', g1, g2, g3⟩ := iterate_pair hc.exact hf hm hc.damping hst (hd j hsj) (he j hsj)
          (hJ j hsj).symm (hH j hsj).symm (x' := x (j + 2)) (by rw [hupd]; exact (hx (j + 1)).symm) (hlim (j + 1) hk)
          trivial
        exact ⟨st', s', g1, hk, by rw [g2, hi], .inr ⟨j + 1, rfl, g3⟩⟩)
    hs trivial (fun s0 h => ⟨Nat.zero_le _, rfl, .inl ⟨rfl, rfl, rfl, rfl, h⟩⟩)
  obtain ⟨hk, hi, hcase⟩ := h2
  have hat : st'.valid = true ∧
      At (fromFunction F) (fun s => s.right = 0) (fun x => ⟨F x, 0⟩) s' (if k = 0 then c.guess else x k) := by
    rcases hcase with ⟨rfl, -, hv, -, hat⟩ | ⟨j, rfl, hst⟩
    · exact ⟨hv, hat⟩
    · exact ⟨hst.valid, hst.here⟩
  obtain ⟨hv, hat⟩ := hat
  have hle : amax (errorsAt c (fun x => ⟨F x, 0⟩) (if k = 0 then c.guess else x k)) ≤ c.params.tolerance := by
    rcases Nat.lt_or_ge k N with h | h
    · have : decide (st'.iter < c.params.maxIter) = true := by rw [hi]; simp; omega
      rw [continues, this, Bool.and_true, hat.errors, ex_lt_false] at h3
      exact h3
    · obtain rfl : k = N := by omega
      rw [if_neg hN0.ne']
      exact (hamax _).2 hend
  have hin : s'.inputs = if k = 0 then c.guess else x k := hat.iteratives
  refine ⟨st', s', ?_, by omega, by rw [hi]; exact hin, by rw [hin]; exact (hamax _).1 hle⟩
  rw [h1]
  have hlt : Scalar.lt c.params.tolerance (amax (evaluateErrors c (fromFunction F) s')) = false := by
    rw [hat.errors, ex_lt_false]; exact hle
  simp only [finalResult, hlt, Bool.false_eq_true, if_false, hv, if_true]

end
end Nrf
