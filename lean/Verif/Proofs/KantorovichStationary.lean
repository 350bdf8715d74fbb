import Verif.Proofs.Kantorovich

/-!
# The theorem of Kantorovich for stationary Newton
-/

set_option linter.unusedSectionVars false

namespace Nrf
open Spec
open scoped Exact Topology
open Matrix

section
variable {K : Type} [Field K] [LinearOrder K] [IsStrictOrderedRing K] {n : Nat}

/-- Stationary Newton in exact arithmetic: no damping, absolute residuals. -/
structure Spec.PlainStationary (c : Config K n) : Prop where
  exact : c.la.IsExact
  method : c.params.method = .QuasiNewton .StationaryNewton
  damping : c.params.damping = false
  stop : ∀ i, c.res.stop i = .Abs
  upd : ∀ i, c.res.upd i = .Abs

variable {c : Config K n}

/-- The same configuration with Newton-Raphson. -/
theorem Spec.PlainStationary.newton (hc : PlainStationary c) :
    PlainNewton { c with params := { c.params with method := .NewtonRaphson } } :=
  ⟨hc.exact, rfl, hc.damping, hc.stop, hc.upd⟩

theorem Spec.PlainStationary.update (hc : PlainStationary c) (F : Vec K n → Vec K n) (x : Vec K n) :
    updateAt c (fun x => ⟨F x, 0⟩) x = F x := hc.newton.update F x

theorem Spec.PlainStationary.errors (hc : PlainStationary c) (F : Vec K n → Vec K n) (x : Vec K n) (i : Fin n) :
    errorsAt c (fun x => ⟨F x, 0⟩) x i = |F x i| := hc.newton.errors F x i

theorem Spec.PlainStationary.jacobian (hc : PlainStationary c) (F : Vec K n → Vec K n) (jac : Vec K n → Mat K n)
    (x : Vec K n) : analyticAt c (fun x => ⟨F x, 0⟩) (fun x => ⟨jac x, mzero⟩) x = jac x := hc.newton.jacobian F jac x

/-- A run of stationary Newton that keeps an invariant: every step uses the matrix `J` computed at the guess. -/
theorem stationary_run {EI EU S : Type} {m : UserModel K n EI EU S} {inv : S → Prop} {D : Vec K n → Prop}
    {f : Vec K n → ResidualsValues K n} (hL : c.la.IsExact) (hm : c.params.method = .QuasiNewton .StationaryNewton)
    (hdamp : c.params.damping = false) (hf : Computes m inv D f) (I : Nat → Vec K n → Prop) (N : Nat)
    (hN : N ≤ c.params.maxIter) (hD : ∀ k x, I k x → D x) (h0 : I 0 c.guess) {pert : Vec K n} {J : Mat K n}
    (hsrc : Source c m inv D f c.guess pert J) (hdet : J.det ≠ 0)
    (hstep : ∀ k x x', k < N → I k x → x - J⁻¹ *ᵥ updateAt c f x = x' → I (k + 1) x' ∧
      (∀ i, (c.iters i).stepLimitation (x i) (x' i - x i) = x' i) ∧
      (x = c.guess → ∀ z, Base x pert z → ∀ i, (c.iters i).stepLimitation (z i) (x' i - z i) = x' i))
    (hend : ∀ x, I N x → amax (errorsAt c f x) ≤ c.params.tolerance) (s : S) (hs : inv s) :
    ∃ st' s' x, solve c m .new s = .ok (st', s', .ok ()) ∧ st'.iter ≤ N ∧ At m inv f s' x ∧ I st'.iter x ∧
      amax (errorsAt c f x) ≤ c.params.tolerance := by
  obtain ⟨k, st', s', h1, h2, h3, h4⟩ := solve_follow (c := c) hf
    (fun k st s => st.debug = false ∧ st.valid = true ∧ st.iter = k ∧ k ≤ N ∧ ∃ x, At m inv f s x ∧ I k x ∧
      ((st.jac.computeNext = true ∧ x = c.guess) ∨ (st.jac.computeNext = false ∧ st.jac.inverse = some J⁻¹)))
    (by
      rintro k st s ⟨hd, hv, hi, hk, x, hat, hI, hj⟩ hcont
      have hk' : k < N := by
        rcases Nat.lt_or_ge k N with h | h
        · exact h
        · obtain rfl : k = N := by omega
          rw [hat.errors] at hcont
          simp only [continues, Bool.and_eq_true] at hcont
          exact absurd ((ex_lt _ _).1 hcont.1) (not_lt.2 (hend x hI))
      obtain ⟨hI', hlim, hlim0⟩ := hstep k x _ hk' hI rfl
      rcases hj with ⟨hcn, rfl⟩ | ⟨hcn, hinv⟩
      · obtain ⟨st', s', z, hs', -, hit, rfl⟩ := iterate_newton hL hf hsrc hdet rfl (hD _ _ hI') (hlim0 rfl)
          (fun h => by rw [hdamp] at h; cases h) hd (.inr hcn) hat
        obtain ⟨g1, -, g3, g4, g5⟩ := storeSteps_fields c.params.method
          { st with iter := st.iter + 1, jac := ⟨some J, some J⁻¹, false, false⟩, valid := true }
          (c.guess - J⁻¹ *ᵥ updateAt c f c.guess) z (errorsAt c f (c.guess - J⁻¹ *ᵥ updateAt c f c.guess)) (errorsAt c f z)
        refine ⟨_, s', hit, by rw [g5]; exact hd, by rw [g4], ?_, by omega, _, hs', hI', .inr ⟨by rw [g3], by rw [g3]⟩⟩
        rw [g1]
        change st.iter + 1 = _
        rw [hi]
      · obtain ⟨s', hs', hit⟩ := iterate_kept hL hf rfl (hD _ _ hI') hlim
          (fun h => by rw [hdamp] at h; cases h) hd hm hcn hinv hat
        exact ⟨_, s', hit, hd, rfl, congrArg (· + 1) hi, by omega, _, hs', hI', .inr ⟨hcn, hinv⟩⟩)
    hs (hD _ _ h0) (fun s0 h => ⟨rfl, rfl, rfl, Nat.zero_le _, _, h, h0, .inl ⟨rfl, rfl⟩⟩)
  obtain ⟨-, hv, hi, hk, x, hat, hI, -⟩ := h2
  have hle : amax (errorsAt c f x) ≤ c.params.tolerance := by
    rcases Nat.lt_or_ge k N with h | h
    · have : decide (st'.iter < c.params.maxIter) = true := by rw [hi]; simp; omega
      rw [continues, this, Bool.and_true, hat.errors, ex_lt_false] at h3
      exact h3
    · obtain rfl : k = N := by omega
      exact hend x hI
  refine ⟨st', s', x, ?_, by omega, hat, by rw [hi]; exact hI, hle⟩
  rw [h1]
  have hlt : Scalar.lt c.params.tolerance (amax (evaluateErrors c m s')) = false := by
    rw [hat.errors, ex_lt_false]; exact hle
  simp only [finalResult, hlt, Bool.false_eq_true, if_false, hv, if_true]

/-- The same for a function with a Jacobian. -/
theorem stationary_run_function (hc : PlainStationary c) (F : Vec K n → Vec K n) (jac : Vec K n → Mat K n)
    (I : Nat → Vec K n → Prop) (N : Nat) (hN : N ≤ c.params.maxIter) (h0 : I 0 c.guess) (hdet : (jac c.guess).det ≠ 0)
    (hstep : ∀ k x, k < N → I k x →
      (∀ i, (c.iters i).stepLimitation (x i) (-((jac c.guess)⁻¹ *ᵥ F x) i) = x i - ((jac c.guess)⁻¹ *ᵥ F x) i) ∧
        I (k + 1) (x - (jac c.guess)⁻¹ *ᵥ F x))
    (hend : ∀ x, I N x → ∀ i, |F x i| ≤ c.params.tolerance) (htol : 0 ≤ c.params.tolerance) (s : AdapterState K n)
    (hs : s.right = 0) :
    ∃ st' s', solve c (fromFunctionAndJacobian F jac) .new s = .ok (st', s', .ok ()) ∧ st'.iter ≤ N ∧
      I st'.iter s'.inputs ∧ ∀ i, |F s'.inputs i| ≤ c.params.tolerance := by
  have hamax : ∀ x, amax (errorsAt c (fun x => ⟨F x, 0⟩) x) ≤ c.params.tolerance ↔ ∀ i, |F x i| ≤ c.params.tolerance := by
    intro x
    rw [amax_le_iff _ htol]
    simp only [hc.errors F x, abs_abs]
  have hsrc := Source.analytic (c := c) (D := fun _ => True) (x := c.guess) (pert := 0) _
    (fromFunctionAndJacobian_differentiates F jac 0)
  rw [hc.jacobian F jac] at hsrc
  obtain ⟨st', s', x, h1, h2, h3, h4, h5⟩ := stationary_run hc.exact hc.method hc.damping
    (fromFunctionAndJacobian_computes F jac 0) I N hN (fun _ _ _ => trivial) h0 hsrc hdet
    (fun k x x' hk hI hx' => by
      rw [hc.update F x] at hx'
      subst hx'
      obtain ⟨hlim, hI'⟩ := hstep k x hk hI
      have hlim' : ∀ i, (c.iters i).stepLimitation (x i) ((x - (jac c.guess)⁻¹ *ᵥ F x) i - x i) =
          (x - (jac c.guess)⁻¹ *ᵥ F x) i := by
        intro i
        rw [Pi.sub_apply, show x i - ((jac c.guess)⁻¹ *ᵥ F x) i - x i = -((jac c.guess)⁻¹ *ᵥ F x) i by ring]
        exact hlim i
      refine ⟨hI', hlim', fun _ => ?_⟩
      rintro z (rfl | ⟨i, rfl⟩)
      · exact hlim'
      · rw [moved_eq]
        simpa using hlim')
    (fun x hI => (hamax x).2 (hend x hI)) s hs
  obtain rfl : s'.inputs = x := h3.iteratives
  exact ⟨st', s', h1, h2, h4, (hamax _).1 h5⟩

/-- The same for a function without a Jacobian: the matrix of the finite differences at the guess. -/
theorem stationary_run_differences (hc : PlainStationary c) (F : Vec K n → Vec K n) {pert : Vec K n}
    (hp : computePerturbations c.iters c.guess = some pert) (hne : ∀ i, pert i ≠ 0) {M : Mat K n}
    (hM : ∀ i k, M i k = (F (c.guess + Pi.single k (pert k)) i - F c.guess i) / pert k)
    (I : Nat → Vec K n → Prop) (N : Nat) (hN : N ≤ c.params.maxIter) (h0 : I 0 c.guess) (hdet : M.det ≠ 0)
    (hstep : ∀ k x x', k < N → I k x → x - M⁻¹ *ᵥ F x = x' → I (k + 1) x' ∧
      (∀ i, (c.iters i).stepLimitation (x i) (x' i - x i) = x' i) ∧ (x = c.guess → ∀ l i,
        (c.iters i).stepLimitation ((x + Pi.single l (pert l) : Vec K n) i) (x' i - (x + Pi.single l (pert l) : Vec K n) i) = x' i))
    (hend : ∀ x, I N x → ∀ i, |F x i| ≤ c.params.tolerance) (htol : 0 ≤ c.params.tolerance) (s : AdapterState K n)
    (hs : s.right = 0) :
    ∃ st' s', solve c (fromFunction F) .new s = .ok (st', s', .ok ()) ∧ st'.iter ≤ N ∧
      I st'.iter s'.inputs ∧ ∀ i, |F s'.inputs i| ≤ c.params.tolerance := by
  have hamax : ∀ x, amax (errorsAt c (fun x => ⟨F x, 0⟩) x) ≤ c.params.tolerance ↔ ∀ i, |F x i| ≤ c.params.tolerance := by
    intro x
    rw [amax_le_iff _ htol]
    simp only [hc.errors F x, abs_abs]
  have hsrc := Source.fd (c := c) (D := fun _ => True) (x := c.guess) (pert := pert)
    (fromFunction_underived F 0) hp hne (fun _ => trivial)
  have e : differencesAt c (fun x => ⟨F x, 0⟩) pert c.guess = M := by
    ext i k
    rw [hM, differencesAt, hc.update F, hc.update F, moved_eq]
    rfl
  rw [e] at hsrc
  obtain ⟨st', s', x, h1, h2, h3, h4, h5⟩ := stationary_run hc.exact hc.method hc.damping
    (fromFunction_computes F 0) I N hN (fun _ _ _ => trivial) h0 hsrc hdet
    (fun k x x' hk hI hx' => by
      rw [hc.update F x] at hx'
      obtain ⟨hI', hlim, hlim0⟩ := hstep k x x' hk hI hx'
      refine ⟨hI', hlim, fun hx => ?_⟩
      rintro z (rfl | ⟨l, rfl⟩)
      · exact hlim
      · rw [moved_eq]
        exact hlim0 hx l)
    (fun x hI => (hamax x).2 (hend x hI)) s hs
  obtain rfl : s'.inputs = x := h3.iteratives
  exact ⟨st', s', h1, h2, h4, (hamax _).1 h5⟩

end

variable {n : Nat}

theorem mulVec_bounded (M : Mat ℝ n) : ∃ b > 0, ∀ v, ‖M *ᵥ v‖ ≤ b * ‖v‖ := by
  refine ⟨‖(Matrix.mulVecLin M).toContinuousLinearMap‖ + 1, by positivity, fun v => ?_⟩
  have := (Matrix.mulVecLin M).toContinuousLinearMap.le_opNorm v
  have e : (Matrix.mulVecLin M).toContinuousLinearMap v = M *ᵥ v := rfl
  rw [e] at this
  have := norm_nonneg v
  linarith

namespace Kantorovich
variable {F : Vec ℝ n → Vec ℝ n} {jac : Vec ℝ n → Mat ℝ n} {x : Vec ℝ n} {η ω : ℝ}

/-- A segment between points of the neighbourhood stays in it. -/
theorem segment {y z : Vec ℝ n} (hy : ‖y - x‖ ≤ 2 * η) (hz : ‖z - x‖ ≤ 2 * η) {t : ℝ} (h0 : 0 ≤ t) (h1 : t ≤ 1) :
    ‖y + t • (z - y) - x‖ ≤ 2 * η := by
  have e : y + t • (z - y) - x = (1 - t) • (y - x) + t • (z - x) := by module
  rw [e]
  refine (norm_add_le _ _).trans ?_
  rw [norm_smul, norm_smul, Real.norm_of_nonneg h0, Real.norm_of_nonneg (by linarith : 0 ≤ 1 - t)]
  have := mul_le_mul_of_nonneg_left hy (by linarith : 0 ≤ 1 - t)
  have := mul_le_mul_of_nonneg_left hz h0
  linarith

/-- Steps with the Jacobian at `x` bring points of the neighbourhood together. -/
theorem contract (h : Kantorovich F jac x η ω) {y z : Vec ℝ n} (hy : ‖y - x‖ ≤ 2 * η) (hz : ‖z - x‖ ≤ 2 * η) :
    ‖(z - (jac x)⁻¹ *ᵥ F z) - (y - (jac x)⁻¹ *ᵥ F y)‖ ≤ 2 * (ω * η) * ‖z - y‖ := by
  have hη := eta_nonneg h
  refine (pi_norm_le_iff_of_nonneg
    (mul_nonneg (mul_nonneg two_pos.le (mul_nonneg h.nonneg hη)) (norm_nonneg _))).2 fun i => ?_
  have hder : ∀ t : ℝ, 0 ≤ t → t ≤ 1 → HasDerivAt
      (fun t : ℝ => ((jac x)⁻¹ *ᵥ F (y + t • (z - y))) i - t * (z - y) i)
      (((jac x)⁻¹ *ᵥ (jac (y + t • (z - y)) *ᵥ (z - y))) i - (z - y) i) t := by
    intro t h0 h1
    have h2 := (along (B := (jac x)⁻¹) (h.jacobian _ (segment hy hz h0 h1)) i).sub ((hasDerivAt_id t).mul_const ((z - y) i))
    rw [one_mul] at h2
    exact h2
  obtain ⟨t, ⟨ht0, ht1⟩, hs⟩ := exists_hasDerivAt_eq_slope _ _ (zero_lt_one' ℝ)
    (fun t ht => (hder t ht.1 ht.2).continuousAt.continuousWithinAt) (fun t ht => hder t ht.1.le ht.2.le)
  have h1 := (norm_le_pi_norm _ i).trans (h.lipschitz _ x (segment hy hz ht0.le ht1.le) (by simpa using hη) (z - y))
  rw [Matrix.sub_mulVec, Matrix.mulVec_sub, Matrix.mulVec_mulVec _ _ (jac x), ex_inv_mul h.invertible, Matrix.one_mulVec,
    Pi.sub_apply, hs] at h1
  simp only [one_smul, zero_smul, add_zero, one_mul, zero_mul, sub_zero, div_one, add_sub_cancel] at h1
  have e : ((z - (jac x)⁻¹ *ᵥ F z) - (y - (jac x)⁻¹ *ᵥ F y)) i =
      -(((jac x)⁻¹ *ᵥ F z) i - (z - y) i - ((jac x)⁻¹ *ᵥ F y) i) := by
    simp only [Pi.sub_apply]; ring
  rw [e, norm_neg]
  refine h1.trans (mul_le_mul_of_nonneg_right ?_ (norm_nonneg _))
  have := mul_le_mul_of_nonneg_left (segment hy hz ht0.le ht1.le) h.nonneg
  linarith

/-- Steps with the Jacobian at `x` stay in the neighbourhood. -/
theorem inside (h : Kantorovich F jac x η ω) {y : Vec ℝ n} (hy : ‖y - x‖ ≤ 2 * η) :
    ‖y - (jac x)⁻¹ *ᵥ F y - x‖ ≤ 2 * η := by
  have hη := eta_nonneg h
  have hω := h.nonneg
  have hself : ‖x - x‖ ≤ 2 * η := by simpa using hη
  have hq2 : ‖y - x‖ ^ 2 ≤ 4 * η ^ 2 := by nlinarith [norm_nonneg (y - x)]
  have hquad : ‖(jac x)⁻¹ *ᵥ F y - (jac x)⁻¹ *ᵥ F x - (y - x)‖ ≤ ω * ‖y - x‖ ^ 2 / 2 := by
    refine (pi_norm_le_iff_of_nonneg (by positivity)).2 fun i => ?_
    have hin : ∀ t : ℝ, |t| ≤ 1 → ‖x + t • (y - x) - x‖ = |t| * ‖y - x‖ ∧ ‖x + t • (y - x) - x‖ ≤ 2 * η := by
      intro t ht
      rw [add_sub_cancel_left, norm_smul, Real.norm_eq_abs]
      exact ⟨rfl, (mul_le_of_le_one_left (norm_nonneg _) ht).trans hy⟩
    have hq := quotient_error (φ := fun t => ((jac x)⁻¹ *ᵥ F (x + t • (y - x))) i)
      (G := fun t => ((jac x)⁻¹ *ᵥ (jac (x + t • (y - x)) *ᵥ (y - x))) i) (p := 1) (L := ω * ‖y - x‖ ^ 2) one_ne_zero
      (fun t ht => along (h.jacobian _ (hin t (by simpa using ht)).2) i)
      (fun t ht => by
        obtain ⟨h1, h2⟩ := hin t (by simpa using ht)
        have h3 := (norm_le_pi_norm _ i).trans (h.lipschitz _ x h2 hself (y - x))
        rw [Matrix.sub_mulVec, Matrix.mulVec_sub] at h3
        simp only [zero_smul, add_zero]
        refine le_trans h3 (le_of_eq ?_)
        rw [h1]
        ring)
    simp only [one_smul, zero_smul, add_zero, div_one, abs_one, mul_one, add_sub_cancel] at hq
    rw [Matrix.mulVec_mulVec _ _ (jac x), ex_inv_mul h.invertible, Matrix.one_mulVec] at hq
    rw [Real.norm_eq_abs]
    exact hq
  have e : y - (jac x)⁻¹ *ᵥ F y - x = -((jac x)⁻¹ *ᵥ F y - (jac x)⁻¹ *ᵥ F x - (y - x)) - (jac x)⁻¹ *ᵥ F x := by abel
  rw [e]
  refine (norm_sub_le _ _).trans ?_
  rw [norm_neg]
  have h1 := h.first
  have h2 := mul_le_mul_of_nonneg_left hq2 hω
  have h3 := mul_le_mul_of_nonneg_right h.small hη
  nlinarith

end Kantorovich

namespace Simplified
variable {F : Vec ℝ n → Vec ℝ n} {jac : Vec ℝ n → Mat ℝ n} {M : Mat ℝ n} {x : Vec ℝ n} {ρ q : ℝ}

theorem radius_nonneg (h : Simplified F jac M x ρ q) : 0 ≤ ρ := by
  have := (norm_nonneg _).trans h.first
  have := h.small
  by_contra hc
  nlinarith

/-- Steps with the matrix `M` bring points of the neighbourhood together. -/
theorem contract (h : Simplified F jac M x ρ q) {y z : Vec ℝ n} (hy : ‖y - x‖ ≤ ρ) (hz : ‖z - x‖ ≤ ρ) :
    ‖(z - M⁻¹ *ᵥ F z) - (y - M⁻¹ *ᵥ F y)‖ ≤ q * ‖z - y‖ := by
  have hseg : ∀ t : ℝ, 0 ≤ t → t ≤ 1 → ‖y + t • (z - y) - x‖ ≤ ρ := fun t h0 h1 => by
    have := Kantorovich.segment (η := ρ / 2) (x := x) (y := y) (z := z) (by linarith) (by linarith) h0 h1
    linarith
  refine (pi_norm_le_iff_of_nonneg (mul_nonneg h.nonneg (norm_nonneg _))).2 fun i => ?_
  have hder : ∀ t : ℝ, 0 ≤ t → t ≤ 1 → HasDerivAt
      (fun t : ℝ => (M⁻¹ *ᵥ F (y + t • (z - y))) i - t * (z - y) i)
      ((M⁻¹ *ᵥ (jac (y + t • (z - y)) *ᵥ (z - y))) i - (z - y) i) t := by
    intro t h0 h1
    have h2 := (Kantorovich.along (B := M⁻¹) (h.jacobian _ (hseg t h0 h1)) i).sub ((hasDerivAt_id t).mul_const ((z - y) i))
    rw [one_mul] at h2
    exact h2
  obtain ⟨t, ⟨ht0, ht1⟩, hs⟩ := exists_hasDerivAt_eq_slope _ _ (zero_lt_one' ℝ)
    (fun t ht => (hder t ht.1 ht.2).continuousAt.continuousWithinAt) (fun t ht => hder t ht.1.le ht.2.le)
  have h1 := (norm_le_pi_norm _ i).trans (h.close _ (hseg t ht0.le ht1.le) (z - y))
  rw [Matrix.sub_mulVec, Matrix.mulVec_sub, Matrix.mulVec_mulVec _ _ M, ex_inv_mul h.invertible, Matrix.one_mulVec,
    Pi.sub_apply, hs] at h1
  simp only [one_smul, zero_smul, add_zero, one_mul, zero_mul, sub_zero, div_one, add_sub_cancel] at h1
  have e : ((z - M⁻¹ *ᵥ F z) - (y - M⁻¹ *ᵥ F y)) i = -((M⁻¹ *ᵥ F z) i - (z - y) i - (M⁻¹ *ᵥ F y) i) := by
    simp only [Pi.sub_apply]; ring
  rw [e, norm_neg]
  exact h1

/-- Steps with the matrix `M` stay in the neighbourhood. -/
theorem inside (h : Simplified F jac M x ρ q) {y : Vec ℝ n} (hy : ‖y - x‖ ≤ ρ) : ‖y - M⁻¹ *ᵥ F y - x‖ ≤ ρ := by
  have h1 := contract h (y := x) (by simpa using radius_nonneg h) hy
  have h2 := norm_sub_le_norm_sub_add_norm_sub (y - M⁻¹ *ᵥ F y) (x - M⁻¹ *ᵥ F x) x
  rw [show x - M⁻¹ *ᵥ F x - x = -(M⁻¹ *ᵥ F x) by abel, norm_neg] at h2
  have h3 := h.first
  have h4 := mul_le_mul_of_nonneg_left hy h.nonneg
  linarith

/-- There is a root in the neighbourhood. -/
theorem root (h : Simplified F jac M x ρ q) : ∃ r, ‖r - x‖ ≤ ρ ∧ F r = 0 := by
  have hcont : ContinuousOn (fun y => ‖M⁻¹ *ᵥ F y‖) (Metric.closedBall x ρ) := by
    intro y hy
    have h1 : HasFDerivAt F _ y := h.jacobian y (by rw [← dist_eq_norm]; exact hy)
    have h2 : ContinuousAt (fun y => M⁻¹ *ᵥ F y) y :=
      (Matrix.mulVecLin M⁻¹).toContinuousLinearMap.continuous.continuousAt.comp h1.continuousAt
    exact h2.norm.continuousWithinAt
  obtain ⟨r, hr, hmin⟩ := (isCompact_closedBall x ρ).exists_isMinOn
    ⟨x, Metric.mem_closedBall_self (radius_nonneg h)⟩ hcont
  have hr' : ‖r - x‖ ≤ ρ := by rw [← dist_eq_norm]; exact hr
  have hin := inside h hr'
  have h1 : ‖M⁻¹ *ᵥ F r‖ ≤ ‖M⁻¹ *ᵥ F (r - M⁻¹ *ᵥ F r)‖ := hmin (by rw [Metric.mem_closedBall, dist_eq_norm]; exact hin)
  have h2 := contract h hr' hin
  rw [show (r - M⁻¹ *ᵥ F r) - M⁻¹ *ᵥ F (r - M⁻¹ *ᵥ F r) - (r - M⁻¹ *ᵥ F r) = -(M⁻¹ *ᵥ F (r - M⁻¹ *ᵥ F r)) by abel,
    show (r - M⁻¹ *ᵥ F r) - r = -(M⁻¹ *ᵥ F r) by abel, norm_neg, norm_neg] at h2
  have h3 : ‖M⁻¹ *ᵥ F r‖ ≤ 0 := by nlinarith [norm_nonneg (M⁻¹ *ᵥ F r), h.small]
  refine ⟨r, hr', ?_⟩
  have h4 : F r = M *ᵥ (M⁻¹ *ᵥ F r) := by
    rw [Matrix.mulVec_mulVec, ex_mul_inv h.invertible, Matrix.one_mulVec]
  rw [h4, norm_le_zero_iff.1 h3, Matrix.mulVec_zero]

/-- There is no other root in it. -/
theorem unique (h : Simplified F jac M x ρ q) {r r' : Vec ℝ n} (hr : ‖r - x‖ ≤ ρ) (hr0 : F r = 0)
    (hr' : ‖r' - x‖ ≤ ρ) (hr'0 : F r' = 0) : r = r' := by
  have h1 := contract h hr' hr
  rw [hr0, hr'0, Matrix.mulVec_zero, sub_zero, sub_zero] at h1
  have h2 : ‖r - r'‖ ≤ 0 := by nlinarith [norm_nonneg (r - r'), h.small]
  exact sub_eq_zero.1 (norm_le_zero_iff.1 h2)

/-- The distance to the root. -/
theorem dist_root (h : Simplified F jac M x ρ q) {r y : Vec ℝ n} (hr : ‖r - x‖ ≤ ρ) (hr0 : F r = 0) (hy : ‖y - x‖ ≤ ρ) :
    ‖y - M⁻¹ *ᵥ F y - r‖ ≤ q * ‖y - r‖ := by
  have := contract h hr hy
  rwa [hr0, Matrix.mulVec_zero, sub_zero] at this

/-- The residuals are bounded by the distance to the root. -/
theorem residual_le (h : Simplified F jac M x ρ q) : ∃ b > 0, ∀ r y, ‖r - x‖ ≤ ρ → F r = 0 → ‖y - x‖ ≤ ρ →
    ‖F y‖ ≤ b * ‖y - r‖ := by
  obtain ⟨b, hb0, hb⟩ := mulVec_bounded M
  refine ⟨b * 2, by positivity, fun r y hr hr0 hy => ?_⟩
  have e : F y = M *ᵥ ((y - r) - (y - M⁻¹ *ᵥ F y - r)) := by
    rw [show (y - r) - (y - M⁻¹ *ᵥ F y - r) = M⁻¹ *ᵥ F y by abel, Matrix.mulVec_mulVec,
      ex_mul_inv h.invertible, Matrix.one_mulVec]
  rw [e, mul_assoc]
  refine (hb _).trans (mul_le_mul_of_nonneg_left ((norm_sub_le _ _).trans ?_) hb0.le)
  have := dist_root h hr hr0 hy
  have := mul_le_of_le_one_left (norm_nonneg (y - r)) h.small.le
  linarith

end Simplified
end Nrf
