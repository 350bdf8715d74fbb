import Verif.Proofs.FollowExact
import Verif.Props.C28

/-!
# Runs of Newton-Raphson in exact arithmetic that keep an invariant
-/

set_option linter.unusedSectionVars false

namespace Nrf
open Spec
open scoped Exact
open Matrix

section
variable {K : Type} [Field K] [LinearOrder K] [IsStrictOrderedRing K] {n : Nat} {EI EU S : Type}
variable {c : Config K n} {m : UserModel K n EI EU S}
variable {inv : S → Prop} {D : Vec K n → Prop} {f : Vec K n → ResidualsValues K n}

/-- With damping, when the errors do not grow. -/
theorem newton_run_damped (hL : c.la.IsExact) (hm : c.params.method = .NewtonRaphson)
    (hf : Computes m inv D f) (I : Nat → Vec K n → Prop) (N : Nat) (hN : N ≤ c.params.maxIter)
    (hD : ∀ k x, I k x → D x) (h0 : I 0 c.guess)
    (hstep : ∀ k x, k < N → I k x → ∃ pert J x', Source c m inv D f x pert J ∧ J.det ≠ 0 ∧
      x - J⁻¹ *ᵥ updateAt c f x = x' ∧
      (∀ z, Base x pert z → ∀ i, (c.iters i).stepLimitation (z i) (x' i - z i) = x' i) ∧
      (c.params.damping = true → ∀ z, Base x pert z → amax (errorsAt c f x') ≤ amax (errorsAt c f z)) ∧ I (k + 1) x')
    (hend : ∀ x, I N x → amax (errorsAt c f x) ≤ c.params.tolerance) (s : S) (hs : inv s) :
    ∃ st' s' x, solve c m .new s = .ok (st', s', .ok ()) ∧ st'.iter ≤ N ∧ At m inv f s' x ∧ I st'.iter x ∧
      amax (errorsAt c f x) ≤ c.params.tolerance := by
  obtain ⟨k, st', s', h1, h2, h3, h4⟩ := solve_follow (c := c) hf
    (fun k st s => st.debug = false ∧ st.valid = true ∧ st.iter = k ∧ k ≤ N ∧ ∃ x, At m inv f s x ∧ I k x)
    (by
      rintro k st s ⟨hd, hv, hi, hk, x, hat, hI⟩ hc
      have hk' : k < N := by
        rcases Nat.lt_or_ge k N with h | h
        · exact h
        · obtain rfl : k = N := by omega
          rw [hat.errors] at hc
          simp only [continues, Bool.and_eq_true] at hc
          exact absurd ((ex_lt _ _).1 hc.1) (not_lt.2 (hend x hI))
      obtain ⟨pert, J, x', hsrc, hdet, hx', hlim, hdamp, hI'⟩ := hstep k x hk' hI
      obtain ⟨st', s', z, hs', -, hit, rfl⟩ := iterate_newton hL hf hsrc hdet hx' (hD _ _ hI') hlim
        (fun h z hz _ => hdamp h z hz) hd (.inl hm) hat
      refine ⟨_, s', hit, ?_⟩
      obtain ⟨g1, -, -, g4, g5⟩ := storeSteps_fields c.params.method
        { st with iter := st.iter + 1, jac := ⟨some J, some J⁻¹, false, false⟩, valid := true }
        x' z (errorsAt c f x') (errorsAt c f z)
      refine ⟨by rw [g5]; exact hd, by rw [g4], ?_, by omega, x', hs', hI'⟩
      rw [g1]
      change st.iter + 1 = _
      rw [hi])
    hs (hD _ _ h0) (fun s0 h => ⟨rfl, rfl, rfl, Nat.zero_le _, _, h, h0⟩)
  obtain ⟨-, hv, hi, hk, x, hat, hI⟩ := h2
  have hle : amax (errorsAt c f x) ≤ c.params.tolerance := by
    rcases Nat.lt_or_ge k N with h | h
    · have : decide (st'.iter < c.params.maxIter) = true := by rw [hi]; simp; omega
      rw [continues, this, Bool.and_true, hat.errors, ex_lt_false] at h3
      exact h3
    · obtain rfl : k = N := by omega
      exact hend x hI
  refine ⟨st', s', x, ?_, by omega, hat, by rw [hi]; exact hI, hle⟩
  rw [h1]
  have hlt : Scalar.lt c.params.tolerance (amax (evaluateErrors c m s')) = false := by
    rw [hat.errors, ex_lt_false]; exact hle
  simp only [finalResult, hlt, Bool.false_eq_true, if_false, hv, if_true]

theorem newton_run (hL : c.la.IsExact) (hm : c.params.method = .NewtonRaphson) (hdamp : c.params.damping = false)
    (hf : Computes m inv D f) (I : Nat → Vec K n → Prop) (N : Nat) (hN : N ≤ c.params.maxIter)
    (hD : ∀ k x, I k x → D x) (h0 : I 0 c.guess)
    (hstep : ∀ k x, k < N → I k x → ∃ pert J x', Source c m inv D f x pert J ∧ J.det ≠ 0 ∧
      x - J⁻¹ *ᵥ updateAt c f x = x' ∧
      (∀ z, Base x pert z → ∀ i, (c.iters i).stepLimitation (z i) (x' i - z i) = x' i) ∧ I (k + 1) x')
    (hend : ∀ x, I N x → amax (errorsAt c f x) ≤ c.params.tolerance) (s : S) (hs : inv s) :
    ∃ st' s' x, solve c m .new s = .ok (st', s', .ok ()) ∧ st'.iter ≤ N ∧ At m inv f s' x ∧ I st'.iter x ∧
      amax (errorsAt c f x) ≤ c.params.tolerance :=
  newton_run_damped hL hm hf I N hN hD h0
    (fun k x hk hI => by
      obtain ⟨pert, J, x', h1, h2, h3, h4, h5⟩ := hstep k x hk hI
      exact ⟨pert, J, x', h1, h2, h3, h4, fun h => (by rw [hdamp] at h; cases h), h5⟩) hend s hs

end

section
variable {K : Type} [Field K] [LinearOrder K] [IsStrictOrderedRing K] {n : Nat}

/-- Newton-Raphson in exact arithmetic as the tests configure it: no damping, absolute residuals. -/
structure Spec.PlainNewton (c : Config K n) : Prop where
  exact : c.la.IsExact
  method : c.params.method = .NewtonRaphson
  damping : c.params.damping = false
  stop : ∀ i, c.res.stop i = .Abs
  upd : ∀ i, c.res.upd i = .Abs

variable {c : Config K n}

theorem Spec.PlainNewton.update (hc : PlainNewton c) (F : Vec K n → Vec K n) (x : Vec K n) :
    updateAt c (fun x => ⟨F x, 0⟩) x = F x := by
  funext i
  change c.res.evaluateUpdate _ i = _
  rw [evaluateUpdate_exact, hc.upd]
  simp [Spec.residual]

theorem Spec.PlainNewton.errors (hc : PlainNewton c) (F : Vec K n → Vec K n) (x : Vec K n) (i : Fin n) :
    errorsAt c (fun x => ⟨F x, 0⟩) x i = |F x i| := by
  change c.res.evaluateStopping _ i = _
  rw [evaluateStopping_exact, hc.stop]
  simp [Spec.residual]

theorem Spec.PlainNewton.jacobian (hc : PlainNewton c) (F : Vec K n → Vec K n) (jac : Vec K n → Mat K n) (x : Vec K n) :
    analyticAt c (fun x => ⟨F x, 0⟩) (fun x => ⟨jac x, mzero⟩) x = jac x := by
  ext i j
  change derivNormalization _ _ (jac x i j) (mzero i j) (c.res.upd i) = _
  rw [hc.upd]
  change jac x i j - 0 = _
  rw [sub_zero]

/-- The same for a function with its Jacobian. -/
theorem newton_run_function (hc : PlainNewton c) (F : Vec K n → Vec K n) (jac : Vec K n → Mat K n)
    (I : Nat → Vec K n → Prop) (N : Nat) (hN : N ≤ c.params.maxIter) (h0 : I 0 c.guess)
    (hstep : ∀ k x, k < N → I k x → (jac x).det ≠ 0 ∧ ∃ d, jac x *ᵥ d = - F x ∧
      (∀ i, (c.iters i).stepLimitation (x i) (d i) = x i + d i) ∧ I (k + 1) (x + d))
    (hend : ∀ x, I N x → ∀ i, |F x i| ≤ c.params.tolerance) (htol : 0 ≤ c.params.tolerance) (s : AdapterState K n)
    (hs : s.right = 0) :
    ∃ st' s', solve c (fromFunctionAndJacobian F jac) .new s = .ok (st', s', .ok ()) ∧ st'.iter ≤ N ∧
      I st'.iter s'.inputs ∧ ∀ i, |F s'.inputs i| ≤ c.params.tolerance := by
  obtain ⟨st', s', x, h1, h2, h3, h4, h5⟩ := newton_run hc.exact hc.method hc.damping
    (fromFunctionAndJacobian_computes F jac 0) I N hN (fun _ _ _ => trivial) h0
    (fun k x hk hI => by
      obtain ⟨hdet, d, hd, hlim, hI'⟩ := hstep k x hk hI
      refine ⟨0, jac x, x + d, ?_, hdet, ?_, ?_, hI'⟩
      · have := Source.analytic (c := c) (D := fun _ => True) (x := x) (pert := 0) _
          (fromFunctionAndJacobian_differentiates F jac 0)
        rw [hc.jacobian F jac x] at this
        exact this
      · rw [hc.update F x, show F x = -(jac x *ᵥ d) by rw [hd, neg_neg], Matrix.mulVec_neg, Matrix.mulVec_mulVec, ex_inv_mul hdet, Matrix.one_mulVec, sub_neg_eq_add]
      · rintro z (rfl | ⟨i, rfl⟩) i'
        · rw [Pi.add_apply, add_sub_cancel_left]
          exact hlim i'
        · rw [moved_eq]
          simp only [Pi.zero_apply, Pi.single_zero, add_zero, Pi.add_apply, add_sub_cancel_left]
          exact hlim i')
    (fun x hI => (amax_le_iff _ htol).2 fun i => by
      rw [hc.errors F x i, abs_abs]
      exact hend x hI i) s hs
  obtain rfl : s'.inputs = x := h3.iteratives
  refine ⟨st', s', h1, h2, h4, fun i => ?_⟩
  have := (abs_le_amax (errorsAt c (fun x => ⟨F x, 0⟩) s'.inputs) i).trans h5
  rw [hc.errors F _ i, abs_abs] at this
  exact this

end
end Nrf
