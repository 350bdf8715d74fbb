import Verif.Proofs.NewtonTrace
import Verif.Spec.Demo
import Verif.Props.C18
import Mathlib.Tactic.FieldSimp
import Mathlib.Tactic.Linarith
import Mathlib.Tactic.Positivity
import Mathlib.Algebra.Order.Archimedean.Basic
import Mathlib.LinearAlgebra.Matrix.Determinant.Basic

/-!
# C79: affine systems with normalized update residuals
-/

namespace Nrf
open Spec
open scoped Exact
open Matrix

section
variable {K : Type} [Field K] [LinearOrder K] [IsStrictOrderedRing K] {n : Nat}

/-- Newton-Raphson in exact arithmetic, without damping and limits, with absolute stopping criteria; the update
residuals are absolute or adaptive. -/
structure Spec.NormalizedNewton (c : Config K n) : Prop where
  exact : c.la.IsExact
  method : c.params.method = .NewtonRaphson
  damping : c.params.damping = false
  stop : ∀ i, c.res.stop i = .Abs
  upd : ∀ i, c.res.upd i ≠ .Rel
  limits : ∀ i v d, (c.iters i).stepLimitation v d = v + d

/-- The size of a residual after `k` iterations, when it is `a` at the guess: an absolute residual vanishes, half an
adaptive one is squared each time. -/
def Spec.course (method : NormalizationMethod) (a : K) (k : Nat) : K :=
  match method with
  | .Adapt => 2 * (a / 2) ^ 2 ^ k
  | _ => if k = 0 then a else 0

theorem deriv_adapt_zero (x dx : K) : derivNormalization x 0 dx 0 .Adapt = dx / (1 + |x| / 2) ^ 2 := by
  change ((dx - 0) * (1 + |(x + 0) / 2|) - (dx + 0) / 2 * (if 0 ≤ (x + 0) / 2 then 1 else -1) * (x - 0)) /
    ((1 + |(x + 0) / 2|) * (1 + |(x + 0) / 2|)) = _
  simp only [sub_zero, add_zero]
  rw [abs_div, abs_of_pos (two_pos : (0 : K) < 2), sq]
  congr 1
  rcases le_or_gt 0 x with h | h
  · rw [if_pos (by positivity), abs_of_nonneg h]; ring
  · rw [if_neg (by linarith), abs_of_neg h]; ring

/-- The factor by which the derivative of an update residual differs from the derivative of the function. -/
private def weight (method : NormalizationMethod) (x : K) : K :=
  match method with
  | .Adapt => 1 + |x| / 2
  | _ => 1

private theorem weight_pos (method : NormalizationMethod) (x : K) : 0 < weight method x := by
  have := abs_nonneg x
  cases method
  · exact one_pos
  · exact one_pos
  · change 0 < 1 + |x| / 2
    positivity

private theorem residual_zero {method : NormalizationMethod} (h : method ≠ .Rel) (x : K) :
    Spec.residual method x 0 = x / weight method x := by
  cases method
  · simp [Spec.residual, weight]
  · exact absurd rfl h
  · simp [Spec.residual, weight]

private theorem deriv_zero {method : NormalizationMethod} (h : method ≠ .Rel) (x dx : K) :
    derivNormalization x 0 dx 0 method = dx / weight method x ^ 2 := by
  cases method
  · change dx - 0 = _
    simp [weight]
  · exact absurd rfl h
  · exact deriv_adapt_zero x dx

private theorem after_step {method : NormalizationMethod} (h : method ≠ .Rel) {a x : K} {k : Nat}
    (hx : |x| = Spec.course method a k) : |x - x * weight method x| = Spec.course method a (k + 1) := by
  cases method
  · simp [weight, Spec.course]
  · exact absurd rfl h
  · have e : x - x * weight .Adapt x = -(x * |x| / 2) := by
      change x - x * (1 + |x| / 2) = _
      ring
    rw [e, abs_neg, abs_div, abs_mul, abs_abs, hx, abs_of_pos (two_pos : (0 : K) < 2)]
    change 2 * (a / 2) ^ 2 ^ k * (2 * (a / 2) ^ 2 ^ k) / 2 = 2 * (a / 2) ^ 2 ^ (k + 1)
    rw [pow_succ 2 k, pow_mul]
    ring

/-- Exact arithmetic, every affine system with an invertible matrix, every guess, tolerance and budget: the exact course
of the solve.  It ends with `Ok` as soon as all residuals are within tolerance, else with `NonConvergenceError` when
the budget is used up, and after `k` iterations the residual `i` has the size `course (upd i) |A x₀ + b|ᵢ k`. -/
theorem C79_trace (A : Mat K n) (b : Vec K n) (hA : A.det ≠ 0) (c : Config K n) (hc : NormalizedNewton c)
    (s : AdapterState K n) (hs : s.right = 0) :
    ∃ st' s' r, solve c (fromFunctionAndJacobian (fun x => A *ᵥ x + b) fun _ => A) .new s = .ok (st', s', r) ∧
      (∀ i, |(A *ᵥ s'.inputs + b) i| = course (c.res.upd i) |(A *ᵥ c.guess + b) i| st'.iter) ∧
      st'.iter ≤ c.params.maxIter ∧
      (r = .ok () ∧ (0 ≤ c.params.tolerance → ∀ i, |(A *ᵥ s'.inputs + b) i| ≤ c.params.tolerance) ∨
        r = .error .nonConvergence ∧ st'.iter = c.params.maxIter ∧
          (0 ≤ c.params.tolerance → ∃ i, c.params.tolerance < |(A *ᵥ s'.inputs + b) i|)) := by
  set F : Vec K n → Vec K n := fun x => A *ᵥ x + b with hF
  have herr : ∀ x i, errorsAt c (fun x => ⟨F x, 0⟩) x i = |F x i| := fun x i => by
    change c.res.evaluateStopping _ i = _
    rw [evaluateStopping_exact, hc.stop]
    simp [Spec.residual]
  have hiff : ∀ x, 0 ≤ c.params.tolerance → (amax (errorsAt c (fun x => ⟨F x, 0⟩) x) ≤ c.params.tolerance ↔
      ∀ i, |F x i| ≤ c.params.tolerance) := fun x ht => by
    rw [amax_le_iff _ ht]
    simp only [herr, abs_abs]
  obtain ⟨st', s', x, r, h1, h2, h3, h4, h5⟩ := newton_trace hc.exact hc.method hc.damping
    (fromFunctionAndJacobian_computes F (fun _ => A) 0)
    (fun k x => ∀ i, |F x i| = course (c.res.upd i) |F c.guess i| k) (fun _ _ _ => trivial)
    (fun i => by
      cases h : c.res.upd i
      · simp [Spec.course]
      · simp [Spec.course]
      · simp only [Spec.course, pow_zero, pow_one]
        ring)
    (fun k x hI _ => by
      set w : Vec K n := fun i => weight (c.res.upd i) (F x i) with hw
      have hw0 : ∀ i, w i ≠ 0 := fun i => (weight_pos _ _).ne'
      have hJ : analyticAt c (fun x => ⟨F x, 0⟩) (fun _ => ⟨A, mzero⟩) x = diagonal (fun i => 1 / w i ^ 2) * A := by
        ext i j
        rw [diagonal_mul]
        change derivNormalization (F x i) 0 (A i j) 0 (c.res.upd i) = _
        rw [deriv_zero (hc.upd i)]
        ring
      have hdet : (analyticAt c (fun x => ⟨F x, 0⟩) (fun _ => ⟨A, mzero⟩) x).det ≠ 0 := by
        rw [hJ, det_mul, det_diagonal]
        exact mul_ne_zero (Finset.prod_ne_zero_iff.2 fun i _ => one_div_ne_zero (pow_ne_zero 2 (hw0 i))) hA
      set d : Vec K n := A⁻¹ *ᵥ (fun i => F x i * w i) with hd
      have hAd : A *ᵥ d = fun i => F x i * w i := by
        rw [hd, mulVec_mulVec, mul_nonsing_inv A (isUnit_iff_ne_zero.2 hA), one_mulVec]
      have hG : updateAt c (fun x => ⟨F x, 0⟩) x =
          analyticAt c (fun x => ⟨F x, 0⟩) (fun _ => ⟨A, mzero⟩) x *ᵥ d := by
        rw [hJ, ← mulVec_mulVec, hAd]
        funext i
        rw [mulVec_diagonal]
        change c.res.evaluateUpdate _ i = _
        rw [evaluateUpdate_exact]
        change Spec.residual (c.res.upd i) (F x i) 0 = _
        rw [residual_zero (hc.upd i)]
        have := hw0 i
        change F x i / w i = _
        field_simp
      refine ⟨0, _, x - d, Source.analytic _ (fromFunctionAndJacobian_differentiates F (fun _ => A) 0), hdet, ?_,
        fun z _ i => by rw [hc.limits, add_sub_cancel], fun i => ?_⟩
      · rw [hG, mulVec_mulVec, ex_inv_mul hdet, one_mulVec]
      · have e : F (x - d) i = F x i - F x i * weight (c.res.upd i) (F x i) := by
          change (A *ᵥ (x - d) + b) i = (A *ᵥ x + b) i - _
          rw [mulVec_sub, hAd]
          simp only [Pi.add_apply, Pi.sub_apply]
          ring
        rw [e]
        exact after_step (hc.upd i) (hI i)) s hs
  obtain rfl : s'.inputs = x := h2.iteratives
  refine ⟨st', s', r, h1, h3, h4, ?_⟩
  rcases h5 with ⟨rfl, h5⟩ | ⟨rfl, h5, h6⟩
  · exact .inl ⟨rfl, fun ht => (hiff _ ht).1 h5⟩
  · refine .inr ⟨rfl, h6, fun ht => ?_⟩
    rw [hiff _ ht] at h5
    push Not at h5
    exact h5

/-- What holds: when every adaptive residual is smaller than 2 at the guess, every positive tolerance is reached, the
number of iterations being bounded in advance.  The property asks for this from every guess. -/
theorem C79_converges_partial [Archimedean K] (A : Mat K n) (b guess : Vec K n) (hA : A.det ≠ 0)
    (upd : Fin n → NormalizationMethod) (hsmall : ∀ i, upd i = .Adapt → |(A *ᵥ guess + b) i| < 2) (tol : K)
    (htol : 0 < tol) :
    ∃ N, ∀ (c : Config K n), NormalizedNewton c → c.guess = guess → c.res.upd = upd → c.params.tolerance = tol →
      N ≤ c.params.maxIter → ∀ s : AdapterState K n, s.right = 0 →
      ∃ st' s', solve c (fromFunctionAndJacobian (fun x => A *ᵥ x + b) fun _ => A) .new s = .ok (st', s', .ok ()) ∧
        st'.iter ≤ c.params.maxIter ∧ ∀ i, |(A *ᵥ s'.inputs + b) i| ≤ tol := by
  have hex : ∀ i, ∃ N, ∀ k, N ≤ k → course (upd i) |(A *ᵥ guess + b) i| k ≤ tol := by
    intro i
    cases hu : upd i with
    | Abs => exact ⟨1, fun k hk => by simp [Spec.course, show k ≠ 0 by omega, htol.le]⟩
    | Rel => exact ⟨1, fun k hk => by simp [Spec.course, show k ≠ 0 by omega, htol.le]⟩
    | Adapt =>
      have ha0 : 0 ≤ |(A *ᵥ guess + b) i| / 2 := by positivity
      have ha1 : |(A *ᵥ guess + b) i| / 2 < 1 := by
        have := hsmall i hu
        linarith
      obtain ⟨N, hN⟩ := exists_pow_lt_of_lt_one (show 0 < tol / 2 by positivity) ha1
      refine ⟨N, fun k hk => ?_⟩
      have h1 : N ≤ 2 ^ k := hk.trans Nat.lt_two_pow_self.le
      have h2 := pow_le_pow_of_le_one ha0 ha1.le h1
      change 2 * (|(A *ᵥ guess + b) i| / 2) ^ 2 ^ k ≤ tol
      linarith
  choose N hN using hex
  refine ⟨Finset.univ.sup N, ?_⟩
  rintro c hc rfl rfl rfl hmax s hs
  obtain ⟨st', s', r, h1, h2, h3, h4⟩ := C79_trace A b hA c hc s hs
  rcases h4 with ⟨rfl, h4⟩ | ⟨rfl, h4, h5⟩
  · exact ⟨st', s', h1, h3, h4 htol.le⟩
  · obtain ⟨i, hi⟩ := h5 htol.le
    rw [h2 i] at hi
    exact absurd (hN i st'.iter (by rw [h4]; exact (Finset.le_sup (Finset.mem_univ i)).trans hmax)) (not_le.2 hi)

/-- The property is false of the code: when an adaptive residual is at least 2 at the guess, no budget is enough (for
tolerances below 2); the residual never gets smaller than 2, and if it is larger it grows without bound. -/
theorem C79_refuted (A : Mat K n) (b : Vec K n) (hA : A.det ≠ 0) (c : Config K n) (hc : NormalizedNewton c)
    (htol : 0 ≤ c.params.tolerance) (htol2 : c.params.tolerance < 2) (i : Fin n) (hi : c.res.upd i = .Adapt)
    (hlarge : 2 ≤ |(A *ᵥ c.guess + b) i|) (s : AdapterState K n) (hs : s.right = 0) :
    ∃ st' s', solve c (fromFunctionAndJacobian (fun x => A *ᵥ x + b) fun _ => A) .new s =
        .ok (st', s', .error .nonConvergence) ∧ st'.iter = c.params.maxIter ∧
      |(A *ᵥ s'.inputs + b) i| = 2 * (|(A *ᵥ c.guess + b) i| / 2) ^ 2 ^ c.params.maxIter ∧
      2 ≤ |(A *ᵥ s'.inputs + b) i| := by
  obtain ⟨st', s', r, h1, h2, h3, h4⟩ := C79_trace A b hA c hc s hs
  have hgt : 2 ≤ |(A *ᵥ s'.inputs + b) i| := by
    rw [h2 i, hi]
    have : (1 : K) ≤ (|(A *ᵥ c.guess + b) i| / 2) ^ 2 ^ st'.iter := one_le_pow₀ (by linarith)
    change 2 ≤ 2 * (|(A *ᵥ c.guess + b) i| / 2) ^ 2 ^ st'.iter
    linarith
  rcases h4 with ⟨rfl, h4⟩ | ⟨rfl, h4, -⟩
  · have := h4 htol i
    linarith
  · refine ⟨st', s', h1, h4, ?_, hgt⟩
    rw [h2 i, hi, h4]
    rfl

end

namespace Demo

/-- Adaptive update residuals without limits. -/
def adaptive (guess : ℚ) : Config ℚ 1 :=
  { cfg .NewtonRaphson false 6 (1 / 1000) guess with
    iters := fun _ => { stepLimitation := fun v d => v + d, computePerturbation := none, withFiniteDiff := false }
    res := ⟨fun _ => .Abs, fun _ => .Adapt⟩ }

theorem adaptive_normalized (guess : ℚ) : NormalizedNewton (adaptive guess) :=
  ⟨la1_isExact, rfl, rfl, fun _ => rfl, (fun _ h => nomatch h), fun _ _ _ => rfl⟩

/-- `2 x = 4` from `3`, where the residual is 2: the solve jumps between 3 and 1; from `5 / 2` it converges. -/
example : kind (solve (adaptive 3) (fromFunctionAndJacobian (fun x _ => 2 * x 0 - 4) fun _ _ _ => 2) .new start) =
      .nonConvergence ∧
    kind (solve (adaptive (5 / 2)) (fromFunctionAndJacobian (fun x _ => 2 * x 0 - 4) fun _ _ _ => 2) .new start) = .ok := by
  decide +kernel

/-- The hypotheses of the theorems. -/
example : (!![2] : Mat ℚ 1).det ≠ 0 ∧ (2 : ℚ) ≤ |((!![2] : Mat ℚ 1) *ᵥ (adaptive 3).guess + (![-4] : Vec ℚ 1)) 0| ∧
    |((!![2] : Mat ℚ 1) *ᵥ (adaptive (5 / 2)).guess + (![-4] : Vec ℚ 1)) 0| < 2 := by
  refine ⟨by rw [det_fin_one]; decide, ?_, ?_⟩
  · have : ((!![2] : Mat ℚ 1) *ᵥ (adaptive 3).guess + (![-4] : Vec ℚ 1)) 0 = 2 := by
      simp [Matrix.mulVec, dotProduct, adaptive, cfg]; norm_num
    rw [this]; norm_num
  · have : ((!![2] : Mat ℚ 1) *ᵥ (adaptive (5 / 2)).guess + (![-4] : Vec ℚ 1)) 0 = 1 := by
      simp [Matrix.mulVec, dotProduct, adaptive, cfg]; norm_num
    rw [this]; norm_num

end Demo

namespace Demo64

/-- The same in binary64. -/
example :
    Demo.kind (solve { cfg 20 with res := ⟨fun _ => .Abs, fun _ => .Adapt⟩, guess := fun _ => ofRat 3
                                   iters := fun _ => (⟨.inf false, .inf false, .inf true, .inf false⟩ : IterativeParams F64).toIterative }
      (fromFunctionAndJacobian (fun x _ => Scalar.sub (Scalar.add (x 0) (x 0)) (ofRat 4)) fun _ _ _ => Scalar.two)
      .new .new) = .nonConvergence := by decide +kernel

end Demo64
end Nrf
