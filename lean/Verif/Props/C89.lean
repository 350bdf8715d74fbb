import Verif.Props.C79

/-!
# C89: affine systems with relative update residuals
-/

namespace Nrf
open Spec
open scoped Exact
open Matrix

section
variable {K : Type} [Field K] [LinearOrder K] [IsStrictOrderedRing K] {n : Nat}

/-- Newton-Raphson in exact arithmetic, without damping and limits, with absolute stopping criteria; the update
residuals are absolute or relative. -/
structure Spec.RelativeNewton (c : Config K n) : Prop where
  exact : c.la.IsExact
  method : c.params.method = .NewtonRaphson
  damping : c.params.damping = false
  stop : ∀ i, c.res.stop i = .Abs
  upd : ∀ i, c.res.upd i ≠ .Adapt
  limits : ∀ i v d, (c.iters i).stepLimitation v d = v + d

/-- The distance between the sides after `k` iterations, when it is `a` at the guess and the right side is `y`: with an absolute
update residual it vanishes, with a relative one its ratio to `2 y` is squared each time. -/
def Spec.relativeCourse (method : NormalizationMethod) (y a : K) (k : Nat) : K :=
  match method with
  | .Rel => 2 * |y| * (a / (2 * |y|)) ^ 2 ^ k
  | _ => if k = 0 then a else 0

/-- The factor between the derivative of an update residual and the derivative of the left side. -/
private def factor (method : NormalizationMethod) (x y : K) : K :=
  match method with
  | .Rel => 4 * y * (if 0 ≤ x + y then 1 else -1) / (x + y) ^ 2
  | _ => 1

/-- The change of the left side in one iteration. -/
private def change (method : NormalizationMethod) (x y : K) : K :=
  match method with
  | .Rel => (x - y) * (x + y) / (2 * y)
  | _ => x - y

private theorem deriv_eq {method : NormalizationMethod} (h : method ≠ .Adapt) (x y dx : K) :
    derivNormalization x y dx 0 method = factor method x y * dx := by
  cases method
  · change dx - 0 = 1 * dx
    ring
  · change 2 * ((dx - 0) * |x + y| - (dx + 0) * (x - y) * (if 0 ≤ x + y then 1 else -1)) / ((x + y) * (x + y)) =
      4 * y * (if 0 ≤ x + y then 1 else -1) / (x + y) ^ 2 * dx
    rcases le_or_gt 0 (x + y) with hs | hs
    · rw [if_pos hs, abs_of_nonneg hs]; ring
    · rw [if_neg (not_le.2 hs), abs_of_neg hs]; ring
  · exact absurd rfl h

private theorem residual_eq {method : NormalizationMethod} (h : method ≠ .Adapt) {x y : K}
    (h0 : method = .Rel → y ≠ 0 ∧ x + y ≠ 0) :
    Spec.residual method x y = factor method x y * change method x y := by
  cases method
  · change x - y = 1 * (x - y)
    ring
  · obtain ⟨hy, hs⟩ := h0 rfl
    change (x - y) / (|x + y| / 2) = 4 * y * (if 0 ≤ x + y then 1 else -1) / (x + y) ^ 2 * ((x - y) * (x + y) / (2 * y))
    rcases le_or_gt 0 (x + y) with h | h
    · rw [if_pos h, abs_of_nonneg h]; field_simp; ring
    · rw [if_neg (not_le.2 h), abs_of_neg h]; field_simp; ring
  · exact absurd rfl h

private theorem after_step {method : NormalizationMethod} (h : method ≠ .Adapt) {x y a : K} {k : Nat}
    (h0 : method = .Rel → y ≠ 0) (hx : |x - y| = relativeCourse method y a k) :
    |x - change method x y - y| = relativeCourse method y a (k + 1) := by
  cases method
  · simp [change, relativeCourse]
  · have hy := h0 rfl
    have hy' := abs_pos.2 hy
    have e : x - change .Rel x y - y = -((x - y) * (x - y) / (2 * y)) := by
      change x - (x - y) * (x + y) / (2 * y) - y = _
      field_simp
      ring
    rw [e, abs_neg, abs_div, abs_mul, abs_mul, abs_two, hx]
    change 2 * |y| * (a / (2 * |y|)) ^ 2 ^ k * (2 * |y| * (a / (2 * |y|)) ^ 2 ^ k) / (2 * |y|) =
      2 * |y| * (a / (2 * |y|)) ^ 2 ^ (k + 1)
    rw [pow_succ 2 k, pow_mul]
    generalize (a / (2 * |y|)) ^ 2 ^ k = q
    field_simp
  · exact absurd rfl h

/-- Exact arithmetic, every system `A x = y` with invertible matrix and right sides that are not zero where the update
residual is relative; the sides at the guess do not differ by exactly 200 % of the right side.  The course of
the solve, for every tolerance and budget: after `k` iterations the sides of equation `i` differ by `relativeCourse`. -/
theorem C89_trace (A : Mat K n) (y : Vec K n) (hA : A.det ≠ 0) (c : Config K n) (hc : RelativeNewton c)
    (hy : ∀ i, c.res.upd i = .Rel → y i ≠ 0 ∧ |(A *ᵥ c.guess) i - y i| ≠ 2 * |y i|)
    (s : AdapterState K n) (hs : s.right = y) :
    ∃ st' s' r, solve c (fromFunctionAndJacobian (fun x => A *ᵥ x) fun _ => A) .new s = .ok (st', s', r) ∧
      (∀ i, |(A *ᵥ s'.inputs) i - y i| = relativeCourse (c.res.upd i) (y i) |(A *ᵥ c.guess) i - y i| st'.iter) ∧
      st'.iter ≤ c.params.maxIter ∧
      (r = .ok () ∧ (0 ≤ c.params.tolerance → ∀ i, |(A *ᵥ s'.inputs) i - y i| ≤ c.params.tolerance) ∨
        r = .error .nonConvergence ∧ st'.iter = c.params.maxIter ∧
          (0 ≤ c.params.tolerance → ∃ i, c.params.tolerance < |(A *ᵥ s'.inputs) i - y i|)) := by
  set F : Vec K n → Vec K n := fun x => A *ᵥ x with hF
  have herr : ∀ x i, errorsAt c (fun x => ⟨F x, y⟩) x i = |F x i - y i| := fun x i => by
    change c.res.evaluateStopping _ i = _
    rw [evaluateStopping_exact, hc.stop]
    simp [Spec.residual]
  have hiff : ∀ x, 0 ≤ c.params.tolerance → (amax (errorsAt c (fun x => ⟨F x, y⟩) x) ≤ c.params.tolerance ↔
      ∀ i, |F x i - y i| ≤ c.params.tolerance) := fun x ht => by
    rw [amax_le_iff _ ht]
    simp only [herr, abs_abs]
  obtain ⟨st', s', x, r, h1, h2, h3, h4, h5⟩ := newton_trace hc.exact hc.method hc.damping
    (fromFunctionAndJacobian_computes F (fun _ => A) y)
    (fun k x => ∀ i, |F x i - y i| = relativeCourse (c.res.upd i) (y i) |F c.guess i - y i| k) (fun _ _ _ => trivial)
    (fun i => by
      cases h : c.res.upd i
      · simp [relativeCourse]
      · have := abs_pos.2 (hy i h).1
        simp only [relativeCourse, pow_zero, pow_one]
        field_simp
      · simp [relativeCourse])
    (fun k x hI _ => by
      have hsum : ∀ i, c.res.upd i = .Rel → y i ≠ 0 ∧ F x i + y i ≠ 0 := by
        intro i hi
        obtain ⟨hy0, hne⟩ := hy i hi
        refine ⟨hy0, fun h0 => ?_⟩
        have hpos := abs_pos.2 hy0
        have h1 := hI i
        have e : F x i - y i = -(2 * y i) := by
          have : F x i = -y i := by linarith
          rw [this]; ring
        rw [e, abs_neg, abs_mul, abs_two, hi] at h1
        change 2 * |y i| = 2 * |y i| * (|F c.guess i - y i| / (2 * |y i|)) ^ 2 ^ k at h1
        have h2 : (|F c.guess i - y i| / (2 * |y i|)) ^ 2 ^ k = 1 := by
          have h3 : 2 * |y i| ≠ 0 := by positivity
          exact mul_left_cancel₀ h3 (by rw [mul_one]; exact h1.symm)
        have h3 := (pow_eq_one_iff_of_nonneg (by positivity) (by positivity : (2 : ℕ) ^ k ≠ 0)).1 h2
        rw [div_eq_one_iff_eq (by positivity)] at h3
        exact hne h3
      set w : Vec K n := fun i => factor (c.res.upd i) (F x i) (y i) with hw
      have hw0 : ∀ i, w i ≠ 0 := fun i => by
        change factor (c.res.upd i) (F x i) (y i) ≠ 0
        cases hi : c.res.upd i
        · exact one_ne_zero
        · obtain ⟨a, b⟩ := hsum i hi
          change 4 * y i * (if 0 ≤ F x i + y i then (1 : K) else -1) / (F x i + y i) ^ 2 ≠ 0
          have : (if 0 ≤ F x i + y i then (1 : K) else -1) ≠ 0 := by split_ifs <;> norm_num
          positivity
        · exact one_ne_zero
      have hJ : analyticAt c (fun x => ⟨F x, y⟩) (fun _ => ⟨A, mzero⟩) x = diagonal w * A := by
        ext i j
        rw [diagonal_mul]
        exact deriv_eq (hc.upd i) _ _ _
      have hdet : (analyticAt c (fun x => ⟨F x, y⟩) (fun _ => ⟨A, mzero⟩) x).det ≠ 0 := by
        rw [hJ, det_mul, det_diagonal]
        exact mul_ne_zero (Finset.prod_ne_zero_iff.2 fun i _ => hw0 i) hA
      set d : Vec K n := A⁻¹ *ᵥ (fun i => change (c.res.upd i) (F x i) (y i)) with hd
      have hAd : A *ᵥ d = fun i => change (c.res.upd i) (F x i) (y i) := by
        rw [hd, mulVec_mulVec, mul_nonsing_inv A (isUnit_iff_ne_zero.2 hA), one_mulVec]
      have hG : updateAt c (fun x => ⟨F x, y⟩) x =
          analyticAt c (fun x => ⟨F x, y⟩) (fun _ => ⟨A, mzero⟩) x *ᵥ d := by
        rw [hJ, ← mulVec_mulVec, hAd]
        funext i
        rw [mulVec_diagonal]
        change c.res.evaluateUpdate _ i = _
        rw [evaluateUpdate_exact]
        exact residual_eq (hc.upd i) (hsum i)
      refine ⟨0, _, x - d, Source.analytic _ (fromFunctionAndJacobian_differentiates F (fun _ => A) y), hdet, ?_,
        fun z _ i => by rw [hc.limits, add_sub_cancel], fun i => ?_⟩
      · rw [hG, mulVec_mulVec, ex_inv_mul hdet, one_mulVec]
      · have e : F (x - d) i = F x i - change (c.res.upd i) (F x i) (y i) := by
          change (A *ᵥ (x - d)) i = (A *ᵥ x) i - _
          rw [mulVec_sub, hAd]
          rfl
        rw [e]
        exact after_step (hc.upd i) (fun h => (hsum i h).1) (hI i)) s hs
  obtain rfl : s'.inputs = x := h2.iteratives
  refine ⟨st', s', r, h1, h3, h4, ?_⟩
  rcases h5 with ⟨rfl, h5⟩ | ⟨rfl, h5, h6⟩
  · exact .inl ⟨rfl, fun ht => (hiff _ ht).1 h5⟩
  · refine .inr ⟨rfl, h6, fun ht => ?_⟩
    rw [hiff _ ht] at h5
    push Not at h5
    exact h5

/-- What holds: when the sides at the guess differ by less than 200 % of the right side, in the equations with relative
update residual, every positive tolerance is reached, the number of iterations being bounded in advance.  The property
asks for this from every guess. -/
theorem C89_converges_partial [Archimedean K] (A : Mat K n) (y guess : Vec K n) (hA : A.det ≠ 0)
    (upd : Fin n → NormalizationMethod) (hsmall : ∀ i, upd i = .Rel → |(A *ᵥ guess) i - y i| < 2 * |y i|) (tol : K)
    (htol : 0 < tol) :
    ∃ N, ∀ (c : Config K n), RelativeNewton c → c.guess = guess → c.res.upd = upd → c.params.tolerance = tol →
      N ≤ c.params.maxIter → ∀ s : AdapterState K n, s.right = y →
      ∃ st' s', solve c (fromFunctionAndJacobian (fun x => A *ᵥ x) fun _ => A) .new s = .ok (st', s', .ok ()) ∧
        st'.iter ≤ c.params.maxIter ∧ ∀ i, |(A *ᵥ s'.inputs) i - y i| ≤ tol := by
  have hpos : ∀ i, upd i = .Rel → 0 < |y i| := fun i hi => by
    have := (abs_nonneg _).trans_lt (hsmall i hi)
    linarith
  have hex : ∀ i, ∃ N, ∀ k, N ≤ k → relativeCourse (upd i) (y i) |(A *ᵥ guess) i - y i| k ≤ tol := by
    intro i
    cases hu : upd i with
    | Abs => exact ⟨1, fun k hk => by simp [relativeCourse, show k ≠ 0 by omega, htol.le]⟩
    | Adapt => exact ⟨1, fun k hk => by simp [relativeCourse, show k ≠ 0 by omega, htol.le]⟩
    | Rel =>
      have hy := hpos i hu
      have ha0 : 0 ≤ |(A *ᵥ guess) i - y i| / (2 * |y i|) := by positivity
      have ha1 : |(A *ᵥ guess) i - y i| / (2 * |y i|) < 1 := (div_lt_one (by positivity)).2 (hsmall i hu)
      obtain ⟨N, hN⟩ := exists_pow_lt_of_lt_one (show 0 < tol / (2 * |y i|) by positivity) ha1
      refine ⟨N, fun k hk => ?_⟩
      have h1 : N ≤ 2 ^ k := hk.trans Nat.lt_two_pow_self.le
      have h2 := (pow_le_pow_of_le_one ha0 ha1.le h1).trans hN.le
      rw [le_div_iff₀ (by positivity)] at h2
      change 2 * |y i| * (|(A *ᵥ guess) i - y i| / (2 * |y i|)) ^ 2 ^ k ≤ tol
      linarith
  choose N hN using hex
  refine ⟨Finset.univ.sup N, ?_⟩
  rintro c hc rfl rfl rfl hmax s hs
  obtain ⟨st', s', r, h1, h2, h3, h4⟩ := C89_trace A y hA c hc
    (fun i hi => ⟨abs_pos.1 (hpos i hi), (hsmall i hi).ne⟩) s hs
  rcases h4 with ⟨rfl, h4⟩ | ⟨rfl, h4, h5⟩
  · exact ⟨st', s', h1, h3, h4 htol.le⟩
  · obtain ⟨i, hi⟩ := h5 htol.le
    rw [h2 i] at hi
    exact absurd (hN i st'.iter (by rw [h4]; exact (Finset.le_sup (Finset.mem_univ i)).trans hmax)) (not_le.2 hi)

/-- The property is false of the code: when the sides at the guess differ by more than 200 % of the right side in an equation
with relative update residual, no budget is enough, for tolerances up to 200 % of the right side; the sides move
apart without bound. -/
theorem C89_refuted (A : Mat K n) (y : Vec K n) (hA : A.det ≠ 0) (c : Config K n) (hc : RelativeNewton c)
    (hy : ∀ i, c.res.upd i = .Rel → y i ≠ 0 ∧ |(A *ᵥ c.guess) i - y i| ≠ 2 * |y i|)
    (htol : 0 ≤ c.params.tolerance) (i : Fin n) (hi : c.res.upd i = .Rel) (htol2 : c.params.tolerance ≤ 2 * |y i|)
    (hlarge : 2 * |y i| < |(A *ᵥ c.guess) i - y i|) (s : AdapterState K n) (hs : s.right = y) :
    ∃ st' s', solve c (fromFunctionAndJacobian (fun x => A *ᵥ x) fun _ => A) .new s =
        .ok (st', s', .error .nonConvergence) ∧ st'.iter = c.params.maxIter ∧
      |(A *ᵥ s'.inputs) i - y i| =
        2 * |y i| * (|(A *ᵥ c.guess) i - y i| / (2 * |y i|)) ^ 2 ^ c.params.maxIter ∧
      2 * |y i| < |(A *ᵥ s'.inputs) i - y i| := by
  obtain ⟨st', s', r, h1, h2, h3, h4⟩ := C89_trace A y hA c hc hy s hs
  have hpos := abs_pos.2 (hy i hi).1
  have hgt : 2 * |y i| < |(A *ᵥ s'.inputs) i - y i| := by
    rw [h2 i, hi]
    have h5 : (1 : K) < |(A *ᵥ c.guess) i - y i| / (2 * |y i|) := (one_lt_div (by positivity)).2 hlarge
    have h6 : (1 : K) < (|(A *ᵥ c.guess) i - y i| / (2 * |y i|)) ^ 2 ^ st'.iter := one_lt_pow₀ h5 (by positivity)
    change 2 * |y i| < 2 * |y i| * (|(A *ᵥ c.guess) i - y i| / (2 * |y i|)) ^ 2 ^ st'.iter
    exact lt_mul_of_one_lt_right (by positivity) h6
  rcases h4 with ⟨rfl, h4⟩ | ⟨rfl, h4, -⟩
  · have := h4 htol i
    linarith
  · refine ⟨st', s', h1, h4, ?_, hgt⟩
    rw [h2 i, hi, h4]
    rfl

end

namespace Demo

/-- Relative update residuals without limits. -/
def relative (guess : ℚ) : Config ℚ 1 :=
  { cfg .NewtonRaphson false 6 (1 / 1000) guess with
    iters := fun _ => { stepLimitation := fun v d => v + d, computePerturbation := none, withFiniteDiff := false }
    res := ⟨fun _ => .Abs, fun _ => .Rel⟩ }

theorem relative_newton (guess : ℚ) : RelativeNewton (relative guess) :=
  ⟨la1_isExact, rfl, rfl, fun _ => rfl, (fun _ h => nomatch h), fun _ _ _ => rfl⟩

/-- `2 x = 4` from `7`, where the left side is 14, more than three times the right side: divergence; from `5` convergence. -/
example :
    (let s : AdapterState ℚ 1 := { start with right := fun _ => 4 }
    kind (solve (relative 7) (fromFunctionAndJacobian (fun x => (!![2] : Mat ℚ 1) *ᵥ x) fun _ => !![2]) .new s) =
      .nonConvergence ∧
    kind (solve (relative 5) (fromFunctionAndJacobian (fun x => (!![2] : Mat ℚ 1) *ᵥ x) fun _ => !![2]) .new s) = .ok) := by
  decide +kernel

/-- The hypotheses of the theorems. -/
example : (!![2] : Mat ℚ 1).det ≠ 0 ∧ (2 : ℚ) * |4| < |((!![2] : Mat ℚ 1) *ᵥ (relative 7).guess) 0 - 4| ∧
    |((!![2] : Mat ℚ 1) *ᵥ (relative 5).guess) 0 - 4| < (2 : ℚ) * |4| := by
  refine ⟨by rw [det_fin_one]; decide, ?_, ?_⟩
  · have : ((!![2] : Mat ℚ 1) *ᵥ (relative 7).guess) 0 = 14 := by
      simp [Matrix.mulVec, dotProduct, relative, cfg]; norm_num
    rw [this]; norm_num
  · have : ((!![2] : Mat ℚ 1) *ᵥ (relative 5).guess) 0 = 10 := by
      simp [Matrix.mulVec, dotProduct, relative, cfg]; norm_num
    rw [this]; norm_num

end Demo
end Nrf
