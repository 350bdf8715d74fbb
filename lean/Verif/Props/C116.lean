import Verif.Proofs.DampedScalar
import Verif.Props.C73
import Verif.Props.C93
import Mathlib.Analysis.Calculus.Deriv.Pow
import Mathlib.Analysis.Calculus.Deriv.Inv
import Mathlib.Analysis.SpecificLimits.Basic

/-!
# C116: what damping does for convergence
-/

namespace Nrf
open Spec
open scoped Exact

section
variable {f f' : ℝ → ℝ} {μ M : ℝ}

/-- One equation whose slopes vary by less than the factor two: Newton-Raphson converges from every guess, with damping and
without. Each iteration gains the factor `max (1 - μ / M) (M / μ - 1)`. -/
theorem C116_contracts (h : Slopes f f' μ M) (hM : M < 2 * μ) {c : Config ℝ 1} (hc : PlainNewton (undamped c))
    (hlim : ∀ v w, (c.iters 0).stepLimitation v (w - v) = w) {N : Nat} (hN : N ≤ c.params.maxIter)
    (htol : max (1 - μ / M) (M / μ - 1) ^ N * |f (c.guess 0)| ≤ c.params.tolerance) (s : AdapterState ℝ 1)
    (hs : s.right = 0) :
    max (1 - μ / M) (M / μ - 1) < 1 ∧
    ∃ st' s', solve c (fromFunctionAndJacobian (fun x _ => f (x 0)) (fun x => Matrix.of fun _ _ => f' (x 0))) .new s =
        .ok (st', s', .ok ()) ∧ |f (s'.inputs 0)| ≤ c.params.tolerance ∧
      |f (s'.inputs 0)| ≤ max (1 - μ / M) (M / μ - 1) ^ st'.iter * |f (c.guess 0)| := by
  have hM0 : 0 < M := h.pos.trans_le ((h.low 0).trans (h.high 0))
  have hq1 : max (1 - μ / M) (M / μ - 1) < 1 := by
    have h1 : 0 < μ / M := div_pos h.pos hM0
    have h2 : M / μ < 2 := by rw [div_lt_iff₀ h.pos]; exact hM
    exact max_lt (by linarith) (by linarith)
  refine ⟨hq1, ?_⟩
  obtain ⟨q, hq⟩ : ∃ q, q = max (1 - μ / M) (M / μ - 1) := ⟨_, rfl⟩
  rw [← hq] at hq1 htol ⊢
  have hq0 : 0 ≤ q := by
    have : μ / M ≤ 1 := by rw [div_le_one hM0]; exact (h.low 0).trans (h.high 0)
    rw [hq]
    exact le_max_of_le_left (by linarith)
  have hcut : ∀ x, |f (x - f x / f' x)| ≤ q * |f x| := by
    intro x
    obtain ⟨κ, h1, h2, h3⟩ := h.step x 1
    rw [one_mul, one_mul] at h3
    rw [h3, abs_mul]
    refine mul_le_mul_of_nonneg_right ?_ (abs_nonneg _)
    rw [abs_le, hq]
    constructor
    · have := le_max_right (1 - μ / M) (M / μ - 1)
      linarith
    · exact le_max_of_le_left (by linarith)
  obtain ⟨st', s', h1, h2⟩ := scalar_follow hc hlim (fun x => (h.pos.trans_le (h.low x)).ne')
    (fun k x => |f x| ≤ q ^ k * |f (c.guess 0)|) (by simp)
    (by
      rintro k x x' hI (⟨rfl, -⟩ | ⟨-, hlt, -⟩)
      · refine (hcut x).trans ((mul_le_mul_of_nonneg_left hI hq0).trans_eq ?_)
        rw [pow_succ]; ring
      · have := mul_le_of_le_one_left (abs_nonneg (f x)) hq1.le
        exact absurd (hlt.trans_le (hcut x)) (not_lt.2 this)) s hs
  rcases h2 with ⟨h2, h3⟩ | ⟨h2, h3, -⟩
  · exact ⟨st', s', h3, h2, h1⟩
  · refine absurd (h1.trans (le_trans ?_ htol)) (not_le.2 h2)
    exact mul_le_mul_of_nonneg_right (pow_le_pow_of_le_one hq0 hq1.le (hN.trans h3)) (abs_nonneg _)

/-- What damping adds: if the slopes vary by at most the factor four, no damped solve ends at a larger residual than that
of the guess, whatever its budget. Missing for the claim: that it converges, and the same without a bound on the slopes;
both are false. -/
theorem C116_no_growth_partial (h : Slopes f f' μ M) (hM : M ≤ 4 * μ) {c : Config ℝ 1} (hc : PlainNewton (undamped c))
    (hd : c.params.damping = true) (hlim : ∀ v w, (c.iters 0).stepLimitation v (w - v) = w) (s : AdapterState ℝ 1)
    (hs : s.right = 0) :
    ∃ st' s' r, solve c (fromFunctionAndJacobian (fun x _ => f (x 0)) (fun x => Matrix.of fun _ _ => f' (x 0))) .new s =
        .ok (st', s', r) ∧ (r = .ok () ∨ r = .error .nonConvergence) ∧ |f (s'.inputs 0)| ≤ |f (c.guess 0)| := by
  obtain ⟨st', s', h1, h2⟩ := scalar_follow hc hlim (fun x => (h.pos.trans_le (h.low x)).ne')
    (fun _ x => |f x| ≤ |f (c.guess 0)|) le_rfl
    (by
      rintro k x x' hI (⟨-, hle⟩ | ⟨-, -, rfl⟩)
      · exact (hle hd).trans hI
      · obtain ⟨κ, g1, g2, g3⟩ := h.step x (1 / 2)
        refine le_trans ?_ hI
        rw [g3, abs_mul]
        refine mul_le_of_le_one_left (abs_nonneg _) ?_
        have hM0 : 0 < M := h.pos.trans_le ((h.low 0).trans (h.high 0))
        have e1 : 0 < μ / M := div_pos h.pos hM0
        have e2 : M / μ ≤ 4 := by rw [div_le_iff₀ h.pos]; exact hM
        rw [abs_le]
        constructor <;> linarith) s hs
  rcases h2 with ⟨-, h3⟩ | ⟨-, -, h3⟩
  · exact ⟨st', s', _, h3, .inl rfl, h1⟩
  · exact ⟨st', s', _, h3, .inr rfl, h1⟩

end

namespace Wave

/-- `x + 2 x / (1 + x²)`, with the root 0. -/
noncomputable def f (x : ℝ) : ℝ := x + 2 * x / (1 + x ^ 2)

noncomputable def f' (x : ℝ) : ℝ := 1 + 2 * (1 - x ^ 2) / (1 + x ^ 2) ^ 2

theorem slopes : Slopes f f' (3 / 4) 3 := by
  have hp : ∀ x : ℝ, 0 < 1 + x ^ 2 := fun x => by positivity
  refine ⟨fun x => ?_, by norm_num, fun x => ?_, fun x => ?_⟩
  · have := (hasDerivAt_id x).add ((((hasDerivAt_id x).const_mul 2).div (((hasDerivAt_id x).pow 2).const_add 1) (hp x).ne'))
    refine this.congr_deriv ?_
    simp only [f', Pi.pow_apply, id]
    congr 1
    congr 1
    ring
  · have : -(1 / 4) ≤ 2 * (1 - x ^ 2) / (1 + x ^ 2) ^ 2 := by
      rw [le_div_iff₀ (pow_pos (hp x) 2)]
      nlinarith [sq_nonneg (x ^ 2 - 3)]
    rw [f']
    linarith
  · have : 2 * (1 - x ^ 2) / (1 + x ^ 2) ^ 2 ≤ 2 := by
      rw [div_le_iff₀ (pow_pos (hp x) 2)]
      nlinarith [sq_nonneg x, sq_nonneg (x ^ 2)]
    rw [f']
    linarith

theorem tilted : Slopes (fun x => 2 * x + f x) (fun x => 2 + f' x) (11 / 4) 5 := by
  refine ⟨fun x => ?_, by norm_num, fun x => ?_, fun x => ?_⟩
  · refine (((hasDerivAt_id x).const_mul 2).add (slopes.deriv x)).congr_deriv ?_
    rw [mul_one]
  · have := slopes.low x
    change 11 / 4 ≤ 2 + f' x
    linarith
  · have := slopes.high x
    change 2 + f' x ≤ 5
    linarith

end Wave

/-- Damping does not make the method converge: it acts only when the error grows strictly. Newton's method on
`x + 2 x / (1 + x²)` from 1 alternates between 1 and -1, where the residuals are 2 and -2, and the damped solve fails with
every budget and every tolerance below 2. -/
theorem C116_cycle_refuted : ∃ f f' : ℝ → ℝ, Slopes f f' (3 / 4) 3 ∧ f 0 = 0 ∧ ∀ c : Config ℝ 1,
    PlainNewton (undamped c) → c.params.damping = true → (∀ v w, (c.iters 0).stepLimitation v (w - v) = w) →
    c.guess 0 = 1 → c.params.tolerance < 2 → ∀ s : AdapterState ℝ 1, s.right = 0 →
    ∃ st' s', solve c (fromFunctionAndJacobian (fun x _ => f (x 0)) (fun x => Matrix.of fun _ _ => f' (x 0))) .new s =
      .ok (st', s', .error .nonConvergence) ∧ |f (s'.inputs 0)| = |f (c.guess 0)| := by
  have f1 : Wave.f 1 = 2 := by norm_num [Wave.f]
  have f2 : Wave.f (-1) = -2 := by norm_num [Wave.f]
  have d1 : Wave.f' 1 = 1 := by norm_num [Wave.f']
  have d2 : Wave.f' (-1) = 1 := by norm_num [Wave.f']
  refine ⟨Wave.f, Wave.f', Wave.slopes, by norm_num [Wave.f], fun c hc hd hlim hg htol s hs => ?_⟩
  have habs : ∀ x, x = 1 ∨ x = -1 → |Wave.f x| = 2 := by
    rintro x (rfl | rfl)
    · rw [f1]; norm_num
    · rw [f2]; norm_num
  obtain ⟨st', s', h1, h2⟩ := scalar_follow (f := Wave.f) (f' := Wave.f') hc hlim
    (fun x => ((by norm_num : (0 : ℝ) < 3 / 4).trans_le (Wave.slopes.low x)).ne') (fun _ x => x = 1 ∨ x = -1) (.inl hg)
    (by
      rintro k x x' (rfl | rfl) (⟨rfl, -⟩ | ⟨-, hlt, -⟩)
      · right; rw [f1, d1]; norm_num
      · rw [f1, d1] at hlt; norm_num [f2] at hlt
      · left; rw [f2, d2]; norm_num
      · rw [f2, d2] at hlt; norm_num [f1] at hlt) s hs
  rcases h2 with ⟨h2, -⟩ | ⟨-, -, h3⟩
  · rw [habs _ h1] at h2
    linarith
  · exact ⟨st', s', h3, by rw [habs _ h1, hg, habs _ (.inl rfl)]⟩

namespace Demo64

/-- The solver of the library for one unknown with damping. -/
def dampedNewton (guess tol : ℚ) (maxIter : Nat) : Config F64 1 :=
  { newton guess tol maxIter with params := { (newton guess tol maxIter).params with damping := true } }

/-- `1 - x + 10 x² - 12 x³`. -/
def cubic : UserModel F64 1 Empty Empty (AdapterState F64 1) :=
  fromFunctionAndJacobian
    (fun x _ => Scalar.sub (Scalar.add (Scalar.sub Scalar.one (x 0)) (Scalar.mul (ofRat 10) (Scalar.mul (x 0) (x 0))))
      (Scalar.mul (ofRat 12) (Scalar.mul (x 0) (Scalar.mul (x 0) (x 0)))))
    (fun x _ _ => Scalar.sub (Scalar.add (Scalar.neg Scalar.one) (Scalar.mul (ofRat 20) (x 0)))
      (Scalar.mul (ofRat 36) (Scalar.mul (x 0) (x 0))))

/-- `x + 2 x / (1 + x²)`. -/
def wave : UserModel F64 1 Empty Empty (AdapterState F64 1) :=
  fromFunctionAndJacobian
    (fun x _ => Scalar.add (x 0) (Scalar.div (Scalar.mul Scalar.two (x 0)) (Scalar.add Scalar.one (Scalar.mul (x 0) (x 0)))))
    (fun x _ _ => Scalar.add Scalar.one (Scalar.div (Scalar.mul Scalar.two (Scalar.sub Scalar.one (Scalar.mul (x 0) (x 0))))
      (Scalar.mul (Scalar.add Scalar.one (Scalar.mul (x 0) (x 0))) (Scalar.add Scalar.one (Scalar.mul (x 0) (x 0))))))

end Demo64

/-- The solve does not converge and its last state satisfies `p`. -/
def Demo64.endsWith {A S EI EU : Type} (p : S → Bool) : Except Panic (A × S × Except (SolverError EI EU) Unit) → Bool
  | .ok (_, s, .error .nonConvergence) => p s
  | _ => false

theorem Demo64.endsWith_true {A S EI EU : Type} {p : S → Bool} {x : Except Panic (A × S × Except (SolverError EI EU) Unit)}
    (h : endsWith p x = true) : ∃ a s, x = .ok (a, s, .error .nonConvergence) ∧ p s = true := by
  unfold endsWith at h
  split at h
  · exact ⟨_, _, rfl, h⟩
  · cases h

/-- A damped iteration can still make the error grow: the step is halved once, and the result is not compared again. In
binary64 the error of `x² - 2` at 1/8 is below 2; after one damped iteration it is above 14. -/
theorem C116_growth_refuted : ∃ (c : Config F64 1) (m : UserModel F64 1 Empty Empty (AdapterState F64 1)),
    c.params.damping = true ∧ c.params.maxIter = 1 ∧
    Scalar.lt (amax (evaluateErrors c m (m.evaluate (m.setIteratives .new c.guess)).1)) (Demo64.ofRat 2) = true ∧
    ∃ st' s', solve c m .new .new = .ok (st', s', .error .nonConvergence) ∧
      Scalar.lt (Demo64.ofRat 14) (amax (evaluateErrors c m s')) = true :=
  ⟨Demo64.dampedNewton (1 / 8) (1 / 10 ^ 6) 1, squareModel (Demo64.ofRat 2), rfl, rfl, by decide +kernel,
    Demo64.endsWith_true (p := fun s' => Scalar.lt (Demo64.ofRat 14) (amax (evaluateErrors
      (Demo64.dampedNewton (1 / 8) (1 / 10 ^ 6) 1) (squareModel (Demo64.ofRat 2)) s'))) (by decide +kernel)⟩

/-- Damping can make a solve fail that succeeds without: in binary64, `1 - x + 10 x² - 12 x³` from 0 is solved without
damping; with damping the first step is halved to 1/2, where the derivative is zero. -/
theorem C116_spoils_refuted : ∃ (c : Config F64 1) (m : UserModel F64 1 Empty Empty (AdapterState F64 1)),
    c.params.damping = true ∧ Demo.kind (solve (undamped c) m .new .new) = .ok ∧
    Demo.kind (solve c m .new .new) = .jacobian :=
  ⟨Demo64.dampedNewton 0 (1 / 10 ^ 6) 50, Demo64.cubic, rfl, by decide +kernel, by decide +kernel⟩

/-- Damping does help in places: in binary64 the same function as in `C116_cycle_refuted` from 3/2 is not solved without
damping, and is solved with. -/
example : Demo.kind (solve (Demo64.newton (3 / 2) (1 / 10 ^ 6) 50) Demo64.wave .new .new) = .nonConvergence ∧
    Demo.kind (solve (Demo64.dampedNewton (3 / 2) (1 / 10 ^ 6) 50) Demo64.wave .new .new) = .ok ∧
    Demo.kind (solve (Demo64.dampedNewton 1 (1 / 10 ^ 6) 50) Demo64.wave .new .new) = .nonConvergence := by
  refine ⟨?_, ?_, ?_⟩ <;> decide +kernel

namespace Demo

/-- No limits, real numbers, damping. -/
noncomputable def dampedReal (guess tol : ℝ) (maxIter : Nat) : Config ℝ 1 :=
  { unlimitedReal 1 (fun _ => guess) tol maxIter with
    params := { (unlimitedReal 1 (fun _ => guess) tol maxIter).params with damping := true } }

theorem dampedReal_newton (guess tol : ℝ) (maxIter : Nat) : PlainNewton (undamped (dampedReal guess tol maxIter)) :=
  unlimitedReal_newton _ _ _

/-- `C116_contracts` applies to `3 x + 2 x / (1 + x²)`, whose slopes are between
11/4 and 5: the factor is 9/11, and from 1 with damping the tolerance 1/2 is reached within 11 iterations. -/
example : ∃ st' s', solve (dampedReal 1 (1 / 2) 11) (fromFunctionAndJacobian (fun x _ => 2 * x 0 + Wave.f (x 0))
      (fun x => Matrix.of fun _ _ => 2 + Wave.f' (x 0))) .new ⟨0, 0, 0⟩ = .ok (st', s', .ok ()) ∧
    |2 * s'.inputs 0 + Wave.f (s'.inputs 0)| ≤ 1 / 2 := by
  obtain ⟨-, st', s', h1, h2, -⟩ := C116_contracts Wave.tilted (by norm_num) (dampedReal_newton 1 (1 / 2) 11)
    (fun v w => add_sub_cancel v w) (N := 11) le_rfl (by
      change max (1 - 11 / 4 / 5) (5 / (11 / 4) - 1) ^ 11 * |2 * 1 + Wave.f 1| ≤ 1 / 2
      norm_num [Wave.f]) ⟨0, 0, 0⟩ rfl
  exact ⟨st', s', h1, h2⟩

/-- `C116_no_growth_partial` applies to the function of the example above, from every guess. -/
example (guess : ℝ) (maxIter : Nat) : ∃ st' s' r, solve (dampedReal guess (1 / 10 ^ 6) maxIter)
      (fromFunctionAndJacobian (fun x _ => Wave.f (x 0)) (fun x => Matrix.of fun _ _ => Wave.f' (x 0))) .new ⟨0, 0, 0⟩ =
        .ok (st', s', r) ∧ (r = .ok () ∨ r = .error .nonConvergence) ∧ |Wave.f (s'.inputs 0)| ≤ |Wave.f guess| :=
  C116_no_growth_partial Wave.slopes (by norm_num) (dampedReal_newton guess _ maxIter) rfl
    (fun v w => add_sub_cancel v w) ⟨0, 0, 0⟩ rfl

/-- `C116_cycle_refuted` speaks about the configurations of these examples. -/
example : PlainNewton (undamped (dampedReal 1 (1 / 10 ^ 6) 1000)) ∧ (dampedReal 1 (1 / 10 ^ 6) 1000).params.damping = true ∧
    (dampedReal 1 (1 / 10 ^ 6) 1000).guess 0 = 1 :=
  ⟨dampedReal_newton _ _ _, rfl, rfl⟩

end Demo
end Nrf
