import Verif.Proofs.OneDim
import Mathlib.Algebra.Order.Archimedean.Basic
import Mathlib.Data.Real.Archimedean
import Mathlib.Tactic.Positivity

/-!
# C37: quasi-Newton methods converge locally

The documentation (`resolution_method.rs` L7-8) claims local convergence for all methods.  As coded the
updates use the change of the absolute residuals (see C36), so whenever the residual is negative the
secant has the wrong sign and the iterates run away from the root.
-/

namespace Nrf
open Spec
open scoped Exact

section
variable {K : Type} [Field K] [LinearOrder K]

/-- `-x - x² = 0` with its derivative: simple root at 0. -/
def Spec.runaway : UserModel K 1 Empty Empty (AdapterState K 1) :=
  fromFunctionAndJacobian (fun x _ => -(x 0) - x 0 * x 0) (fun x _ _ => -1 - 2 * x 0)

end

section
variable {K : Type} [Field K] [LinearOrder K] [IsStrictOrderedRing K]

private theorem g_mono {x y : K} (hx : 0 < x) (hxy : x ≤ y) : x * x + x ≤ y * y + y := by nlinarith

/-- The claim is false for each of the eight updating methods: with the default configuration, from
every positive guess (however close to the root 0) and for every tolerance below the residual of the
first Newton point, the solve of `-x - x² = 0` never converges, whatever `max_iter`. -/
theorem C37_refuted_every_guess (c : Config K 1) (hc : Spec.Default c) (hm : Spec.Updating c.params.method)
    (hguess : 0 < c.guess 0) (x1 : K) (hx1 : x1 = c.guess 0 ^ 2 / (2 * c.guess 0 + 1))
    (htol : c.params.tolerance < x1 * x1 + x1) (s : AdapterState K 1) (hs : s.right = 0) :
    ∃ st' s', solve c Spec.runaway .new s = .ok (st', s', .error .nonConvergence) := by
  obtain ⟨u, full, hm⟩ := updating_cases hm
  set fn : Vec K 1 → Vec K 1 := fun x _ => -(x 0) - x 0 * x 0 with hfn
  set f : Vec K 1 → ResidualsValues K 1 := fun x => ⟨fn x, 0⟩ with hfdef
  have hf : Computes (Spec.runaway (K := K)) (fun s => s.right = 0) (fun _ => True) f :=
    fromFunctionAndJacobian_computes _ _ 0
  have hg : Differentiates (Spec.runaway (K := K)) (fun s => s.right = 0) f
      (fun x => ⟨fun _ _ => -1 - 2 * x 0, mzero⟩) := fromFunctionAndJacobian_differentiates _ _ 0
  have hupd : ∀ x, updateAt c f (vec1 x) 0 = -(x * x + x) := fun x => by
    rw [hfdef, updateAt_zero hc]; change -x - x * x = _; ring
  have herr : ∀ x, 0 < x → errorsAt c f (vec1 x) 0 = x * x + x := fun x hx => by
    rw [hfdef, errorsAt_zero hc]
    change |-x - x * x| = _
    rw [show -x - x * x = -(x * x + x) by ring, abs_neg, abs_of_pos (by positivity)]
  have hamax : ∀ x, 0 < x → amax (errorsAt c f (vec1 x)) = x * x + x := fun x hx => by
    rw [amax_single, herr x hx, abs_of_pos (by positivity)]
  have hx1pos : 0 < x1 := by rw [hx1]; positivity
  have hx1lt : x1 < c.guess 0 := by
    rw [hx1, div_lt_iff₀ (by positivity)]; nlinarith
  obtain ⟨k, st', s', h1, h2, h3, h4⟩ := solve_follow (c := c) hf
    (fun k st s => (k = 0 ∧ st = .new ∧ At Spec.runaway (fun s => s.right = 0) f s (vec1 (c.guess 0))) ∨
      ∃ x xp, x1 ≤ x ∧ 0 < xp ∧ x ≠ xp ∧ SecantState Spec.runaway (fun s => s.right = 0) f full st s x
        (x - xp) ((x * x + x) - (xp * xp + xp)) (x * x + x))
    (by
      rintro k st s (⟨rfl, rfl, hat⟩ | ⟨x, xp, hx, hxp, hne, hst⟩) -
      · have ha : analyticAt c f (fun x => ⟨fun _ _ => -1 - 2 * x 0, mzero⟩) (vec1 (c.guess 0)) 0 0 =
            -1 - 2 * c.guess 0 := by
          rw [hfdef, analyticAt_zero hc fn (fun x _ _ => -1 - 2 * x 0)]; rfl
        obtain ⟨st', s', hi, -, hst⟩ := iterate_first (st := .new) hc.exact hf hg hm hc.damping hc.free
          rfl rfl hat
          (by rw [ha]; intro h; linarith)
          (show x1 = _ by
            rw [hupd, ha, hx1]
            have h2 : 2 * c.guess 0 + 1 ≠ 0 := by positivity
            rw [show -1 - 2 * c.guess 0 = -(2 * c.guess 0 + 1) by ring, neg_div_neg_eq]
            field_simp
            ring)
          trivial
        rw [herr _ hx1pos, herr _ hguess] at hst
        exact ⟨st', s', hi, .inr ⟨x1, c.guess 0, le_refl _, hguess, hx1lt.ne, hst⟩⟩
      · have hxpos := lt_of_lt_of_le hx1pos hx
        have hgne : (x * x + x) - (xp * xp + xp) ≠ 0 := by
          rw [show (x * x + x) - (xp * xp + xp) = (x - xp) * (x + xp + 1) by ring]
          exact mul_ne_zero (sub_ne_zero.2 hne) (by positivity)
        obtain ⟨st', s', hi, -, hst⟩ := iterate_secant hc.exact hf hm hc.damping hc.free hst
          (sub_ne_zero.2 hne) hgne (by positivity)
          (show x + (x * x + x) / (x + xp + 1) = _ by
            rw [hupd]
            have h1 := sub_ne_zero.2 hne
            have h2 : x + xp + 1 ≠ 0 := by positivity
            rw [show (x * x + x) - (xp * xp + xp) = (x - xp) * (x + xp + 1) by ring]
            field_simp
            ring)
          trivial
        have hgt : x < x + (x * x + x) / (x + xp + 1) := by
          have : 0 < (x * x + x) / (x + xp + 1) := by positivity
          linarith
        rw [herr _ hxpos, herr _ (hxpos.trans hgt)] at hst
        exact ⟨st', s', hi, .inr ⟨_, x, hx.trans hgt.le, hxpos, hgt.ne', hst⟩⟩)
    hs trivial (fun s0 h0 => .inl ⟨rfl, rfl, by rw [← vec_one]; exact h0⟩)
  have hlt : Scalar.lt c.params.tolerance (amax (evaluateErrors c Spec.runaway s')) = true := by
    rw [ex_lt]
    refine lt_of_lt_of_le htol ?_
    rcases h2 with ⟨-, -, hat⟩ | ⟨x, xp, hx, -, -, hst⟩
    · rw [hat.errors, hamax _ hguess]
      exact g_mono hx1pos hx1lt.le
    · rw [hst.here.errors, hamax _ (lt_of_lt_of_le hx1pos hx)]
      exact g_mono hx1pos hx
  refine ⟨st', s', ?_⟩
  rw [h1]
  simp only [finalResult, hlt, if_true]

end

/-- The negation of the documented claim over the reals: for no updating method is there a
neighbourhood of the simple root 0 of `-x - x²` in which every guess leads to `Ok` for every positive
tolerance and all large iteration counts. -/
theorem C37_refuted (method : ResolutionMethod) (hm : Spec.Updating method) :
    ¬ ∃ ε > (0 : ℝ), ∀ guess, |guess| < ε → ∀ tol > 0, ∃ N, ∀ maxIter ≥ N, ∃ st' s',
      solve (Spec.realConfig method guess tol maxIter) Spec.runaway .new ⟨0, 0, 0⟩ =
        .ok (st', s', .ok ()) := by
  rintro ⟨ε, hε, h⟩
  set x1 : ℝ := (ε / 2) ^ 2 / (2 * (ε / 2) + 1) with hx1
  have hpos : 0 < x1 := by rw [hx1]; positivity
  obtain ⟨N, hN⟩ := h (ε / 2) (by rw [abs_of_pos (by positivity)]; linarith) x1 hpos
  obtain ⟨st', s', h1⟩ := hN N (le_refl _)
  obtain ⟨st2, s2, h2⟩ := C37_refuted_every_guess (Spec.realConfig method (ε / 2) x1 N)
    (Spec.realConfig_default _ _ _ _) hm (show 0 < ε / 2 by positivity) x1 rfl
    (show x1 < x1 * x1 + x1 by nlinarith) ⟨0, 0, 0⟩ rfl
  rw [h1] at h2
  cases h2

section
variable {K : Type} [Field K] [LinearOrder K] [IsStrictOrderedRing K] [Archimedean K]

omit [Archimedean K] in
private theorem secant_ratio {a x xp guess δ : K} (hδ : 0 < δ) (hguess : 0 < guess) (ha : 0 ≤ a) (hx : 0 < x)
    (hxp0 : 0 < xp) (hxp : xp ≤ guess) (hδx : δ ≤ x) :
    (xp * xp - a) / ((x + xp) * (x + xp)) ≤ guess / (guess + δ) :=
  calc (xp * xp - a) / ((x + xp) * (x + xp)) ≤ xp / (x + xp) := by
        rw [div_le_div_iff₀ (by positivity) (by positivity)]
        have : (xp * xp - a) * (x + xp) ≤ (xp * (x + xp)) * (x + xp) :=
          mul_le_mul_of_nonneg_right (by nlinarith) (by positivity)
        linarith
    _ ≤ guess / (guess + δ) := by
        rw [div_le_div_iff₀ (by positivity) (by positivity)]
        have := mul_le_mul hxp hδx hδ.le hguess.le
        linarith

omit [Archimedean K] in
private theorem secant_point {a x xp : K} (hx : 0 < x) (hxp : 0 < xp) :
    (x * xp + a) / (x + xp) * ((x * xp + a) / (x + xp)) - a =
      (x * x - a) * ((xp * xp - a) / ((x + xp) * (x + xp))) := by
  field_simp
  ring

omit [Archimedean K] in
private theorem secant_next {a x xp : K} (hx : 0 < x) (hlt : x < xp) :
    (x * xp + a) / (x + xp) = x - (x * x - a) * ((x - xp) / ((x * x - a) - (xp * xp - a))) := by
  have h1 : x - xp ≠ 0 := (sub_neg.2 hlt).ne
  have h2 : x + xp ≠ 0 := by have := hx.trans hlt; positivity
  rw [show (x * x - a) - (xp * xp - a) = (x - xp) * (x + xp) by ring]
  field_simp
  ring

/-- What holds when the residuals keep a positive sign: for square roots, from every guess above the
root and for every positive tolerance, each of the eight updating methods converges.  (Missing for
the full claim: guesses below the root, other functions, several unknowns; false in general by
`C37_refuted`.  Stationary Newton is covered by C38.) -/
theorem C37_squares_partial (a : K) (ha : 0 < a) (guess tol : K) (hguess : 0 < guess) (habove : a < guess * guess)
    (htol : 0 < tol) :
    ∃ N, ∀ c : Config K 1, Spec.Default c → Spec.Updating c.params.method → c.guess 0 = guess →
      c.params.tolerance = tol → N ≤ c.params.maxIter → ∀ s : AdapterState K 1, s.right = 0 →
      ∃ st' s', solve c (Spec.square a) .new s = .ok (st', s', .ok ()) ∧
        |s'.inputs 0 * s'.inputs 0 - a| ≤ tol := by
  -- every iterate is above `δ` and the residual shrinks by `θ`
  set δ := a / guess with hδ
  have hδpos : 0 < δ := by positivity
  set θ := guess / (guess + δ) with hθ
  have hθpos : 0 < θ := by positivity
  have hθlt : θ < 1 := by rw [hθ, div_lt_one (by positivity)]; linarith
  obtain ⟨N, hN⟩ := exists_pow_lt_of_lt_one (div_pos htol (show 0 < guess * guess by positivity)) hθlt
  have hN : guess * guess * θ ^ N < tol := by
    rw [lt_div_iff₀ (by positivity)] at hN; linarith
  refine ⟨N + 1, fun c hc hm hg0 htol0 hmax s hs => ?_⟩
  obtain ⟨u, full, hm⟩ := updating_cases hm
  set fn : Vec K 1 → Vec K 1 := fun x _ => x 0 * x 0 - a with hfn
  set f : Vec K 1 → ResidualsValues K 1 := fun x => ⟨fn x, 0⟩ with hfdef
  have hf : Computes (Spec.square a) (fun s => s.right = 0) (fun _ => True) f :=
    fromFunctionAndJacobian_computes _ _ 0
  have hg : Differentiates (Spec.square a) (fun s => s.right = 0) f
      (fun x => ⟨fun _ _ => 2 * x 0, mzero⟩) := fromFunctionAndJacobian_differentiates _ _ 0
  have hupd : ∀ x, updateAt c f (vec1 x) 0 = x * x - a := fun x => by
    rw [hfdef, updateAt_zero hc]; rfl
  have herr : ∀ x, 0 ≤ x * x - a → errorsAt c f (vec1 x) 0 = x * x - a := fun x hx => by
    rw [hfdef, errorsAt_zero hc]
    exact abs_of_nonneg hx
  have hamax : ∀ x, 0 ≤ x * x - a → amax (errorsAt c f (vec1 x)) = x * x - a := fun x hx => by
    rw [amax_single, herr x hx, abs_of_nonneg hx]
  have hlow : ∀ x, 0 < x → x ≤ guess → 0 ≤ x * x - a → δ ≤ x := by
    intro x h0 h1 h2
    rw [hδ, div_le_iff₀ hguess]
    nlinarith
  obtain ⟨k, st', s', h1, h2, h3, h4⟩ := solve_follow (c := c) hf
    (fun k st s => (k = 0 ∧ st = .new ∧ At (Spec.square a) (fun s => s.right = 0) f s (vec1 guess)) ∨
      ∃ x xp, k ≠ 0 ∧ 0 < x ∧ x < xp ∧ xp ≤ guess ∧ 0 ≤ x * x - a ∧
        x * x - a ≤ guess * guess * θ ^ (k - 1) ∧
        SecantState (Spec.square a) (fun s => s.right = 0) f full st s x
          (x - xp) ((x * x - a) - (xp * xp - a)) (x * x - a))
    (by
      rintro k st s (⟨rfl, rfl, hat⟩ | ⟨x, xp, hk, hx, hlt, hxp, hpos, hbd, hst⟩) hcont
      · have ha' : analyticAt c f (fun x => ⟨fun _ _ => 2 * x 0, mzero⟩) (vec1 guess) 0 0 = 2 * guess := by
          rw [hfdef, analyticAt_zero hc fn (fun x _ _ => 2 * x 0)]; rfl
        have hx1 : (guess * guess + a) / (2 * guess) = guess - (guess * guess - a) / (2 * guess) := by
          field_simp; ring
        have hpos1 : 0 ≤ (guess * guess + a) / (2 * guess) * ((guess * guess + a) / (2 * guess)) - a := by
          have : (guess * guess + a) / (2 * guess) * ((guess * guess + a) / (2 * guess)) - a =
              ((guess * guess - a) / (2 * guess)) ^ 2 := by field_simp; ring
          rw [this]; positivity
        obtain ⟨st', s', hi, hiter, hst⟩ := iterate_first (st := .new) hc.exact hf hg hm hc.damping hc.free
          rfl rfl hat
          (by rw [ha']; positivity)
          (show (guess * guess + a) / (2 * guess) = _ by rw [hupd, ha', hx1])
          trivial
        rw [herr _ hpos1, herr _ (by linarith)] at hst
        have hlt1 : (guess * guess + a) / (2 * guess) < guess := by
          rw [div_lt_iff₀ (by positivity)]; nlinarith
        refine ⟨st', s', hi, .inr ⟨_, guess, by omega, by positivity, hlt1, le_refl _, hpos1, ?_, hst⟩⟩
        have h0 : 0 < (guess * guess + a) / (2 * guess) := by positivity
        rw [show 0 + 1 - 1 = 0 from rfl, pow_zero, mul_one]
        nlinarith
      · -- the residual is not zero when the loop continues
        have hstrict : 0 < x * x - a := by
          rw [hst.here.errors, hamax x hpos, continues, htol0, Bool.and_eq_true, ex_lt] at hcont
          linarith [hcont.1]
        have hxp0 : 0 < xp := hx.trans hlt
        have hne : x - xp ≠ 0 := (sub_neg.2 hlt).ne
        have hdy : (x * x - a) - (xp * xp - a) ≠ 0 := by
          rw [show (x * x - a) - (xp * xp - a) = (x - xp) * (x + xp) by ring]
          exact mul_ne_zero hne (by positivity)
        have hxp' := secant_point (a := a) hx hxp0
        have hxpa : 0 < xp * xp - a := by nlinarith
        have hpos' : 0 ≤ (x * xp + a) / (x + xp) * ((x * xp + a) / (x + xp)) - a := by
          rw [hxp']; positivity
        obtain ⟨st', s', hi, hiter, hst'⟩ := iterate_secant hc.exact hf hm hc.damping hc.free hst
          hne hdy hstrict.ne'
          (show (x * xp + a) / (x + xp) = _ by
            rw [hupd, ← secant_next hx hlt])
          trivial
        rw [herr _ hpos', herr _ hpos] at hst'
        have hlt' : (x * xp + a) / (x + xp) < x := by
          rw [div_lt_iff₀ (by positivity)]; nlinarith
        refine ⟨st', s', hi, .inr ⟨_, x, by omega, by positivity, hlt', hlt.le.trans hxp, hpos', ?_, hst'⟩⟩
        have hratio := secant_ratio hδpos hguess ha.le hx (hx.trans hlt) hxp (hlow x hx (hlt.le.trans hxp) hpos)
        rw [hxp']
        obtain ⟨j, rfl⟩ : ∃ j, k = j + 1 := ⟨k - 1, by omega⟩
        rw [Nat.add_sub_cancel] at hbd ⊢
        calc (x * x - a) * ((xp * xp - a) / ((x + xp) * (x + xp)))
            ≤ (guess * guess * θ ^ j) * θ := mul_le_mul hbd hratio (by positivity) (by positivity)
          _ = guess * guess * θ ^ (j + 1) := by ring)
    hs trivial (fun s0 h0 => .inl ⟨rfl, rfl, by rw [← hg0, ← vec_one]; exact h0⟩)
  -- at the end the residual is within the tolerance
  obtain ⟨x, hat, hv, hpos, hsmall⟩ : ∃ x, At (Spec.square a) (fun s => s.right = 0) f s' (vec1 x) ∧
      st'.valid = true ∧ 0 ≤ x * x - a ∧ (c.params.maxIter ≤ k → x * x - a ≤ tol) := by
    rcases h2 with ⟨rfl, rfl, hat⟩ | ⟨x, xp, hk, -, -, -, hpos, hbd, hst⟩
    · exact ⟨guess, hat, rfl, by linarith, fun h => by omega⟩
    · refine ⟨x, hst.here, hst.valid, hpos, fun h => hbd.trans ?_⟩
      refine le_trans ?_ hN.le
      exact mul_le_mul_of_nonneg_left (pow_le_pow_of_le_one hθpos.le hθlt.le (by omega)) (by positivity)
  have herr' : amax (evaluateErrors c (Spec.square a) s') = x * x - a := by rw [hat.errors, hamax x hpos]
  have hle : x * x - a ≤ tol := by
    by_contra hgt
    have hk : ¬ c.params.maxIter ≤ k := fun h => hgt (hsmall h)
    rw [herr', continues, htol0, Bool.and_eq_false_iff, h4] at h3
    rcases h3 with h3 | h3
    · rw [Bool.eq_false_iff, Ne, ex_lt] at h3; exact h3 (not_le.1 hgt)
    · simp only [decide_eq_false_iff_not] at h3; omega
  refine ⟨st', s', ?_, ?_⟩
  · rw [h1, herr', finalResult, htol0, if_neg, if_pos hv]
    rw [ex_lt]; exact not_lt.2 hle
  · have : s'.inputs = vec1 x := hat.iteratives
    rw [this]
    exact (abs_of_nonneg hpos).trans_le hle

/-! Convex functions: tangents lie below the graph and chords get steeper to the right. -/

section
variable {f f' : K → K} {r : K}

private theorem convex_mono (htan : ∀ x y, r ≤ x → r ≤ y → f x + f' x * (y - x) ≤ f y) (hr' : 0 ≤ f' r)
    (hpos : ∀ x, r < x → 0 < f' x) {x y : K} (hx : r ≤ x) (hxy : x ≤ y) : f x ≤ f y := by
  have h1 := htan x y hx (hx.trans hxy)
  have h2 : 0 ≤ f' x := by
    rcases hx.eq_or_lt with rfl | hx
    · exact hr'
    · exact (hpos x hx).le
  nlinarith [mul_nonneg h2 (sub_nonneg.2 hxy)]

/-- The slope of a chord lies between the slopes of the tangents at its ends. -/
private theorem convex_chord (htan : ∀ x y, r ≤ x → r ≤ y → f x + f' x * (y - x) ≤ f y) {x y : K} (hx : r ≤ x)
    (hxy : x < y) : f' x ≤ (f x - f y) / (x - y) ∧ (f x - f y) / (x - y) ≤ f' y := by
  have h1 := htan x y hx (hx.trans hxy.le)
  have h2 := htan y x (hx.trans hxy.le) hx
  have hd : 0 < y - x := sub_pos.2 hxy
  rw [← neg_div_neg_eq, neg_sub, neg_sub, le_div_iff₀ hd, div_le_iff₀ hd]
  constructor <;> linarith

/-- A step with a slope at least that of the tangent does not pass the root. -/
private theorem convex_step (htan : ∀ x y, r ≤ x → r ≤ y → f x + f' x * (y - x) ≤ f y) (hr : f r = 0)
    {x σ : K} (hx : r ≤ x) (hσ0 : 0 < σ) (hσ : f' x ≤ σ) : r ≤ x - f x / σ := by
  have h1 := htan x r hx le_rfl
  rw [hr] at h1
  have h2 : f x / σ ≤ x - r := by
    rw [div_le_iff₀ hσ0]
    nlinarith [mul_nonneg (sub_nonneg.2 hσ) (sub_nonneg.2 hx)]
  linarith

end

/-- More generally for one convex equation: from every guess above the root `r` at which the derivative
is positive, each of the eight updating methods converges for every positive tolerance, from above,
also when the root is a double one.  (Missing for the full claim: guesses below the root, functions that
are not convex, several unknowns; false in general by `C37_refuted`.) -/
theorem C37_convex_partial (f f' : K → K) (r guess tol : K) (hr : f r = 0) (hr' : 0 ≤ f' r)
    (htan : ∀ x y, r ≤ x → r ≤ y → f x + f' x * (y - x) ≤ f y) (hpos : ∀ x, r < x → 0 < f' x)
    (hguess : r < guess) (htol : 0 < tol) :
    ∃ N, ∀ c : Config K 1, Spec.Default c → Spec.Updating c.params.method → c.guess 0 = guess →
      c.params.tolerance = tol → N ≤ c.params.maxIter → ∀ s : AdapterState K 1, s.right = 0 →
      ∃ st' s', solve c (fromFunctionAndJacobian (fun x _ => f (x 0)) fun x _ _ => f' (x 0)) .new s =
          .ok (st', s', .ok ()) ∧
        r ≤ s'.inputs 0 ∧ s'.inputs 0 ≤ guess ∧ 0 ≤ f (s'.inputs 0) ∧ f (s'.inputs 0) ≤ tol := by
  set b := f' guess with hb
  have hb0 : 0 < b := hpos _ hguess
  obtain ⟨N, hN⟩ := exists_nat_ge (b * (guess - r) / tol)
  rw [div_le_iff₀ htol] at hN
  refine ⟨N + 1, fun c hc hm hg0 htol0 hmax s hs => ?_⟩
  obtain ⟨u, full, hm⟩ := updating_cases hm
  set fn : Vec K 1 → Vec K 1 := fun x _ => f (x 0) with hfn
  set F : Vec K 1 → ResidualsValues K 1 := fun x => ⟨fn x, 0⟩ with hFdef
  set M : UserModel K 1 Empty Empty (AdapterState K 1) :=
    fromFunctionAndJacobian fn fun x _ _ => f' (x 0) with hM
  have hf : Computes M (fun s => s.right = 0) (fun _ => True) F := fromFunctionAndJacobian_computes _ _ 0
  have hg : Differentiates M (fun s => s.right = 0) F
      (fun x => ⟨fun _ _ => f' (x 0), mzero⟩) := fromFunctionAndJacobian_differentiates _ _ 0
  have hupd : ∀ x, updateAt c F (vec1 x) 0 = f x := fun x => by rw [hFdef, updateAt_zero hc]; rfl
  have hge : ∀ x, r ≤ x → 0 ≤ f x := fun x hx => hr ▸ convex_mono htan hr' hpos le_rfl hx
  have herr : ∀ x, r ≤ x → errorsAt c F (vec1 x) 0 = f x := fun x hx => by
    rw [hFdef, errorsAt_zero hc]
    exact abs_of_nonneg (hge x hx)
  have hamax : ∀ x, r ≤ x → amax (errorsAt c F (vec1 x)) = f x := fun x hx => by
    rw [amax_single, herr x hx, abs_of_nonneg (hge x hx)]
  -- one step with a slope `σ` between the tangent and `b`
  have hnext : ∀ (k : Nat) (x σ : K), r ≤ x → f' x ≤ σ → 0 < σ → σ ≤ b → 0 < f x →
      (k : K) * f x ≤ b * (guess - x) →
      r ≤ x - f x / σ ∧ x - f x / σ < x ∧ ((k + 1 : Nat) : K) * f (x - f x / σ) ≤ b * (guess - (x - f x / σ)) := by
    intro k x σ hx h1 hσ0 h2 hfx h3
    have hlow := convex_step htan hr hx hσ0 h1
    have hlt : x - f x / σ < x := by have := div_pos hfx hσ0; linarith
    refine ⟨hlow, hlt, ?_⟩
    have hdec := convex_mono htan hr' hpos hlow hlt.le
    have h5 : f x ≤ b * (f x / σ) := by
      have := mul_le_mul_of_nonneg_right h2 (div_pos hfx hσ0).le
      rwa [mul_div_cancel₀ _ hσ0.ne'] at this
    have h6 : (k : K) * f (x - f x / σ) ≤ k * f x := mul_le_mul_of_nonneg_left hdec (Nat.cast_nonneg k)
    push_cast
    linarith
  obtain ⟨k, st', s', h1, h2, h3, h4⟩ := solve_follow (c := c) hf
    (fun k st s => (k = 0 ∧ st = .new ∧ At M (fun s => s.right = 0) F s (vec1 guess)) ∨
      ∃ x xp, k ≠ 0 ∧ r ≤ x ∧ x < xp ∧ xp ≤ guess ∧ (k : K) * f x ≤ b * (guess - x) ∧
        SecantState M (fun s => s.right = 0) F full st s x (x - xp) (f x - f xp) (f x))
    (by
      rintro k st s (⟨rfl, rfl, hat⟩ | ⟨x, xp, hk, hx, hlt, hxp, hbd, hst⟩) hcont
      · have ha' : analyticAt c F (fun x => ⟨fun _ _ => f' (x 0), mzero⟩) (vec1 guess) 0 0 = b := by
          rw [hFdef, analyticAt_zero hc fn (fun x _ _ => f' (x 0))]; rfl
        have hfg : 0 < f guess := by
          rw [hat.errors, hamax guess hguess.le, continues, htol0, Bool.and_eq_true, ex_lt] at hcont
          linarith [hcont.1]
        obtain ⟨hlow, hlt, hbd⟩ := hnext 0 guess b hguess.le le_rfl hb0 le_rfl hfg (by simp)
        obtain ⟨st', s', hi, hiter, hst⟩ := iterate_first (st := .new) hc.exact hf hg hm hc.damping hc.free
          rfl rfl hat (by rw [ha']; exact hb0.ne')
          (show guess - f guess / b = _ by rw [hupd, ha']) trivial
        rw [herr _ hlow, herr _ hguess.le] at hst
        exact ⟨st', s', hi, .inr ⟨_, guess, by omega, hlow, hlt, le_refl _, hbd, hst⟩⟩
      · have hstrict : 0 < f x := by
          rw [hst.here.errors, hamax x hx, continues, htol0, Bool.and_eq_true, ex_lt] at hcont
          linarith [hcont.1]
        have hrx : r < x := lt_of_le_of_ne hx fun h => by rw [← h, hr] at hstrict; exact lt_irrefl _ hstrict
        have hne : x - xp ≠ 0 := (sub_neg.2 hlt).ne
        obtain ⟨hs1, hs2⟩ := convex_chord htan hx hlt
        have hσ0 : 0 < (f x - f xp) / (x - xp) := (hpos x hrx).trans_le hs1
        have hσb : (f x - f xp) / (x - xp) ≤ b := by
          refine hs2.trans ?_
          rcases hxp.eq_or_lt with h | h
          · rw [h]
          · exact (convex_chord htan (hx.trans hlt.le) h).1.trans (convex_chord htan (hx.trans hlt.le) h).2
        have hdy : f x - f xp ≠ 0 := fun h => by rw [h, zero_div] at hσ0; exact lt_irrefl _ hσ0
        obtain ⟨hlow, hlt', hbd'⟩ := hnext k x _ hx hs1 hσ0 hσb hstrict hbd
        obtain ⟨st', s', hi, hiter, hst'⟩ := iterate_secant hc.exact hf hm hc.damping hc.free hst
          hne hdy hstrict.ne'
          (show x - f x / ((f x - f xp) / (x - xp)) = _ by rw [hupd, div_div_eq_mul_div, mul_div_assoc]) trivial
        rw [herr _ hlow, herr _ hx] at hst'
        exact ⟨st', s', hi, .inr ⟨_, x, by omega, hlow, hlt', hlt.le.trans hxp, hbd', hst'⟩⟩)
    hs trivial (fun s0 h0 => .inl ⟨rfl, rfl, by rw [← hg0, ← vec_one]; exact h0⟩)
  obtain ⟨x, hat, hv, hx, hxg, hsmall⟩ : ∃ x, At M (fun s => s.right = 0) F s' (vec1 x) ∧
      st'.valid = true ∧ r ≤ x ∧ x ≤ guess ∧ (c.params.maxIter ≤ k → f x ≤ tol) := by
    rcases h2 with ⟨rfl, rfl, hat⟩ | ⟨x, xp, hk, hx, hlt, hxp, hbd, hst⟩
    · exact ⟨guess, hat, rfl, hguess.le, le_rfl, fun h => by omega⟩
    · refine ⟨x, hst.here, hst.valid, hx, hlt.le.trans hxp, fun h => ?_⟩
      have hNk : (N : K) ≤ k := by exact_mod_cast (by omega : N ≤ k)
      have hk0 : (0 : K) < k := by exact_mod_cast Nat.pos_of_ne_zero hk
      refine le_of_mul_le_mul_left ?_ hk0
      have e1 : b * (guess - x) ≤ b * (guess - r) := mul_le_mul_of_nonneg_left (by linarith) hb0.le
      have e2 : (N : K) * tol ≤ k * tol := mul_le_mul_of_nonneg_right hNk htol.le
      linarith
  have herr' : amax (evaluateErrors c M s') = f x := by rw [hat.errors, hamax x hx]
  have hle : f x ≤ tol := by
    by_contra hgt
    have hk : ¬ c.params.maxIter ≤ k := fun h => hgt (hsmall h)
    rw [herr', continues, htol0, Bool.and_eq_false_iff, h4] at h3
    rcases h3 with h3 | h3
    · rw [Bool.eq_false_iff, Ne, ex_lt] at h3; exact h3 (not_le.1 hgt)
    · simp only [decide_eq_false_iff_not] at h3; omega
  refine ⟨st', s', ?_, ?_⟩
  · rw [h1, herr', finalResult, htol0, if_neg, if_pos hv]
    rw [ex_lt]; exact not_lt.2 hle
  · have : s'.inputs = vec1 x := hat.iteratives
    rw [this]
    exact ⟨hx, hxg, hge x hx, hle⟩

end

/-- Stored Broyden Jacobian, guess 1/10, root 0. -/
example : ∃ st' s', solve (Demo.plain (.QuasiNewton (.JacobianUpdate .BroydenFirst)) (1 / 10) (1 / 1000) 50)
    Spec.runaway .new ⟨0, 0, 0⟩ = .ok (st', s', .error .nonConvergence) :=
  C37_refuted_every_guess _ (Demo.plain_default _ _ _ _) ⟨_, .inl rfl⟩ (by decide +kernel) _ rfl
    (by decide +kernel) _ rfl

example : Spec.Updating (.QuasiNewton (.InverseJacobianUpdate .GreenstadtSecond)) := ⟨_, .inr rfl⟩

example : ∃ N, ∀ maxIter, N ≤ maxIter → ∃ st' s',
    solve (Demo.plain (.QuasiNewton (.InverseJacobianUpdate .BroydenSecond)) 2 (1 / 1000) maxIter)
      (Spec.square 2) .new ⟨0, 0, 0⟩ = .ok (st', s', .ok ()) := by
  obtain ⟨N, hN⟩ := C37_squares_partial (2 : ℚ) (by norm_num) 2 (1 / 1000) (by norm_num) (by norm_num) (by norm_num)
  refine ⟨N, fun maxIter h => ?_⟩
  obtain ⟨st', s', h1, -⟩ := hN (Demo.plain _ 2 (1 / 1000) maxIter) (Demo.plain_default _ _ _ _)
    ⟨.BroydenSecond, .inr rfl⟩ rfl rfl h ⟨0, 0, 0⟩ rfl
  exact ⟨st', s', h1⟩

/-- The double root of `(x - 1)²` from 3: Broyden's first method, tolerance one millionth. -/
example : ∃ N, ∀ maxIter, N ≤ maxIter → ∃ st' s',
    solve (Demo.plain (.QuasiNewton (.JacobianUpdate .BroydenFirst)) 3 (1 / 1000000) maxIter)
      (fromFunctionAndJacobian (fun x _ => (x 0 - 1) * (x 0 - 1)) fun x _ _ => 2 * (x 0 - 1)) .new ⟨0, 0, 0⟩ =
      .ok (st', s', .ok ()) := by
  obtain ⟨N, hN⟩ := C37_convex_partial (K := ℚ) (fun x => (x - 1) * (x - 1)) (fun x => 2 * (x - 1)) 1 3 (1 / 1000000)
    (by norm_num) (by norm_num) (fun x y _ _ => by nlinarith [mul_self_nonneg (x - y)]) (fun x h => by linarith)
    (by norm_num) (by norm_num)
  refine ⟨N, fun maxIter h => ?_⟩
  obtain ⟨st', s', h1, -⟩ := hN (Demo.plain _ 3 (1 / 1000000) maxIter) (Demo.plain_default _ _ _ _)
    ⟨.BroydenFirst, .inl rfl⟩ rfl rfl h ⟨0, 0, 0⟩ rfl
  exact ⟨st', s', h1⟩

end Nrf
