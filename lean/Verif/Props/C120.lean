import Verif.Proofs.ConvexDamped
import Verif.Props.C117
import Verif.Props.C86

/-!
# C120: on one convex equation Newton-Raphson converges linearly from every guess, damped or not
-/

namespace Nrf
open Spec
open scoped Exact
open Matrix

/-- Exact arithmetic, analytic derivative, absolute residuals, no limits, with or without damping.  For an equation whose
graph lies above its tangents, which all rise, and a guess, there are `C` and `q < 1` such that whatever the tolerance the
solve succeeds if the budget is at least an `N` with `C q ^ N` within it, and the residual after `k` iterations is at most
`C q ^ k`. -/
theorem C120_convex {f f' : ℝ → ℝ} (htan : ∀ x y, f x + f' x * (y - x) ≤ f y) (hpos : ∀ x, 0 < f' x) {r : ℝ}
    (hr : f r = 0) (x0 : ℝ) :
    ∃ C q : ℝ, 0 ≤ C ∧ 0 < q ∧ q < 1 ∧ ∀ c : Config ℝ 1, PlainNewton (undamped c) →
      (∀ v w, (c.iters 0).stepLimitation v (w - v) = w) → c.guess 0 = x0 → ∀ N ≤ c.params.maxIter,
      C * q ^ N ≤ c.params.tolerance → ∀ s : AdapterState ℝ 1, s.right = 0 →
      ∃ st' s', solve c (fromFunctionAndJacobian (fun x _ => f (x 0)) (fun x => Matrix.of fun _ _ => f' (x 0))) .new s =
          .ok (st', s', .ok ()) ∧ |f (s'.inputs 0)| ≤ c.params.tolerance ∧
        |f (s'.inputs 0)| ≤ C * q ^ st'.iter := by
  obtain ⟨a, B, m, M, q, D, E, hb, hq1, -, hD, hDE, hqE, h0⟩ := Tangents.bounds htan hpos hr x0 (le_refl 0)
  have hq0 : 0 < q := by linarith [hb.half]
  have hC : 0 ≤ M * E := mul_nonneg (hb.pos.le.trans hb.le) (hD.trans hDE)
  refine ⟨M * E, q, hC, hq0, hq1, fun c hc hlim hg N hN htol s hs => ?_⟩
  obtain ⟨st', s', h1, h2⟩ := scalar_follow hc hlim (fun x => (hpos x).ne')
    (fun k x => Tangents.Reached r a B D E q k x) (hg ▸ h0)
    (by
      rintro k x x' hI (⟨h, -⟩ | ⟨-, hlt, h⟩)
      · exact hb.step hD hqE hI (.inl h)
      · exact hb.step hD hqE hI (.inr ⟨hlt, h⟩)) s hs
  have h3 := hb.residual hDE h1
  rcases h2 with ⟨h2, h4⟩ | ⟨h2, h4, -⟩
  · exact ⟨st', s', h4, h2, h3⟩
  · refine absurd (h3.trans (le_trans ?_ htol)) (not_le.2 h2)
    exact mul_le_mul_of_nonneg_left (pow_le_pow_of_le_one hq0.le hq1.le (hN.trans h4)) hC

/-- So every tolerance is reached from every guess. -/
theorem C120_every_tolerance {f f' : ℝ → ℝ} (htan : ∀ x y, f x + f' x * (y - x) ≤ f y) (hpos : ∀ x, 0 < f' x) {r : ℝ}
    (hr : f r = 0) (x0 tol : ℝ) (htol : 0 < tol) :
    ∃ N, ∀ c : Config ℝ 1, PlainNewton (undamped c) → (∀ v w, (c.iters 0).stepLimitation v (w - v) = w) →
      c.guess 0 = x0 → c.params.tolerance = tol → N ≤ c.params.maxIter → ∀ s : AdapterState ℝ 1, s.right = 0 →
      ∃ st' s', solve c (fromFunctionAndJacobian (fun x _ => f (x 0)) (fun x => Matrix.of fun _ _ => f' (x 0))) .new s =
          .ok (st', s', .ok ()) ∧ |f (s'.inputs 0)| ≤ tol := by
  obtain ⟨C, q, hC, hq0, hq1, h⟩ := C120_convex htan hpos hr x0
  obtain ⟨N, hN⟩ := exists_pow_lt_of_lt_one (show 0 < tol / (C + 1) by positivity) hq1
  have hle : C * q ^ N ≤ tol := by
    rw [lt_div_iff₀ (by linarith)] at hN
    nlinarith [pow_pos hq0 N]
  refine ⟨N, fun c hc hlim hg ht hmax s hs => ?_⟩
  obtain ⟨st', s', h1, h3, -⟩ := h c hc hlim hg N hmax (ht ▸ hle) s hs
  exact ⟨st', s', h1, ht ▸ h3⟩

/-- With forward differences and without damping, for all displacements up to `P`: the constants depend on the function, the
guess and `P` only. -/
theorem C120_differences {f f' : ℝ → ℝ} (htan : ∀ x y, f x + f' x * (y - x) ≤ f y) (hpos : ∀ x, 0 < f' x) {r : ℝ}
    (hr : f r = 0) (x0 P : ℝ) (hP : 0 ≤ P) :
    ∃ C q : ℝ, 0 ≤ C ∧ 0 < q ∧ q < 1 ∧ ∀ c : Config ℝ 1, PlainNewton c →
      (∀ v w, (c.iters 0).stepLimitation v (w - v) = w) → c.guess 0 = x0 →
      (∀ x, ∃ pert, computePerturbations c.iters x = some pert ∧ 0 < pert 0 ∧ pert 0 ≤ P) → ∀ N ≤ c.params.maxIter,
      C * q ^ N ≤ c.params.tolerance → ∀ s : AdapterState ℝ 1, s.right = 0 →
      ∃ st' s', solve c (fromFunction fun x _ => f (x 0)) .new s = .ok (st', s', .ok ()) ∧ st'.iter ≤ N ∧
        |f (s'.inputs 0)| ≤ c.params.tolerance ∧ |f (s'.inputs 0)| ≤ C * q ^ st'.iter := by
  obtain ⟨a, B, m, M, q, D, E, hb, hq1, hMP, hD, hDE, hqE, hI0⟩ := Tangents.bounds htan hpos hr x0 hP
  have hq0 : 0 < q := by linarith [hb.half]
  have hC : 0 ≤ M * E := mul_nonneg (hb.pos.le.trans hb.le) (hD.trans hDE)
  refine ⟨M * E, q, hC, hq0, hq1, fun c hc hlim hg hpert N hN htol s hs => ?_⟩
  have ht0 : 0 ≤ c.params.tolerance := (mul_nonneg hC (pow_nonneg hq0.le N)).trans htol
  have hamax : ∀ x, amax (errorsAt c (fun x => ⟨fun _ => f (x 0), 0⟩) x) ≤ c.params.tolerance ↔
      |f (x 0)| ≤ c.params.tolerance := by
    intro x
    rw [amax_le_iff _ ht0]
    simp only [hc.errors (fun x _ => f (x 0)) x, abs_abs]
    exact ⟨fun h => h 0, fun h _ => h⟩
  obtain ⟨st', s', x, h1, h2, h3, h4, h5⟩ := newton_run hc.exact hc.method hc.damping
    (fromFunction_computes (fun x _ => f (x 0)) 0) (fun k x => Tangents.Reached r a B D E q k (x 0)) N hN
    (fun _ _ _ => trivial) (by rw [hg]; exact hI0)
    (fun k x _ hI => by
      obtain ⟨pert, hp, hp0, hpP⟩ := hpert x
      have hxB : x 0 ≤ B := by
        rcases hI with ⟨-, h, -⟩ | ⟨-, h, -⟩
        · exact h.trans hb.right
        · exact h
      obtain ⟨k1, k2⟩ := hb.forward hp0 hpP hMP hxB
      obtain ⟨σ, hσ⟩ : ∃ σ, σ = (f (x 0 + pert 0) - f (x 0)) / pert 0 := ⟨_, rfl⟩
      rw [← hσ] at k1 k2
      have hσ0 : σ ≠ 0 := ((hpos _).trans_le k1).ne'
      have hsrc := Source.fd (c := c) (D := fun _ => True) (x := x) (pert := pert)
        (fromFunction_underived (fun x _ => f (x 0)) 0) hp (fun i => by rw [Subsingleton.elim i 0]; exact hp0.ne')
        (fun _ => trivial)
      have e : differencesAt c (fun x => ⟨fun _ => f (x 0), 0⟩) pert x = Matrix.of fun _ _ => σ := by
        ext i k
        rw [Subsingleton.elim k 0, differencesAt, hc.update (fun x _ => f (x 0)), hc.update (fun x _ => f (x 0)), moved_eq]
        rw [Matrix.of_apply, hσ]
        simp only [Pi.add_apply, Pi.single_eq_same]
        rfl
      rw [e] at hsrc
      refine ⟨pert, _, fun _ => x 0 - f (x 0) / σ, hsrc, one_det hσ0, ?_, ?_, hb.steeper hD hqE hI k1 k2⟩
      · rw [hc.update (fun x _ => f (x 0)), one_solve hσ0]
        funext i
        rw [Subsingleton.elim i 0]
        rfl
      · intro z _ i
        rw [Subsingleton.elim i 0]
        exact hlim _ _)
    (fun x hI => (hamax x).2 ((hb.residual hDE hI).trans htol)) s hs
  obtain rfl : s'.inputs = x := h3.iteratives
  exact ⟨st', s', h1, h2, (hamax _).1 h5, hb.residual hDE h4⟩

namespace Demo

/-- `C120_every_tolerance` applies to `eˣ - 1` with damping, from every guess. -/
example (guess tol : ℝ) (htol : 0 < tol) : ∃ N, ∃ st' s', solve (dampedReal guess tol N) (fromFunctionAndJacobian
    (fun x _ => Real.exp (x 0) - 1) (fun x => Matrix.of fun _ _ => Real.exp (x 0))) .new ⟨0, 0, 0⟩ = .ok (st', s', .ok ()) ∧
      |Real.exp (s'.inputs 0) - 1| ≤ tol := by
  obtain ⟨N, h⟩ := C120_every_tolerance (f := fun x => Real.exp x - 1) (f' := Real.exp) (r := 0)
    (fun x y => by have := DemoReal.exp_tangent x y; linarith) Real.exp_pos (by simp) guess tol htol
  obtain ⟨st', s', h1, h2⟩ := h (dampedReal guess tol N) (dampedReal_newton _ _ _) (fun v w => add_sub_cancel v w) rfl rfl
    le_rfl ⟨0, 0, 0⟩ rfl
  exact ⟨N, st', s', h1, h2⟩

/-- `C120_differences` applies to `eˣ - 1` with the displacement 1, from every guess. -/
example (guess tol : ℝ) (htol : 0 < tol) : ∃ N, ∃ st' s', solve (displacedReal guess tol 1 N .NewtonRaphson)
    (fromFunction fun x _ => Real.exp (x 0) - 1) .new ⟨0, 0, 0⟩ = .ok (st', s', .ok ()) ∧
      |Real.exp (s'.inputs 0) - 1| ≤ tol := by
  obtain ⟨C, q, hC, hq0, hq1, h⟩ := C120_differences (f := fun x => Real.exp x - 1) (f' := Real.exp) (r := 0)
    (fun x y => by have := DemoReal.exp_tangent x y; linarith) Real.exp_pos (by simp) guess 1 zero_le_one
  obtain ⟨N, hN⟩ := exists_pow_lt_of_lt_one (show 0 < tol / (C + 1) by positivity) hq1
  have hle : C * q ^ N ≤ tol := by
    rw [lt_div_iff₀ (by linarith)] at hN
    nlinarith [pow_pos hq0 N]
  obtain ⟨st', s', h1, -, h2, -⟩ := h (displacedReal guess tol 1 N .NewtonRaphson)
    ⟨exactLinAlg_isExact ℝ 1, rfl, rfl, fun _ => rfl, fun _ => rfl⟩ (fun v w => add_sub_cancel v w) rfl
    (fun x => ⟨fun _ => 1, by simp [computePerturbations, displacedReal]; rfl, by norm_num, le_rfl⟩) N le_rfl hle ⟨0, 0, 0⟩ rfl
  exact ⟨N, st', s', h1, h2⟩

end Demo
end Nrf
