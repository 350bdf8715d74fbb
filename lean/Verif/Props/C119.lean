import Verif.Proofs.ConvexStationary
import Verif.Props.C117
import Mathlib.Analysis.Convex.SpecificFunctions.Basic
import Mathlib.Analysis.Complex.ExponentialBounds

/-!
# C119: stationary Newton solves a convex equation from above, and may cycle from below
-/

namespace Nrf
open Spec
open scoped Exact
open Matrix

section
variable {f f' : ℝ → ℝ} {r : ℝ} {c : Config ℝ 1}

/-- Exact arithmetic, finite differences, absolute residuals, no damping, one increasing convex equation.  From every guess
at or above the root, whatever the size of the perturbation, the solve succeeds within `N` iterations, where `N` times the
tolerance is the distance to the root times the slope kept from the guess.  The points never leave the interval between the
root and the guess. -/
theorem C119_differences (hf : ConvexOn ℝ Set.univ f) (hmono : StrictMono f) (hr : f r = 0) (hc : PlainStationary c)
    (hg : r ≤ c.guess 0) {pert : Vec ℝ 1} (hp : computePerturbations c.iters c.guess = some pert) (hp0 : 0 < pert 0)
    {N : ℕ} (hN0 : 0 < N) (hmax : N ≤ c.params.maxIter)
    (hN : (f (c.guess 0 + pert 0) - f (c.guess 0)) / pert 0 * (c.guess 0 - r) ≤ N * c.params.tolerance)
    (htol : 0 ≤ c.params.tolerance)
    (hlim : ∀ v w, r ≤ v → v ≤ c.guess 0 + pert 0 → r ≤ w → w ≤ c.guess 0 → (c.iters 0).stepLimitation v (w - v) = w)
    (s : AdapterState ℝ 1) (hs : s.right = 0) :
    ∃ st' s', solve c (fromFunction fun x _ => f (x 0)) .new s = .ok (st', s', .ok ()) ∧ st'.iter ≤ N ∧
      r ≤ s'.inputs 0 ∧ s'.inputs 0 ≤ c.guess 0 ∧ 0 ≤ f (s'.inputs 0) ∧ f (s'.inputs 0) ≤ c.params.tolerance := by
  obtain ⟨σ, hσ⟩ : ∃ σ, σ = (f (c.guess 0 + pert 0) - f (c.guess 0)) / pert 0 := ⟨_, rfl⟩
  have hσ0 : 0 < σ := by rw [hσ]; exact div_pos (sub_pos.2 (hmono (by linarith))) hp0
  have hsteep : ∀ x, r ≤ x → x ≤ c.guess 0 → f x ≤ σ * (x - r) :=
    fun x h1 h2 => by rw [hσ]; exact FixedSlope.steep_chord hf hr hp0 h1 h2
  rw [← hσ] at hN
  obtain ⟨st', s', h1, h2, h3, h4⟩ := stationary_run_differences hc (fun x _ => f (x 0)) hp
    (fun i => by rw [Subsingleton.elim i 0]; exact hp0.ne') (M := Matrix.of fun _ _ => σ)
    (fun i k => by
      rw [Subsingleton.elim k 0, Matrix.of_apply, hσ]
      simp only [Pi.add_apply, Pi.single_eq_same])
    (fun k x => FixedSlope.Reached f r (c.guess 0) σ k (x 0)) N hmax ⟨hg, le_rfl, by simp⟩ (one_det hσ0.ne')
    (fun k x x' _ hI hx' => by
      rw [one_solve hσ0.ne'] at hx'
      subst hx'
      have hI' := hI.step hmono.monotone hr hσ0 hsteep
      refine ⟨hI', fun i => ?_, fun hx l i => ?_⟩
      · rw [Subsingleton.elim i 0]
        exact hlim _ _ hI.low (by linarith [hI.high]) hI'.low hI'.high
      · rw [Subsingleton.elim i 0, Subsingleton.elim l 0]
        have e : (x + Pi.single 0 (pert 0) : Vec ℝ 1) 0 = x 0 + pert 0 := by simp
        rw [e]
        exact hlim _ _ (by linarith [hI.low]) (by linarith [hI.high]) hI'.low hI'.high)
    (fun x hI _ => by
      rw [abs_of_nonneg (hr ▸ hmono.monotone hI.low)]
      exact hI.small hσ0 hN0 hN) htol s hs
  have h5 : 0 ≤ f (s'.inputs 0) := hr ▸ hmono.monotone h3.low
  have h6 := h4 0
  rw [abs_of_nonneg h5] at h6
  exact ⟨st', s', h1, h2, h3.low, h3.high, h5, h6⟩

/-- The same with the derivative at the guess; the Jacobian function is used nowhere else. -/
theorem C119_analytic (hf : ConvexOn ℝ Set.univ f) (hmono : StrictMono f) (hr : f r = 0) (hc : PlainStationary c)
    (hg : r ≤ c.guess 0) (hd : HasDerivAt f (f' (c.guess 0)) (c.guess 0)) {N : ℕ} (hN0 : 0 < N)
    (hmax : N ≤ c.params.maxIter) (hN : f' (c.guess 0) * (c.guess 0 - r) ≤ N * c.params.tolerance)
    (htol : 0 ≤ c.params.tolerance)
    (hlim : ∀ v w, r ≤ v → v ≤ c.guess 0 → r ≤ w → w ≤ c.guess 0 → (c.iters 0).stepLimitation v (w - v) = w)
    (s : AdapterState ℝ 1) (hs : s.right = 0) :
    ∃ st' s', solve c (fromFunctionAndJacobian (fun x _ => f (x 0)) (fun x => Matrix.of fun _ _ => f' (x 0))) .new s =
        .ok (st', s', .ok ()) ∧ st'.iter ≤ N ∧
      r ≤ s'.inputs 0 ∧ s'.inputs 0 ≤ c.guess 0 ∧ 0 ≤ f (s'.inputs 0) ∧ f (s'.inputs 0) ≤ c.params.tolerance := by
  have hσ0 := FixedSlope.tangent_pos hf hmono hd
  have hsteep : ∀ x, r ≤ x → x ≤ c.guess 0 → f x ≤ f' (c.guess 0) * (x - r) :=
    fun x h1 h2 => FixedSlope.steep_tangent hf hr hd h1 h2
  obtain ⟨st', s', h1, h2, h3, h4⟩ := stationary_run_function hc (fun x _ => f (x 0))
    (fun x => Matrix.of fun _ _ => f' (x 0)) (fun k x => FixedSlope.Reached f r (c.guess 0) (f' (c.guess 0)) k (x 0)) N hmax
    ⟨hg, le_rfl, by simp⟩ (one_det hσ0.ne')
    (fun k x _ hI => by
      have hI' := hI.step hmono.monotone hr hσ0 hsteep
      rw [one_solve hσ0.ne']
      refine ⟨fun i => ?_, hI'⟩
      rw [Subsingleton.elim i 0]
      have := hlim (x 0) (x 0 - f (x 0) / f' (c.guess 0)) hI.low hI.high hI'.low hI'.high
      rwa [sub_sub_cancel_left] at this)
    (fun x hI _ => by
      rw [abs_of_nonneg (hr ▸ hmono.monotone hI.low)]
      exact hI.small hσ0 hN0 hN) htol s hs
  have h5 : 0 ≤ f (s'.inputs 0) := hr ▸ hmono.monotone h3.low
  have h6 := h4 0
  rw [abs_of_nonneg h5] at h6
  exact ⟨st', s', h1, h2, h3.low, h3.high, h5, h6⟩

end

namespace Elbow

/-- Slope 1 up to -1/3 and slope 4 beyond; root 0. -/
noncomputable def f (x : ℝ) : ℝ := max (x - 1) (4 * x)

theorem convex : ConvexOn ℝ Set.univ f := by
  refine ⟨convex_univ, fun x _ y _ a b ha hb hab => ?_⟩
  simp only [f, smul_eq_mul]
  refine max_le ?_ ?_
  · have h1 := mul_le_mul_of_nonneg_left (le_max_left (x - 1) (4 * x)) ha
    have h2 := mul_le_mul_of_nonneg_left (le_max_left (y - 1) (4 * y)) hb
    linarith
  · have h1 := mul_le_mul_of_nonneg_left (le_max_right (x - 1) (4 * x)) ha
    have h2 := mul_le_mul_of_nonneg_left (le_max_right (y - 1) (4 * y)) hb
    linarith

theorem mono : StrictMono f := fun x y h => max_lt_max (by linarith) (by linarith)

end Elbow

/-- Below the root this fails: an increasing convex equation for which stationary Newton alternates between -3 and 1 for ever, with every displacement up to 2, every budget and every
tolerance below 4. -/
theorem C119_below : ∃ f : ℝ → ℝ, ConvexOn ℝ Set.univ f ∧ StrictMono f ∧ f 0 = 0 ∧ ∀ c : Config ℝ 1, PlainStationary c →
    (∀ v w, (c.iters 0).stepLimitation v (w - v) = w) → c.guess 0 = -3 →
    (∃ pert, computePerturbations c.iters c.guess = some pert ∧ 0 < pert 0 ∧ pert 0 ≤ 2) → c.params.tolerance < 4 →
    ∀ s : AdapterState ℝ 1, s.right = 0 →
    ∃ st' s', solve c (fromFunction fun x _ => f (x 0)) .new s = .ok (st', s', .error .nonConvergence) ∧
      st'.iter = c.params.maxIter ∧ (s'.inputs 0 = -3 ∨ s'.inputs 0 = 1) := by
  have f1 : Elbow.f (-3) = -4 := by norm_num [Elbow.f]
  have f2 : Elbow.f 1 = 4 := by norm_num [Elbow.f]
  refine ⟨Elbow.f, Elbow.convex, Elbow.mono, by norm_num [Elbow.f], fun c hc hlim hg ⟨pert, hp, hp0, hp2⟩ htol s hs => ?_⟩
  have f3 : Elbow.f (-3 + pert 0) = -4 + pert 0 := by
    rw [Elbow.f, max_eq_left (by linarith)]
    ring
  refine stationary_fails hc hlim hp hp0.ne' (σ := 1) one_ne_zero ?_ (fun x => x = -3 ∨ x = 1) (.inl hg) ?_ ?_ s hs
  · rw [hg, f3, f1, show -4 + pert 0 - -4 = pert 0 by ring, div_self hp0.ne']
  · rintro x (rfl | rfl)
    · right; rw [f1]; norm_num
    · left; rw [f2]; norm_num
  · rintro x (rfl | rfl)
    · rw [f1]; norm_num; exact htol
    · rw [f2]; norm_num; exact htol

namespace Demo

/-- `C119_differences` applies to the same equation from 1 with the displacement 1000: the slope is 4, and 400 iterations
suffice for the tolerance 1/100. -/
example : ∃ st' s', solve (displacedReal 1 (1 / 100) 1000 400 (.QuasiNewton .StationaryNewton))
    (fromFunction fun x _ => Elbow.f (x 0)) .new ⟨0, 0, 0⟩ = .ok (st', s', .ok ()) ∧ st'.iter ≤ 400 := by
  obtain ⟨st', s', h1, h2, -⟩ := C119_differences (r := 0)
    (c := displacedReal 1 (1 / 100) 1000 400 (.QuasiNewton .StationaryNewton)) (pert := fun _ => 1000) (N := 400)
    Elbow.convex Elbow.mono (by norm_num [Elbow.f]) ⟨exactLinAlg_isExact ℝ 1, rfl, rfl, fun _ => rfl, fun _ => rfl⟩
    (by simp [displacedReal]) (by simp [computePerturbations, displacedReal]; rfl) (by norm_num) (by norm_num) le_rfl
    (by norm_num [Elbow.f, displacedReal]) (by norm_num [displacedReal]) (fun v w _ _ _ _ => add_sub_cancel v w) ⟨0, 0, 0⟩ rfl
  exact ⟨st', s', h1, h2⟩

/-- `C119_analytic` applies to `eˣ - 1` from 1. -/
example : ∃ st' s', solve (displacedReal 1 (1 / 10) 0 28 (.QuasiNewton .StationaryNewton)) (fromFunctionAndJacobian
    (fun x _ => Real.exp (x 0) - 1) (fun x => Matrix.of fun _ _ => Real.exp (x 0))) .new ⟨0, 0, 0⟩ = .ok (st', s', .ok ()) ∧
      st'.iter ≤ 28 := by
  obtain ⟨st', s', h1, h2, -⟩ := C119_analytic (r := 0) (f := fun x => Real.exp x - 1) (f' := Real.exp)
    (c := displacedReal 1 (1 / 10) 0 28 (.QuasiNewton .StationaryNewton)) (N := 28)
    (by simp only [sub_eq_add_neg]; exact convexOn_exp.add_const (-1)) (fun x y h => sub_lt_sub_right (Real.exp_lt_exp.2 h) 1)
    (by simp) ⟨exactLinAlg_isExact ℝ 1, rfl, rfl, fun _ => rfl, fun _ => rfl⟩
    (by simp [displacedReal]) ((Real.hasDerivAt_exp _).sub_const 1) (by norm_num) le_rfl
    (by
      change Real.exp 1 * (1 - 0) ≤ ((28 : ℕ) : ℝ) * (1 / 10)
      have := Real.exp_one_lt_d9
      norm_num
      linarith) (by norm_num [displacedReal])
    (fun v w _ _ _ _ => add_sub_cancel v w) ⟨0, 0, 0⟩ rfl
  exact ⟨st', s', h1, h2⟩

/-- `C119_below` applies from -3 with the displacement 1. -/
example : PlainStationary (displacedReal (-3) 1 1 50 (.QuasiNewton .StationaryNewton)) ∧
    ∃ pert, computePerturbations (displacedReal (-3) 1 1 50 (.QuasiNewton .StationaryNewton)).iters
      (displacedReal (-3) 1 1 50 (.QuasiNewton .StationaryNewton)).guess = some pert ∧ 0 < pert 0 ∧ pert 0 ≤ 2 :=
  ⟨⟨exactLinAlg_isExact ℝ 1, rfl, rfl, fun _ => rfl, fun _ => rfl⟩, fun _ => 1,
    by simp [computePerturbations, displacedReal]; rfl, by norm_num, by norm_num⟩

end Demo
end Nrf
