import Verif.Proofs.ChordScalar
import Verif.Props.C116

/-!
# C117: one nearly linear equation, every guess, every displacement
-/

namespace Nrf
open Spec
open scoped Exact
open Matrix

section
variable {f f' : ℝ → ℝ} {μ M : ℝ} {c : Config ℝ 1}

/-- Newton-Raphson with finite differences, for one equation whose chords have slopes between `μ` and `M < 2 μ`: it
converges from every guess, whatever the displacements `dx`, as long as they are not zero. -/
theorem C117_differences (h : Chords f μ M) (hM : M < 2 * μ) (hc : PlainNewton c)
    (hlim : ∀ v w, (c.iters 0).stepLimitation v (w - v) = w)
    (hpert : ∀ x, ∃ pert, computePerturbations c.iters x = some pert ∧ pert 0 ≠ 0) {N : Nat} (hN : N ≤ c.params.maxIter)
    (htol : max (1 - μ / M) (M / μ - 1) ^ N * |f (c.guess 0)| ≤ c.params.tolerance) (s : AdapterState ℝ 1)
    (hs : s.right = 0) :
    ∃ st' s', solve c (fromFunction fun x _ => f (x 0)) .new s = .ok (st', s', .ok ()) ∧ st'.iter ≤ N ∧
      |f (s'.inputs 0)| ≤ c.params.tolerance ∧
      |f (s'.inputs 0)| ≤ max (1 - μ / M) (M / μ - 1) ^ st'.iter * |f (c.guess 0)| := by
  obtain ⟨hq0, hq1⟩ := h.factor hM
  obtain ⟨q, hq⟩ : ∃ q, q = max (1 - μ / M) (M / μ - 1) := ⟨_, rfl⟩
  have hcut := fun σ h1 h2 x => h.cut (σ := σ) h1 h2 x
  rw [← hq] at hq0 hq1 htol
  simp only [← hq] at hcut ⊢
  have ht0 : 0 ≤ c.params.tolerance := (mul_nonneg (pow_nonneg hq0 N) (abs_nonneg _)).trans htol
  have hamax : ∀ x, amax (errorsAt c (fun x => ⟨fun _ => f (x 0), 0⟩) x) ≤ c.params.tolerance ↔
      |f (x 0)| ≤ c.params.tolerance := by
    intro x
    rw [amax_le_iff _ ht0]
    simp only [hc.errors (fun x _ => f (x 0)) x, abs_abs]
    exact ⟨fun h => h 0, fun h _ => h⟩
  obtain ⟨st', s', x, h1, h2, h3, h4, h5⟩ := newton_run hc.exact hc.method hc.damping
    (fromFunction_computes (fun x _ => f (x 0)) 0) (fun k x => |f (x 0)| ≤ q ^ k * |f (c.guess 0)|) N hN
    (fun _ _ _ => trivial) (by simp)
    (fun k x _ hI => by
      obtain ⟨pert, hp, hp0⟩ := hpert x
      obtain ⟨k1, k2⟩ := h.quotient (x 0) hp0
      obtain ⟨σ, hσ⟩ : ∃ σ, σ = (f (x 0 + pert 0) - f (x 0)) / pert 0 := ⟨_, rfl⟩
      rw [← hσ] at k1 k2
      have hσ0 : σ ≠ 0 := (h.pos.trans_le k1).ne'
      have hsrc := Source.fd (c := c) (D := fun _ => True) (x := x) (pert := pert)
        (fromFunction_underived (fun x _ => f (x 0)) 0) hp (fun i => by rw [Subsingleton.elim i 0]; exact hp0)
        (fun _ => trivial)
      have e : differencesAt c (fun x => ⟨fun _ => f (x 0), 0⟩) pert x = Matrix.of fun _ _ => σ := by
        ext i k
        rw [Subsingleton.elim k 0, differencesAt, hc.update (fun x _ => f (x 0)), hc.update (fun x _ => f (x 0)), moved_eq]
        rw [Matrix.of_apply, hσ]
        simp only [Pi.add_apply, Pi.single_eq_same]
        rfl
      rw [e] at hsrc
      refine ⟨pert, _, fun _ => x 0 - f (x 0) / σ, hsrc, one_det hσ0, ?_, ?_, ?_⟩
      · rw [hc.update (fun x _ => f (x 0)), one_solve hσ0]
        funext i
        rw [Subsingleton.elim i 0]
        rfl
      · intro z _ i
        rw [Subsingleton.elim i 0]
        exact hlim _ _
      · refine (hcut σ k1 k2 (x 0)).trans ((mul_le_mul_of_nonneg_left hI hq0).trans_eq ?_)
        rw [pow_succ]; ring)
    (fun x hI => (hamax x).2 (hI.trans htol)) s hs
  obtain rfl : s'.inputs = x := h3.iteratives
  exact ⟨st', s', h1, h2, (hamax _).1 h5, h4⟩

/-- Stationary Newton with the derivative at the guess. -/
theorem C117_stationary (h : Slopes f f' μ M) (hM : M < 2 * μ) (hc : PlainStationary c)
    (hlim : ∀ v w, (c.iters 0).stepLimitation v (w - v) = w) {N : Nat} (hN : N ≤ c.params.maxIter)
    (htol : max (1 - μ / M) (M / μ - 1) ^ N * |f (c.guess 0)| ≤ c.params.tolerance) (s : AdapterState ℝ 1)
    (hs : s.right = 0) :
    ∃ st' s', solve c (fromFunctionAndJacobian (fun x _ => f (x 0)) (fun x => Matrix.of fun _ _ => f' (x 0))) .new s =
        .ok (st', s', .ok ()) ∧ st'.iter ≤ N ∧ |f (s'.inputs 0)| ≤ c.params.tolerance ∧
      |f (s'.inputs 0)| ≤ max (1 - μ / M) (M / μ - 1) ^ st'.iter * |f (c.guess 0)| := by
  obtain ⟨hq0, hq1⟩ := h.chords.factor hM
  obtain ⟨q, hq⟩ : ∃ q, q = max (1 - μ / M) (M / μ - 1) := ⟨_, rfl⟩
  have hcut := fun σ h1 h2 x => h.chords.cut (σ := σ) h1 h2 x
  rw [← hq] at hq0 hq1 htol
  simp only [← hq] at hcut ⊢
  have ht0 : 0 ≤ c.params.tolerance := (mul_nonneg (pow_nonneg hq0 N) (abs_nonneg _)).trans htol
  have hσ0 : f' (c.guess 0) ≠ 0 := (h.pos.trans_le (h.low _)).ne'
  obtain ⟨st', s', h1, h2, h3, h4⟩ := stationary_run_function hc (fun x _ => f (x 0))
    (fun x => Matrix.of fun _ _ => f' (x 0)) (fun k x => |f (x 0)| ≤ q ^ k * |f (c.guess 0)|) N hN (by simp) (one_det hσ0)
    (fun k x _ hI => by
      rw [one_solve hσ0]
      refine ⟨fun i => ?_, ?_⟩
      · rw [Subsingleton.elim i 0]
        have := hlim (x 0) (x 0 - f (x 0) / f' (c.guess 0))
        rwa [sub_sub_cancel_left] at this
      · refine (hcut _ (h.low _) (h.high _) (x 0)).trans ((mul_le_mul_of_nonneg_left hI hq0).trans_eq ?_)
        rw [pow_succ]; ring)
    (fun x hI _ => hI.trans htol) ht0 s hs
  exact ⟨st', s', h1, h2, h4 0, h3⟩

/-- Stationary Newton with the finite difference at the guess. -/
theorem C117_stationary_differences (h : Chords f μ M) (hM : M < 2 * μ) (hc : PlainStationary c)
    (hlim : ∀ v w, (c.iters 0).stepLimitation v (w - v) = w)
    (hpert : ∃ pert, computePerturbations c.iters c.guess = some pert ∧ pert 0 ≠ 0) {N : Nat} (hN : N ≤ c.params.maxIter)
    (htol : max (1 - μ / M) (M / μ - 1) ^ N * |f (c.guess 0)| ≤ c.params.tolerance) (s : AdapterState ℝ 1)
    (hs : s.right = 0) :
    ∃ st' s', solve c (fromFunction fun x _ => f (x 0)) .new s = .ok (st', s', .ok ()) ∧ st'.iter ≤ N ∧
      |f (s'.inputs 0)| ≤ c.params.tolerance ∧
      |f (s'.inputs 0)| ≤ max (1 - μ / M) (M / μ - 1) ^ st'.iter * |f (c.guess 0)| := by
  obtain ⟨hq0, hq1⟩ := h.factor hM
  obtain ⟨q, hq⟩ : ∃ q, q = max (1 - μ / M) (M / μ - 1) := ⟨_, rfl⟩
  have hcut := fun σ h1 h2 x => h.cut (σ := σ) h1 h2 x
  rw [← hq] at hq0 hq1 htol
  simp only [← hq] at hcut ⊢
  have ht0 : 0 ≤ c.params.tolerance := (mul_nonneg (pow_nonneg hq0 N) (abs_nonneg _)).trans htol
  obtain ⟨pert, hp, hp0⟩ := hpert
  obtain ⟨k1, k2⟩ := h.quotient (c.guess 0) hp0
  obtain ⟨σ, hσ⟩ : ∃ σ, σ = (f (c.guess 0 + pert 0) - f (c.guess 0)) / pert 0 := ⟨_, rfl⟩
  rw [← hσ] at k1 k2
  have hσ0 : σ ≠ 0 := (h.pos.trans_le k1).ne'
  obtain ⟨st', s', h1, h2, h3, h4⟩ := stationary_run_differences hc (fun x _ => f (x 0)) hp
    (fun i => by rw [Subsingleton.elim i 0]; exact hp0) (M := Matrix.of fun _ _ => σ)
    (fun i k => by
      rw [Subsingleton.elim k 0, Matrix.of_apply, hσ]
      simp only [Pi.add_apply, Pi.single_eq_same])
    (fun k x => |f (x 0)| ≤ q ^ k * |f (c.guess 0)|) N hN (by simp) (one_det hσ0)
    (fun k x x' _ hI hx' => by
      rw [one_solve hσ0] at hx'
      subst hx'
      refine ⟨?_, fun i => ?_, fun _ l i => ?_⟩
      · refine (hcut _ k1 k2 (x 0)).trans ((mul_le_mul_of_nonneg_left hI hq0).trans_eq ?_)
        rw [pow_succ]; ring
      · rw [Subsingleton.elim i 0]
        exact hlim _ _
      · rw [Subsingleton.elim i 0]
        exact hlim _ _)
    (fun x hI _ => hI.trans htol) ht0 s hs
  exact ⟨st', s', h1, h2, h4 0, h3⟩

end

namespace Bend

/-- The line of slope 2 between -1 and 1, continued with slope 1. -/
noncomputable def f (x : ℝ) : ℝ := x + max (-1) (min x 1)

noncomputable def f' (x : ℝ) : ℝ := if |x| < 1 then 2 else 1

theorem mono {x y : ℝ} (h : x ≤ y) : 0 ≤ max (-1) (min y 1) - max (-1) (min x 1) ∧
    max (-1) (min y 1) - max (-1) (min x 1) ≤ y - x := by
  constructor
  · have := max_le_max_left (-1) (min_le_min_right 1 h)
    linarith
  · rcases max_cases (-1) (min y 1) with ⟨a, b⟩ | ⟨a, b⟩ <;> rcases max_cases (-1) (min x 1) with ⟨a', b'⟩ | ⟨a', b'⟩ <;>
      rcases min_cases y 1 with ⟨e, g⟩ | ⟨e, g⟩ <;> rcases min_cases x 1 with ⟨e', g'⟩ | ⟨e', g'⟩ <;>
      rw [a, a'] <;> linarith

theorem chords : Chords f 1 2 := by
  refine ⟨one_pos, fun x y => ?_⟩
  rcases lt_trichotomy x y with h | rfl | h
  · obtain ⟨h1, h2⟩ := mono h.le
    have h0 : 0 < y - x := sub_pos.2 h
    refine ⟨(f y - f x) / (y - x), ?_, ?_, (div_mul_cancel₀ _ h0.ne').symm⟩
    · rw [le_div_iff₀ h0, f, f]; linarith
    · rw [div_le_iff₀ h0, f, f]; linarith
  · exact ⟨1, le_rfl, by norm_num, by simp⟩
  · obtain ⟨h1, h2⟩ := mono h.le
    have h0 : 0 < x - y := sub_pos.2 h
    refine ⟨(f x - f y) / (x - y), ?_, ?_, ?_⟩
    · rw [le_div_iff₀ h0, f, f]; linarith
    · rw [div_le_iff₀ h0, f, f]; linarith
    · have := div_mul_cancel₀ (f x - f y) h0.ne'
      linarith

theorem straight : StraightOnOneSide f f' := by
  intro x
  by_cases hx : |x| < 1
  · obtain ⟨h1, h2⟩ := abs_lt.1 hx
    refine .inl ⟨1, h2, fun z hz hz' => ?_⟩
    rw [f', if_pos hx, f, f, min_eq_left hz', min_eq_left h2.le, max_eq_right (by linarith), max_eq_right (by linarith)]
    ring
  · rw [f', if_neg hx]
    rcases le_abs.1 (not_lt.1 hx) with h | h
    · refine .inl ⟨x + 1, by linarith, fun z hz _ => ?_⟩
      rw [f, f, min_eq_right h, min_eq_right (h.trans hz)]
      ring
    · refine .inr ⟨x - 1, by linarith, fun z _ hz => ?_⟩
      rw [f, f, min_eq_left (by linarith), min_eq_left (by linarith), max_eq_left (by linarith), max_eq_left (by linarith)]
      ring

end Bend

/-- The bound `M < 2 μ` is needed: a function with chords of slopes between 1 and 2, whose given derivative is its slope on
one side, and which Newton-Raphson does not solve from 1, with or without damping, with any budget and any tolerance below
2. -/
theorem C117_sharp : ∃ f f' : ℝ → ℝ, Chords f 1 2 ∧ StraightOnOneSide f f' ∧ f 0 = 0 ∧ ∀ c : Config ℝ 1,
    PlainNewton (undamped c) → (∀ v w, (c.iters 0).stepLimitation v (w - v) = w) →
    c.guess 0 = 1 → c.params.tolerance < 2 → ∀ s : AdapterState ℝ 1, s.right = 0 →
    ∃ st' s', solve c (fromFunctionAndJacobian (fun x _ => f (x 0)) (fun x => Matrix.of fun _ _ => f' (x 0))) .new s =
      .ok (st', s', .error .nonConvergence) ∧ |f (s'.inputs 0)| = |f (c.guess 0)| := by
  have f1 : Bend.f 1 = 2 := by norm_num [Bend.f]
  have f2 : Bend.f (-1) = -2 := by norm_num [Bend.f]
  have d1 : Bend.f' 1 = 1 := by norm_num [Bend.f']
  have d2 : Bend.f' (-1) = 1 := by norm_num [Bend.f']
  refine ⟨Bend.f, Bend.f', Bend.chords, Bend.straight, by norm_num [Bend.f], fun c hc hlim hg htol s hs => ?_⟩
  have habs : ∀ x, x = 1 ∨ x = -1 → |Bend.f x| = 2 := by
    rintro x (rfl | rfl)
    · rw [f1]; norm_num
    · rw [f2]; norm_num
  obtain ⟨st', s', h1, h2⟩ := scalar_follow (f := Bend.f) (f' := Bend.f') hc hlim
    (fun x => by rw [Bend.f']; split <;> norm_num) (fun _ x => x = 1 ∨ x = -1) (.inl hg)
    (by
      rintro k x x' (rfl | rfl) (⟨rfl, -⟩ | ⟨-, hlt, -⟩)
      · right; rw [f1, d1]; norm_num
      · rw [f1, d1] at hlt; norm_num [f2] at hlt
      · left; rw [f2, d2]; norm_num
      · rw [f2, d2] at hlt; norm_num [f1] at hlt) s hs
  rcases h2 with ⟨h2, -⟩ | ⟨-, -, h3⟩
  · rw [habs _ h1] at h2
    linarith
  · exact ⟨st', s', h3, by rw [habs _ h1, hg, habs _ (.inl rfl)]⟩

namespace Demo

/-- No limits, real numbers, the displacement `dx` for every value. -/
noncomputable def displacedReal (guess tol dx : ℝ) (maxIter : Nat) (method : ResolutionMethod) : Config ℝ 1 where
  params := { problemSize := 1, tolerance := tol, maxIter, method, damping := false }
  guess := fun _ => guess
  iters := fun _ => { stepLimitation := fun v d => v + d, computePerturbation := some fun _ => dx, withFiniteDiff := true }
  res := { stop := fun _ => .Abs, upd := fun _ => .Abs }
  la := exactLinAlg ℝ 1

/-- `5 x + |x|` has chords with slopes between 4 and 6, and a corner at its root. -/
theorem corner_chords : Chords (fun x => 5 * x + |x|) 4 6 := by
  refine ⟨by norm_num, fun x y => ?_⟩
  rcases eq_or_ne x y with rfl | h
  · exact ⟨4, le_rfl, by norm_num, by simp⟩
  · have h0 : y - x ≠ 0 := sub_ne_zero.2 h.symm
    refine ⟨5 + (|y| - |x|) / (y - x), ?_, ?_, ?_⟩
    · have : |(|y| - |x|) / (y - x)| ≤ 1 := by
        rw [abs_div, div_le_one (abs_pos.2 h0)]; exact abs_abs_sub_abs_le y x
      have := (abs_le.1 this).1
      linarith
    · have : |(|y| - |x|) / (y - x)| ≤ 1 := by
        rw [abs_div, div_le_one (abs_pos.2 h0)]; exact abs_abs_sub_abs_le y x
      have := (abs_le.1 this).2
      linarith
    · rw [add_mul, div_mul_cancel₀ _ h0]
      change 5 * y + |y| - (5 * x + |x|) = _
      ring

/-- `C117_differences` and `C117_stationary_differences` apply to `5 x + |x|` from 1 with the displacement 1000: the factor
is 1/2. -/
example : (∃ st' s', solve (displacedReal 1 (1 / 10 ^ 6) 1000 23 .NewtonRaphson) (fromFunction fun x _ => 5 * x 0 + |x 0|)
      .new ⟨0, 0, 0⟩ = .ok (st', s', .ok ()) ∧ st'.iter ≤ 23) ∧
    ∃ st' s', solve (displacedReal 1 (1 / 10 ^ 6) 1000 23 (.QuasiNewton .StationaryNewton))
      (fromFunction fun x _ => 5 * x 0 + |x 0|) .new ⟨0, 0, 0⟩ = .ok (st', s', .ok ()) ∧ st'.iter ≤ 23 := by
  have ht : max (1 - 4 / 6) (6 / 4 - 1) ^ 23 * abs (5 * (1 : ℝ) + abs (1 : ℝ)) ≤ 1 / 10 ^ 6 := by
    rw [show max (1 - 4 / 6) (6 / 4 - 1) = (1 / 2 : ℝ) by norm_num]
    norm_num
  have hp : ∀ (method : ResolutionMethod) (x : Vec ℝ 1), ∃ pert,
      computePerturbations (displacedReal 1 (1 / 10 ^ 6) 1000 23 method).iters x = some pert ∧ pert 0 ≠ 0 :=
    fun method x => ⟨fun _ => 1000, by simp [computePerturbations, displacedReal]; rfl, by norm_num⟩
  constructor
  · obtain ⟨st', s', h1, h2, -⟩ := C117_differences (c := displacedReal 1 (1 / 10 ^ 6) 1000 23 .NewtonRaphson) corner_chords
      (by norm_num) ⟨exactLinAlg_isExact ℝ 1, rfl, rfl, fun _ => rfl, fun _ => rfl⟩ (fun v w => add_sub_cancel v w) (hp _)
      (N := 23) le_rfl ht ⟨0, 0, 0⟩ rfl
    exact ⟨st', s', h1, h2⟩
  · obtain ⟨st', s', h1, h2, -⟩ := C117_stationary_differences
      (c := displacedReal 1 (1 / 10 ^ 6) 1000 23 (.QuasiNewton .StationaryNewton)) corner_chords
      (by norm_num) ⟨exactLinAlg_isExact ℝ 1, rfl, rfl, fun _ => rfl, fun _ => rfl⟩ (fun v w => add_sub_cancel v w) (hp _ _)
      (N := 23) le_rfl ht ⟨0, 0, 0⟩ rfl
    exact ⟨st', s', h1, h2⟩

/-- `C117_stationary` applies to `3 x + 2 x / (1 + x²)` from 1. -/
example : ∃ st' s', solve (displacedReal 1 (1 / 2) 0 11 (.QuasiNewton .StationaryNewton)) (fromFunctionAndJacobian
      (fun x _ => 2 * x 0 + Wave.f (x 0)) (fun x => Matrix.of fun _ _ => 2 + Wave.f' (x 0))) .new ⟨0, 0, 0⟩ =
        .ok (st', s', .ok ()) ∧ st'.iter ≤ 11 := by
  obtain ⟨st', s', h1, h2, -⟩ := C117_stationary (c := displacedReal 1 (1 / 2) 0 11 (.QuasiNewton .StationaryNewton))
    Wave.tilted (by norm_num) ⟨exactLinAlg_isExact ℝ 1, rfl, rfl, fun _ => rfl, fun _ => rfl⟩
    (fun v w => add_sub_cancel v w) (N := 11) le_rfl (by
      change max (1 - 11 / 4 / 5) (5 / (11 / 4) - 1) ^ 11 * |2 * 1 + Wave.f 1| ≤ 1 / 2
      norm_num [Wave.f]) ⟨0, 0, 0⟩ rfl
  exact ⟨st', s', h1, h2⟩

end Demo
end Nrf
