import Verif.Proofs.Damping
import Verif.Proofs.NewtonRun
import Verif.Proofs.Repeated
import Verif.Spec.Slopes
import Mathlib.Analysis.Calculus.Deriv.MeanValue

/-!
# Newton steps on one equation with bounded slopes, whole and halved
-/

namespace Nrf
open Spec
open scoped Exact
open Matrix

section
variable {f f' : ℝ → ℝ} {μ M : ℝ}

/-- The slope of a chord is between the bounds. -/
theorem Spec.Slopes.chord (h : Slopes f f' μ M) (x y : ℝ) : ∃ σ, μ ≤ σ ∧ σ ≤ M ∧ f y - f x = σ * (y - x) := by
  rcases lt_trichotomy x y with hxy | rfl | hxy
  · obtain ⟨ξ, -, hξ⟩ := exists_hasDerivAt_eq_slope f f' hxy
      (fun z _ => (h.deriv z).continuousAt.continuousWithinAt) (fun z _ => h.deriv z)
    refine ⟨f' ξ, h.low ξ, h.high ξ, ?_⟩
    rw [hξ, div_mul_cancel₀ _ (sub_pos.2 hxy).ne']
  · exact ⟨f' x, h.low x, h.high x, by simp⟩
  · obtain ⟨ξ, -, hξ⟩ := exists_hasDerivAt_eq_slope f f' hxy
      (fun z _ => (h.deriv z).continuousAt.continuousWithinAt) (fun z _ => h.deriv z)
    refine ⟨f' ξ, h.low ξ, h.high ξ, ?_⟩
    have : f' ξ * (x - y) = f x - f y := by rw [hξ, div_mul_cancel₀ _ (sub_pos.2 hxy).ne']
    linarith

/-- The residual after the share `t` of a Newton step. -/
theorem Spec.Slopes.step (h : Slopes f f' μ M) (x t : ℝ) :
    ∃ κ, μ / M ≤ κ ∧ κ ≤ M / μ ∧ f (x - t * (f x / f' x)) = (1 - t * κ) * f x := by
  obtain ⟨σ, h1, h2, h3⟩ := h.chord x (x - t * (f x / f' x))
  have hx : 0 < f' x := h.pos.trans_le (h.low x)
  have hM : 0 < M := hx.trans_le (h.high x)
  refine ⟨σ / f' x, ?_, ?_, ?_⟩
  · rw [div_le_div_iff₀ hM hx]
    exact mul_le_mul h1 (h.high x) hx.le (h.pos.le.trans h1)
  · rw [div_le_div_iff₀ hx h.pos]
    exact mul_le_mul h2 (h.low x) h.pos.le hM.le
  · have : f (x - t * (f x / f' x)) = f x + σ * (-(t * (f x / f' x))) := by linarith
    rw [this]
    field_simp
    ring

end

section
variable {f f' : ℝ → ℝ} {c : Config ℝ 1}

/-- The equation as a model with its derivative. -/
noncomputable abbrev scalarModel (f f' : ℝ → ℝ) : UserModel ℝ 1 Empty Empty (AdapterState ℝ 1) :=
  fromFunctionAndJacobian (fun x _ => f (x 0)) (fun x => Matrix.of fun _ _ => f' (x 0))

/-- The error is the absolute residual. -/
theorem scalar_error (hc : PlainNewton (undamped c)) {s : AdapterState ℝ 1} {y : Vec ℝ 1}
    (h : At (scalarModel f f') (fun s => s.right = 0) (fun x => ⟨fun _ => f (x 0), 0⟩) s y) :
    amax (evaluateErrors c (scalarModel f f') s) = |f (y 0)| := by
  have e : ∀ i, evaluateErrors c (scalarModel f f') s i = |f (y 0)| := by
    intro i
    have := hc.errors (fun x _ => f (x 0)) y i
    rw [← this, ← h.errors (c := undamped c)]
    rfl
  refine le_antisymm ((amax_le_iff _ (abs_nonneg _)).2 fun i => by rw [e, abs_abs]) ?_
  have := abs_le_amax (evaluateErrors c (scalarModel f f') s) 0
  rwa [e, abs_abs] at this

/-- One pass of Newton-Raphson, where the derivative is not zero and the limits are not active: the whole step, or with
damping half of it if the residual would grow. -/
theorem damped_pass (hc : PlainNewton (undamped c))
    (hlim : ∀ v w, (c.iters 0).stepLimitation v (w - v) = w) (hf : ∀ x, f' x ≠ 0) {st : Solver ℝ 1}
    (hdb : st.debug = false) {s : AdapterState ℝ 1} {x : Vec ℝ 1}
    (hs : At (scalarModel f f') (fun s => s.right = 0) (fun x => ⟨fun _ => f (x 0), 0⟩) s x) :
    ∃ st' s' x', At (scalarModel f f') (fun s => s.right = 0) (fun x => ⟨fun _ => f (x 0), 0⟩) s' x' ∧
      iterate c (scalarModel f f') st s = .ok (st', s', .ok (amax (evaluateErrors c (scalarModel f f') s'))) ∧
      st'.debug = false ∧ st'.valid = true ∧
      (x' 0 = x 0 - f (x 0) / f' (x 0) ∧ (c.params.damping = true → |f (x' 0)| ≤ |f (x 0)|) ∨
        c.params.damping = true ∧ |f (x 0)| < |f (x 0 - f (x 0) / f' (x 0))| ∧
          x' 0 = x 0 - 1 / 2 * (f (x 0) / f' (x 0))) := by
  have hA : AnalyticJacobian (scalarModel f f') := ⟨fun _ => rfl, fun _ => rfl, fun _ => rfl⟩
  have hG : GetSet (scalarModel f f') := ⟨fun _ _ => rfl, fun _ => rfl⟩
  have hcomp := fromFunctionAndJacobian_computes (fun x _ => f (x 0)) (fun x : Vec ℝ 1 => Matrix.of fun _ _ => f' (x 0)) 0
  have hdet : Matrix.det (Matrix.of fun _ _ => f' (x 0) : Mat ℝ 1) ≠ 0 := by rw [Matrix.det_fin_one]; exact hf _
  have hsrc := Source.analytic (c := undamped c) (D := fun _ => True) (x := x) (pert := 0) _
    (fromFunctionAndJacobian_differentiates (fun x _ => f (x 0)) (fun x : Vec ℝ 1 => Matrix.of fun _ _ => f' (x 0)) 0)
  rw [hc.jacobian (fun x _ => f (x 0)) (fun x => Matrix.of fun _ _ => f' (x 0)) x] at hsrc
  have hx' : x - (Matrix.of fun _ _ => f' (x 0) : Mat ℝ 1)⁻¹ *ᵥ updateAt (undamped c) (fun x => ⟨fun _ => f (x 0), 0⟩) x =
      fun _ => x 0 - f (x 0) / f' (x 0) := by
    rw [hc.update (fun x _ => f (x 0)) x]
    have e : (fun _ => f (x 0) : Vec ℝ 1) = (Matrix.of fun _ _ => f' (x 0) : Mat ℝ 1) *ᵥ fun _ => f (x 0) / f' (x 0) := by
      funext i
      simp only [Matrix.mulVec, dotProduct, Matrix.of_apply, Fin.sum_univ_one]
      rw [mul_div_cancel₀ _ (hf _)]
    rw [e, Matrix.mulVec_mulVec, ex_inv_mul hdet, Matrix.one_mulVec]
    funext i
    rw [Subsingleton.elim i 0]
    rfl
  obtain ⟨st1, s1, z, h1, -, h2, -⟩ := iterate_newton hc.exact hcomp hsrc hdet hx' trivial
    (fun z _ i => by rw [Subsingleton.elim i 0]; exact hlim _ _) (fun h => by cases h) hdb (.inl hc.method) hs
  have e2 : evaluateErrors (undamped c) (scalarModel f f') s1 = evaluateErrors c (scalarModel f f') s1 := rfl
  by_cases hle : |f (x 0 - f (x 0) / f' (x 0))| ≤ |f (x 0)|
  · have hid := iterate_idle (c := c) (st := st) (s := s) hA (fun st' s' e' hi => by
      rw [h2] at hi
      cases hi
      rw [scalar_error hc hs, e2, scalar_error hc h1]
      exact (ex_lt_false _ _).2 hle)
    rw [h2] at hid
    exact ⟨st1, s1, _, h1, hid, (iterate_debug h2).trans hdb, iterate_valid (fun _ => rfl) h2, .inl ⟨rfl, fun _ => hle⟩⟩
  by_cases hd : c.params.damping = true
  · have hdm := iterate_damped (c := c) hA hG hd (.inl hc.method) h2 (by
      rw [scalar_error hc hs, e2, scalar_error hc h1]
      exact (ex_lt _ _).2 (not_le.1 hle))
    obtain ⟨s2, h3, h4⟩ := computes_at hcomp (s := s1) (x := dampedGuess ((scalarModel f f').getIteratives s)
      ((scalarModel f f').getIteratives s1)) h1.good trivial
    rw [h3] at hdm
    obtain ⟨st2, hit⟩ := hdm
    refine ⟨st2, s2, _, h4, hit, (iterate_debug hit).trans hdb, iterate_valid (fun _ => rfl) hit, .inr ⟨hd, not_le.1 hle, ?_⟩⟩
    rw [hs.iteratives, h1.iteratives]
    change x 0 * (1 - 1 / 2) + (x 0 - f (x 0) / f' (x 0)) * (1 / 2) = _
    ring
  · have e3 : undamped c = c := by
      have : c.params.damping = false := by simpa using hd
      rw [undamped, ← this]
    rw [e3] at h2
    exact ⟨st1, s1, _, h1, h2, (iterate_debug h2).trans hdb, iterate_valid (fun _ => rfl) h2, .inl ⟨rfl, fun h => absurd h hd⟩⟩

/-- Following the residual through a solve. -/
theorem scalar_follow (hc : PlainNewton (undamped c)) (hlim : ∀ v w, (c.iters 0).stepLimitation v (w - v) = w)
    (hf : ∀ x, f' x ≠ 0) (I : Nat → ℝ → Prop) (h0 : I 0 (c.guess 0))
    (hstep : ∀ k x x', I k x → (x' = x - f x / f' x ∧ (c.params.damping = true → |f x'| ≤ |f x|) ∨
      c.params.damping = true ∧ |f x| < |f (x - f x / f' x)| ∧ x' = x - 1 / 2 * (f x / f' x)) → I (k + 1) x')
    (s : AdapterState ℝ 1) (hs : s.right = 0) :
    ∃ st' s', I st'.iter (s'.inputs 0) ∧
      (|f (s'.inputs 0)| ≤ c.params.tolerance ∧ solve c (scalarModel f f') .new s = .ok (st', s', .ok ()) ∨
        c.params.tolerance < |f (s'.inputs 0)| ∧ c.params.maxIter ≤ st'.iter ∧
          solve c (scalarModel f f') .new s = .ok (st', s', .error .nonConvergence)) := by
  obtain ⟨k, st', s', h1, ⟨-, hv, x, hat, hI⟩, h3, rfl⟩ := solve_follow (c := c)
    (fromFunctionAndJacobian_computes (fun x _ => f (x 0)) (fun x : Vec ℝ 1 => Matrix.of fun _ _ => f' (x 0)) 0)
    (fun k st s => st.debug = false ∧ st.valid = true ∧
      ∃ x, At (scalarModel f f') (fun s => s.right = 0) (fun x => ⟨fun _ => f (x 0), 0⟩) s x ∧ I k (x 0))
    (by
      rintro k st s ⟨hd, -, x, hat, hI⟩ -
      obtain ⟨st', s', x', g1, g2, g3, g4, g5⟩ := damped_pass hc hlim hf hd hat
      exact ⟨st', s', g2, g3, g4, x', g1, hstep k _ _ hI g5⟩)
    hs trivial (fun s0 h => ⟨rfl, rfl, _, h, h0⟩)
  obtain rfl : s'.inputs = x := hat.iteratives
  have he := scalar_error hc hat
  rw [he] at h1 h3
  refine ⟨st', s', hI, ?_⟩
  rcases le_or_gt |f (s'.inputs 0)| c.params.tolerance with h | h
  · refine .inl ⟨h, ?_⟩
    rw [h1, finalResult, (ex_lt_false _ _).2 h, hv]
    rfl
  · refine .inr ⟨h, ?_, ?_⟩
    · rw [continues, (ex_lt _ _).2 h] at h3
      simpa using h3
    · rw [h1, finalResult, (ex_lt _ _).2 h]
      rfl

end
end Nrf
