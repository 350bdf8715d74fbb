import Verif.Proofs.ChordScalar
import Mathlib.Analysis.Convex.Deriv

/-!
# A fixed slope on one convex equation
-/

namespace Nrf
open Spec
open scoped Exact
open Matrix

namespace FixedSlope
variable {f : ℝ → ℝ} {r x0 σ x : ℝ}

/-- The points at or above the root reached after `k` steps from `x0`. -/
structure Reached (f : ℝ → ℝ) (r x0 σ : ℝ) (k : ℕ) (x : ℝ) : Prop where
  low : r ≤ x
  high : x ≤ x0
  bound : k * f x ≤ σ * (x0 - x)

/-- A step with the slope `σ` stays between the root and the guess. -/
theorem Reached.step (hmono : Monotone f) (hr : f r = 0) (hσ : 0 < σ)
    (hsteep : ∀ x, r ≤ x → x ≤ x0 → f x ≤ σ * (x - r)) {k : ℕ} (h : Reached f r x0 σ k x) :
    Reached f r x0 σ (k + 1) (x - f x / σ) := by
  have h0 : 0 ≤ f x := hr ▸ hmono h.low
  have h1 : 0 ≤ f x / σ := div_nonneg h0 hσ.le
  have h2 : f x / σ ≤ x - r := by
    rw [div_le_iff₀ hσ]
    linarith [hsteep x h.low h.high]
  have h3 : f (x - f x / σ) ≤ f x := hmono (by linarith)
  have h4 : σ * (f x / σ) = f x := mul_div_cancel₀ _ hσ.ne'
  have h5 : (k : ℝ) * f (x - f x / σ) ≤ k * f x := mul_le_mul_of_nonneg_left h3 (Nat.cast_nonneg k)
  refine ⟨by linarith, by linarith [h.high], ?_⟩
  push_cast
  linarith [h.bound]

theorem Reached.small {N : ℕ} {tol : ℝ} (hσ : 0 < σ) (hN0 : 0 < N) (hN : σ * (x0 - r) ≤ N * tol)
    (h : Reached f r x0 σ N x) : f x ≤ tol := by
  have hN1 : (0 : ℝ) < N := by exact_mod_cast hN0
  have : σ * (x0 - x) ≤ σ * (x0 - r) := mul_le_mul_of_nonneg_left (by linarith [h.low]) hσ.le
  refine le_of_mul_le_mul_left ?_ hN1
  linarith [h.bound]

/-- The slope of a chord beyond the guess is steep enough. -/
theorem steep_chord (hf : ConvexOn ℝ Set.univ f) (hr : f r = 0) {p : ℝ} (hp : 0 < p) (h1 : r ≤ x) (h2 : x ≤ x0) :
    f x ≤ (f (x0 + p) - f x0) / p * (x - r) := by
  rcases h1.eq_or_lt with rfl | h1
  · rw [hr, sub_self, mul_zero]
  have key : (f x - f r) / (x - r) ≤ (f (x0 + p) - f x0) / (x0 + p - x0) := by
    rcases h2.eq_or_lt with rfl | h2
    · exact hf.slope_mono_adjacent (Set.mem_univ _) (Set.mem_univ _) h1 (by linarith)
    · exact (hf.slope_mono_adjacent (Set.mem_univ _) (Set.mem_univ _) h1 h2).trans
        (hf.slope_mono_adjacent (Set.mem_univ _) (Set.mem_univ _) h2 (by linarith))
  rw [hr, sub_zero, add_sub_cancel_left, div_le_iff₀ (by linarith)] at key
  exact key

/-- So is the slope of the tangent at the guess. -/
theorem steep_tangent (hf : ConvexOn ℝ Set.univ f) (hr : f r = 0) (hd : HasDerivAt f σ x0) (h1 : r ≤ x) (h2 : x ≤ x0) :
    f x ≤ σ * (x - r) := by
  rcases h1.eq_or_lt with rfl | h1
  · rw [hr, sub_self, mul_zero]
  have key : (f x - f r) / (x - r) ≤ σ := by
    rcases h2.eq_or_lt with rfl | h2
    · have := hf.slope_le_of_hasDerivAt (Set.mem_univ r) (Set.mem_univ x) h1 hd
      rwa [slope_def_field] at this
    · have := hf.slope_le_of_hasDerivAt (Set.mem_univ x) (Set.mem_univ x0) h2 hd
      rw [slope_def_field] at this
      exact (hf.slope_mono_adjacent (Set.mem_univ _) (Set.mem_univ _) h1 h2).trans this
  rw [hr, sub_zero, div_le_iff₀ (by linarith)] at key
  exact key

theorem tangent_pos (hf : ConvexOn ℝ Set.univ f) (hmono : StrictMono f) (hd : HasDerivAt f σ x0) : 0 < σ := by
  have h1 : x0 - 1 < x0 := by linarith
  have := hf.slope_le_of_hasDerivAt (Set.mem_univ (x0 - 1)) (Set.mem_univ x0) h1 hd
  rw [slope_def_field] at this
  exact (div_pos (sub_pos.2 (hmono h1)) (by linarith)).trans_le this

end FixedSlope

/-- A run of stationary Newton with finite differences in one equation, whose residuals never pass the test. -/
theorem stationary_fails {c : Config ℝ 1} (hc : PlainStationary c) {f : ℝ → ℝ}
    (hlim : ∀ v w, (c.iters 0).stepLimitation v (w - v) = w) {pert : Vec ℝ 1}
    (hp : computePerturbations c.iters c.guess = some pert) (hp0 : pert 0 ≠ 0) {σ : ℝ} (hσ0 : σ ≠ 0)
    (hσ : σ = (f (c.guess 0 + pert 0) - f (c.guess 0)) / pert 0) (I : ℝ → Prop) (h0 : I (c.guess 0))
    (hstep : ∀ x, I x → I (x - f x / σ)) (htol : ∀ x, I x → c.params.tolerance < |f x|) (s : AdapterState ℝ 1)
    (hs : s.right = 0) :
    ∃ st' s', solve c (fromFunction fun x _ => f (x 0)) .new s = .ok (st', s', .error .nonConvergence) ∧
      st'.iter = c.params.maxIter ∧ I (s'.inputs 0) := by
  have hsrc := Source.fd (c := c) (D := fun _ => True) (x := c.guess) (pert := pert)
    (fromFunction_underived (fun x _ => f (x 0)) 0) hp (fun i => by rw [Subsingleton.elim i 0]; exact hp0) (fun _ => trivial)
  have e : differencesAt c (fun x => ⟨fun _ => f (x 0), 0⟩) pert c.guess = Matrix.of fun _ _ => σ := by
    ext i k
    rw [Subsingleton.elim k 0, differencesAt, hc.update (fun x _ => f (x 0)), hc.update (fun x _ => f (x 0)), moved_eq]
    rw [Matrix.of_apply, hσ]
    simp only [Pi.add_apply, Pi.single_eq_same]
    rfl
  rw [e] at hsrc
  have hf := fromFunction_computes (n := 1) (fun (x : Vec ℝ 1) _ => f (x 0)) 0
  have hnext : ∀ x : Vec ℝ 1, x - (Matrix.of fun _ _ => σ : Mat ℝ 1)⁻¹ *ᵥ updateAt c (fun x => ⟨fun _ => f (x 0), 0⟩) x =
      fun _ => x 0 - f (x 0) / σ := by
    intro x
    rw [hc.update (fun x _ => f (x 0)), one_solve hσ0]
    funext i
    rw [Subsingleton.elim i 0]
    rfl
  obtain ⟨k, st', s', h1, h2, h3, h4⟩ := solve_follow (c := c) hf
    (fun _ st s => st.debug = false ∧ st.iter ≤ c.params.maxIter ∧ ∃ x, At (fromFunction fun x _ => f (x 0)) (fun s => s.right = 0)
        (fun x => ⟨fun _ => f (x 0), 0⟩) s x ∧ I (x 0) ∧
      ((st.jac.computeNext = true ∧ x = c.guess) ∨
        (st.jac.computeNext = false ∧ st.jac.inverse = some (Matrix.of fun _ _ => σ : Mat ℝ 1)⁻¹)))
    (by
      rintro k st s ⟨hd, -, x, hat, hI, hj⟩ hcont
      have hlt : st.iter < c.params.maxIter := by
        simp only [continues, Bool.and_eq_true, decide_eq_true_eq] at hcont
        exact hcont.2
      rcases hj with ⟨hcn, rfl⟩ | ⟨hcn, hinv⟩
      · obtain ⟨st', s', z, hs', -, hit, rfl⟩ := iterate_newton hc.exact hf hsrc (one_det hσ0) (hnext _) trivial
          (fun z _ i => by rw [Subsingleton.elim i 0]; exact hlim _ _)
          (fun h => by rw [hc.damping] at h; cases h) hd (.inr hcn) hat
        obtain ⟨-, -, g3, -, g5⟩ := storeSteps_fields c.params.method
          { st with iter := st.iter + 1,
                    jac := ⟨some (Matrix.of fun _ _ => σ), some (Matrix.of fun _ _ => σ : Mat ℝ 1)⁻¹, false, false⟩,
                    valid := true }
          (fun _ => c.guess 0 - f (c.guess 0) / σ) z
          (errorsAt c (fun x => ⟨fun _ => f (x 0), 0⟩) (fun _ => c.guess 0 - f (c.guess 0) / σ))
          (errorsAt c (fun x => ⟨fun _ => f (x 0), 0⟩) z)
        exact ⟨_, s', hit, by rw [g5]; exact hd, by rw [iterate_iter hit]; exact hlt, _, hs', hstep _ hI, .inr ⟨by rw [g3], by rw [g3]⟩⟩
      · obtain ⟨s', hs', hit⟩ := iterate_kept hc.exact hf (hnext _) trivial
          (fun i => by rw [Subsingleton.elim i 0]; exact hlim _ _)
          (fun h => by rw [hc.damping] at h; cases h) hd hc.method hcn hinv hat
        exact ⟨_, s', hit, hd, hlt, _, hs', hstep _ hI, .inr ⟨hcn, hinv⟩⟩)
    hs trivial (fun s0 h => ⟨rfl, Nat.zero_le _, _, h, h0, .inl ⟨rfl, rfl⟩⟩)
  obtain ⟨-, hle, x, hat, hI, -⟩ := h2
  obtain rfl : s'.inputs = x := hat.iteratives
  have hlt : Scalar.lt c.params.tolerance (amax (evaluateErrors c (fromFunction fun x _ => f (x 0)) s')) = true := by
    rw [hat.errors, ex_lt]
    have := abs_le_amax (errorsAt c (fun x => ⟨fun _ => f (x 0), 0⟩) s'.inputs) 0
    rw [hc.errors (fun x _ => f (x 0)), abs_abs] at this
    exact (htol _ hI).trans_le this
  have hend : ¬ st'.iter < c.params.maxIter := by
    rw [continues, hlt, Bool.true_and] at h3
    simpa using h3
  refine ⟨st', s', ?_, by omega, hI⟩
  rw [h1]
  simp only [finalResult, hlt, if_true]

end Nrf
