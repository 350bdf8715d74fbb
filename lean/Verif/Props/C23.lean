import Verif.Proofs.LimitsFloat
import Verif.Model.Binary64

/-!
# C23: perturbations of the finite-difference Jacobian
-/

namespace Nrf

open scoped Exact in
/-- Exact arithmetic, every accepted parameter set and every `x`: the documented formula, evenness,
the lower bound `dx_abs`, positivity, and the comparison of the two methods. -/
theorem C23_exact {K : Type} [Field K] [LinearOrder K] [IsStrictOrderedRing K]
    (p : IterativeParamsFD K)
    (hnew : ∃ a b lo hi dxa dxr m, IterativeParamsFD.new a b lo hi dxa dxr m = .ok p) (x : K) :
    p.computePerturbation x =
      (match p.perturbationMethod with
        | .Max => max p.dxAbs (p.dxRel * |x|)
        | .Sum => p.dxAbs + p.dxRel * |x|) ∧
    p.computePerturbation (-x) = p.computePerturbation x ∧
    p.dxAbs ≤ p.computePerturbation x ∧
    0 < p.computePerturbation x ∧
    ({ p with perturbationMethod := .Max } : IterativeParamsFD K).computePerturbation x ≤
      ({ p with perturbationMethod := .Sum } : IterativeParamsFD K).computePerturbation x ∧
    ({ p with perturbationMethod := .Sum } : IterativeParamsFD K).computePerturbation x ≤
      2 * ({ p with perturbationMethod := .Max } : IterativeParamsFD K).computePerturbation x := by
  obtain ⟨a, b, lo, hi, dxa, dxr, m, hn⟩ := hnew
  obtain ⟨h1, h2, q, -, rfl⟩ := paramsFd_new_eq_ok.1 hn
  rw [ex_le_false] at h1 h2
  change 0 < dxa at h1
  change 0 < dxr at h2
  have hp : 0 ≤ |x| * dxr := mul_nonneg (abs_nonneg x) h2.le
  have e : ∀ m y, (⟨q, m, dxa, dxr⟩ : IterativeParamsFD K).computePerturbation y =
      match m with
        | .Max => max dxa (|y| * dxr)
        | .Sum => dxa + |y| * dxr := by
    intro m y; cases m <;> rfl
  refine ⟨?_, ?_, ?_, ?_, ?_, ?_⟩
  · rw [e]; cases m <;> simp [mul_comm]
  · rw [e, e]; simp
  · rw [e]; cases m
    · exact le_max_left _ _
    · change dxa ≤ dxa + |x| * dxr
      linarith
  · rw [e]; cases m
    · exact lt_max_of_lt_left h1
    · change 0 < dxa + |x| * dxr
      linarith
  · rw [e, e]
    exact max_le (by change dxa ≤ dxa + |x| * dxr; linarith) (by change |x| * dxr ≤ dxa + |x| * dxr; linarith)
  · rw [e, e]
    change dxa + |x| * dxr ≤ 2 * max dxa (|x| * dxr)
    have g1 := le_max_left dxa (|x| * dxr)
    have g2 := le_max_right dxa (|x| * dxr)
    linarith

/-- Floating point, every accepted parameter set with finite `dx_abs`, `dx_rel`, every `x` that is a
number: even in `x`, never below `dx_abs`, strictly positive (in particular not NaN). -/
theorem C23_float {K : Type} [Field K] [LinearOrder K] [Rounding K] [IsStrictOrderedRing K]
    (p : IterativeParamsFD (Fl K))
    (hnew : ∃ a b lo hi dxa dxr m, IterativeParamsFD.new a b lo hi dxa dxr m = .ok p)
    (ha : p.dxAbs.IsFinite) (hb : p.dxRel.IsFinite) (x : Fl K) (hx : x ≠ .nan) :
    p.computePerturbation (Fl.neg x) = p.computePerturbation x ∧
    Scalar.le p.dxAbs (p.computePerturbation x) = true ∧
    Scalar.lt Scalar.zero (p.computePerturbation x) = true := by
  obtain ⟨a, b, lo, hi, dxa, dxr, m, hn⟩ := hnew
  obtain ⟨h1, h2, q, -, rfl⟩ := paramsFd_new_eq_ok.1 hn
  have hz : (Scalar.zero : Fl K) ≠ .nan := by simp [fl_zero]
  have h1' : Fl.ltb (.zero false) dxa = true := (fl_le_false ha.not_nan hz).1 h1
  have h2' : Fl.ltb (.zero false) dxr = true := (fl_le_false hb.not_nan hz).1 h2
  have hp0 : Fl.mul (Fl.abs x) dxr ≠ .nan := by
    change dxr.IsFinite at hb
    rcases dxr with _ | s | s | ⟨y, hy⟩
    · exact hb.elim
    · exact hb.elim
    · simp [Fl.ltb] at h2'
    · rcases x with _ | s | s | ⟨z, hz⟩
      · exact absurd rfl hx
      · simp [Fl.abs, Fl.mul]
      · simp [Fl.abs, Fl.mul]
      · simp only [Fl.abs]
        split <;> exact Fl.ofExact_not_nan _ _
  have hp : Fl.leb (.zero false) (Fl.mul (Fl.abs x) dxr) = true :=
    Fl.mul_nonneg (Fl.abs_nonneg hx) (fl_le_of_lt h2') hp0
  have e : ∀ y, (⟨q, m, dxa, dxr⟩ : IterativeParamsFD (Fl K)).computePerturbation y =
      match m with
        | .Max => Fl.max dxa (Fl.mul (Fl.abs y) dxr)
        | .Sum => Fl.add dxa (Fl.mul (Fl.abs y) dxr) := by
    intro y; cases m <;> rfl
  have hle : Fl.leb dxa ((⟨q, m, dxa, dxr⟩ : IterativeParamsFD (Fl K)).computePerturbation x) = true := by
    rw [e]
    cases m
    · change Fl.leb dxa (Fl.max dxa (Fl.mul (Fl.abs x) dxr)) = true
      rw [Fl.max_eq ha.not_nan hp0]
      split
      · rename_i h; exact fl_le_of_lt h
      · exact Fl.leb_refl ha.not_nan
    · exact Fl.leb_add_of_nonneg ha hp
  refine ⟨?_, hle, ?_⟩
  · rw [e, e, Fl.abs_neg]
  · change Fl.ltb (.zero false) _ = true
    have hn := Fl.not_nan_of_leb_right hle
    rw [Fl.ltb_iff (by simp) hn]
    intro h
    rw [Fl.ltb_iff (by simp) ha.not_nan] at h1'
    exact h1' (Fl.leb_trans hle h)

/-- The restriction to finite `dx_rel` is needed: an accepted parameter set with infinite `dx_rel`
gives a NaN perturbation at zero. -/
theorem C23_refuted_infinite :
    ∃ p : IterativeParamsFD F64,
      (∃ a b lo hi dxa dxr m, IterativeParamsFD.new a b lo hi dxa dxr m = .ok p) ∧
      p.computePerturbation (.zero false) = .nan := by
  refine ⟨⟨⟨Fl.one, Fl.one, .inf true, .inf false⟩, .Sum, Fl.one, .inf false⟩,
    ⟨_, _, _, _, _, _, _, paramsFd_new_eq_ok.2 ⟨?_, ?_, _, params_new_eq_ok.2 ⟨?_, ?_, ?_, rfl⟩, rfl⟩⟩, ?_⟩ <;>
    decide +kernel

open scoped Exact in
/-- An accepted parameter set with both terms in play. -/
example : (∃ a b lo hi dxa dxr m, IterativeParamsFD.new a b lo hi dxa dxr m =
      .ok (⟨⟨1, 1, -5, 5⟩, .Sum, 1/100, 1/10⟩ : IterativeParamsFD ℚ)) ∧
    (⟨⟨1, 1, -5, 5⟩, .Sum, 1/100, 1/10⟩ : IterativeParamsFD ℚ).computePerturbation (-2) = 21/100 := by
  refine ⟨⟨_, _, _, _, _, _, _, paramsFd_new_eq_ok.2 ⟨?_, ?_, _, params_new_eq_ok.2 ⟨?_, ?_, ?_, rfl⟩, rfl⟩⟩, ?_⟩ <;>
    decide +kernel

/-- The default perturbation parameters in binary64 meet the hypotheses of the float theorem. -/
example : (∃ a b lo hi dxa dxr m, IterativeParamsFD.new a b lo hi dxa dxr m =
      .ok (IterativeParamsFD.default : IterativeParamsFD F64)) ∧
    (IterativeParamsFD.default : IterativeParamsFD F64).dxAbs = Fl.ofExact false (5 / 10 ^ 8) ∧
    (Fl.ofExact false (5 / 10 ^ 8) : F64).IsFinite := by
  refine ⟨⟨_, _, _, _, _, _, _, paramsFd_new_eq_ok.2 ⟨?_, ?_, _, params_new_eq_ok.2 ⟨?_, ?_, ?_, rfl⟩, rfl⟩⟩, ?_, ?_⟩
  · decide +kernel
  · decide +kernel
  · decide +kernel
  · decide +kernel
  · decide +kernel
  · decide +kernel
  · have h : ∃ h, (Fl.ofExact false (5 / 10 ^ 8) : F64) = .num (Binary64.rounding.rnd (5 / 10 ^ 8)) h := by
      refine ⟨?_, ?_⟩
      · unfold IsFloat; decide +kernel
      · decide +kernel
    obtain ⟨h, e⟩ := h
    rw [e]; trivial

end Nrf
