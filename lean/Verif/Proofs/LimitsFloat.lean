import Verif.Proofs.Limits
import Verif.Proofs.FloatArith

/-!
# Step limitation in floating point
-/

set_option linter.unusedSectionVars false

namespace Nrf
open Fl
variable {K : Type} [Field K] [LinearOrder K] [Rounding K] [IsStrictOrderedRing K]

/-- The step after limitation, for a bound `M`. -/
def flStep (M r : Fl K) : Fl K := if r.sign then Fl.neg (Fl.min M (Fl.abs r)) else Fl.min M (Fl.abs r)

theorem fl_stepLimitation' (p : IterativeParams (Fl K)) (v : Fl K) {r : Fl K} (hr : r ≠ .nan) :
    p.stepLimitation v r =
      Fl.min (Fl.max (Fl.add v (flStep (Fl.min p.maxStepAbs (Fl.mul p.maxStepRel (Fl.abs v))) r))
        p.minValue) p.maxValue := by
  rw [fl_stepLimitation, mul_signum hr]; rfl

theorem zero_leb_neg_zero : leb (.zero false : Fl K) (Fl.neg (.zero false)) = true := rfl

theorem neg_leb_zero {a : Fl K} (h : leb (.zero false) a = true) : leb (Fl.neg a) (.zero false) = true := by
  have : leb (Fl.neg a) (Fl.neg (.zero false)) = true := by rw [neg_leb_neg]; exact h
  exact leb_trans this rfl

/-- The limited step is at most the bound in magnitude. -/
theorem flStep_bound {M r : Fl K} (hM : leb (.zero false) M = true) (hr : r ≠ .nan) :
    leb (Fl.neg M) (flStep M r) = true ∧ leb (flStep M r) M = true := by
  have hMn := not_nan_of_leb_right hM
  have h0 : leb (.zero false) (Fl.min M (Fl.abs r)) = true := leb_min hM (abs_nonneg hr)
  have h1 : leb (Fl.min M (Fl.abs r)) M = true := min_leb_left hMn
  have hneg : leb (Fl.neg M) (.zero false) = true := neg_leb_zero hM
  unfold flStep
  split
  · exact ⟨by rw [neg_leb_neg]; exact h1, leb_trans (neg_leb_zero h0) hM⟩
  · exact ⟨leb_trans hneg h0, h1⟩

/-- Sign of the limited step. -/
theorem flStep_nonneg {M r : Fl K} (hM : leb (.zero false) M = true)
    (hr : leb (.zero false) r = true) : leb (.zero false) (flStep M r) = true := by
  have hrn := not_nan_of_leb_right hr
  have h0 : leb (.zero false) (Fl.min M (Fl.abs r)) = true := leb_min hM (abs_nonneg hrn)
  unfold flStep
  split
  · rename_i hs
    -- only a negative zero
    rcases r with _ | s | s | ⟨x, hx⟩
    · simp [sign] at hs
    · simp_all [sign, leb]
    · have : leb (Fl.min M (Fl.abs (.zero s))) (.zero false) = true := min_leb_right (by simp [Fl.abs])
      have : leb (Fl.neg (.zero false)) (Fl.neg (Fl.min M (Fl.abs (.zero s)))) = true := by
        rw [neg_leb_neg]; exact this
      exact leb_trans rfl this
    · simp [sign, leb] at hs hr
      linarith
  · exact h0

theorem flStep_nonpos {M r : Fl K} (hM : leb (.zero false) M = true)
    (hr : leb r (.zero false) = true) : leb (flStep M r) (.zero false) = true := by
  have hrn := not_nan_of_leb_left hr
  have h0 : leb (.zero false) (Fl.min M (Fl.abs r)) = true := leb_min hM (abs_nonneg hrn)
  unfold flStep
  split
  · exact neg_leb_zero h0
  · rename_i hs
    rcases r with _ | s | s | ⟨x, hx⟩
    · exact absurd rfl hrn
    · simp_all [sign, leb]
    · exact min_leb_right (by simp [Fl.abs])
    · simp [sign, leb] at hs hr
      linarith

theorem abs_leb_abs {a b : Fl K} (h : leb (.zero false) a = true) (hab : leb a b = true) :
    leb (Fl.abs a) (Fl.abs b) = true := by
  rcases a with _ | s | s | ⟨x, hx⟩ <;> rcases b with _ | t | t | ⟨y, hy⟩ <;>
    simp_all [leb, Fl.abs]
  all_goals
    first
      | (simp [not_lt.2 hab.le, hab]; done)
      | (simp [not_lt.2 h.le]; done)
      | (have hy' := lt_of_lt_of_le h hab
         simp [not_lt.2 h.le, not_lt.2 hy'.le, hab])

theorem min_mono {M a b : Fl K} (hM : M ≠ .nan) (h : leb a b = true) :
    leb (Fl.min M a) (Fl.min M b) = true :=
  leb_min (min_leb_left hM) (leb_trans (min_leb_right (not_nan_of_leb_left h)) h)

/-- The limited step grows with the raw step. -/
theorem flStep_mono {M r r' : Fl K} (hM : leb (.zero false) M = true) (h : leb r r' = true) :
    leb (flStep M r) (flStep M r') = true := by
  have hMn := not_nan_of_leb_right hM
  have hz : (.zero false : Fl K) ≠ .nan := by simp
  rcases leb_total (not_nan_of_leb_left h) hz with h1 | h1
  · rcases leb_total (not_nan_of_leb_right h) hz with h2 | h2
    · -- both non-positive
      have h3 : leb (.zero false) (Fl.neg r') = true := by
        have : leb (Fl.neg (.zero false)) (Fl.neg r') = true := by rw [neg_leb_neg]; exact h2
        exact leb_trans rfl this
      have h4 : leb (Fl.neg r') (Fl.neg r) = true := by rw [neg_leb_neg]; exact h
      have h5 := min_mono hMn (abs_leb_abs h3 h4)
      rw [Fl.abs_neg, Fl.abs_neg] at h5
      -- compare with the negated magnitudes
      have e : ∀ {q : Fl K}, leb q (.zero false) = true →
          leb (flStep M q) (Fl.neg (Fl.min M (Fl.abs q))) = true ∧
          leb (Fl.neg (Fl.min M (Fl.abs q))) (flStep M q) = true := by
        intro q hq
        have hqn := not_nan_of_leb_left hq
        have h0 : leb (.zero false) (Fl.min M (Fl.abs q)) = true := leb_min hM (abs_nonneg hqn)
        unfold flStep
        split
        · exact ⟨leb_refl (neg_not_nan (not_nan_of_leb_right h0)),
            leb_refl (neg_not_nan (not_nan_of_leb_right h0))⟩
        · rename_i hs
          have hq0 : ∃ s, q = .zero s := by
            rcases q with _ | s | s | ⟨x, hx⟩
            · exact absurd rfl hqn
            · simp_all [sign, leb]
            · exact ⟨s, rfl⟩
            · simp [sign, leb] at hs hq; linarith
          obtain ⟨s, rfl⟩ := hq0
          have hb : leb (Fl.min M (Fl.abs (.zero s))) (.zero false) = true :=
            min_leb_right (by simp [Fl.abs])
          refine ⟨leb_trans hb ?_, leb_trans (neg_leb_zero h0) h0⟩
          have : leb (Fl.neg (.zero false)) (Fl.neg (Fl.min M (Fl.abs (.zero s)))) = true := by
            rw [neg_leb_neg]; exact hb
          exact leb_trans rfl this
      refine leb_trans (e h1).1 (leb_trans ?_ (e h2).2)
      rw [neg_leb_neg]; exact h5
    · exact leb_trans (flStep_nonpos hM h1) (flStep_nonneg hM h2)
  · have h2 := leb_trans h1 h
    have h5 := min_mono hMn (abs_leb_abs h1 h)
    have e : ∀ {q : Fl K}, leb (.zero false) q = true →
        leb (flStep M q) (Fl.min M (Fl.abs q)) = true ∧
        leb (Fl.min M (Fl.abs q)) (flStep M q) = true := by
      intro q hq
      have hqn := not_nan_of_leb_right hq
      have h0 : leb (.zero false) (Fl.min M (Fl.abs q)) = true := leb_min hM (abs_nonneg hqn)
      unfold flStep
      split
      · rename_i hs
        have hq0 : ∃ s, q = .zero s := by
          rcases q with _ | s | s | ⟨x, hx⟩
          · exact absurd rfl hqn
          · simp_all [sign, leb]
          · exact ⟨s, rfl⟩
          · simp [sign, leb] at hs hq; linarith
        obtain ⟨s, rfl⟩ := hq0
        have hb : leb (Fl.min M (Fl.abs (.zero s))) (.zero false) = true :=
          min_leb_right (by simp [Fl.abs])
        refine ⟨leb_trans (neg_leb_zero h0) h0, leb_trans hb ?_⟩
        have : leb (Fl.neg (.zero false)) (Fl.neg (Fl.min M (Fl.abs (.zero s)))) = true := by
          rw [neg_leb_neg]; exact hb
        exact leb_trans rfl this
      · exact ⟨leb_refl (not_nan_of_leb_right h0), leb_refl (not_nan_of_leb_right h0)⟩
    exact leb_trans (e h1).1 (leb_trans h5 (e h2).2)

theorem clamp_mono {a b lo hi : Fl K} (hlo : lo ≠ .nan) (hhi : hi ≠ .nan) (h : leb a b = true) :
    leb (Fl.min (Fl.max a lo) hi) (Fl.min (Fl.max b lo) hi) = true := by
  have ha := not_nan_of_leb_left h
  have hb := not_nan_of_leb_right h
  have h1 : leb (Fl.max a lo) (Fl.max b lo) = true := by
    refine max_leb ?_ (leb_max_right hlo)
    rw [max_eq hb hlo]
    split
    · rename_i hlt
      rw [ltb_iff hb hlo] at hlt
      exact leb_trans h ((leb_total hb hlo).resolve_right hlt)
    · exact h
  exact leb_min (leb_trans (min_leb_left (not_nan_of_leb_left h1)) h1) (min_leb_right hhi)

/-- Clamping moves a value of the range towards itself. -/
theorem clamp_between {a lo hi v : Fl K} (hlo : leb lo v = true) (hhi : leb v hi = true)
    (ha : a ≠ .nan) :
    (leb v a = true → leb v (Fl.min (Fl.max a lo) hi) = true ∧
      leb (Fl.min (Fl.max a lo) hi) a = true) ∧
    (leb a v = true → leb (Fl.min (Fl.max a lo) hi) v = true ∧
      leb a (Fl.min (Fl.max a lo) hi) = true) := by
  have hlon := not_nan_of_leb_left hlo
  have hhin := not_nan_of_leb_right hhi
  have hmn : Fl.max a lo ≠ .nan := max_not_nan hlon
  have ham : leb a (Fl.max a lo) = true := by
    rw [max_eq ha hlon]
    split
    · rename_i h; rw [ltb_iff ha hlon] at h; exact (leb_total ha hlon).resolve_right h
    · exact leb_refl ha
  constructor
  · intro h
    refine ⟨leb_min (leb_trans h ham) hhi, ?_⟩
    exact leb_trans (min_leb_left hmn) (max_leb (leb_refl ha) (leb_trans hlo h))
  · intro h
    refine ⟨leb_trans (min_leb_left hmn) (max_leb h hlo), leb_min ham ?_⟩
    exact leb_trans h hhi

end Nrf

namespace Nrf
open Fl
variable {K : Type} [Field K] [LinearOrder K] [Rounding K] [IsStrictOrderedRing K]

/-- The largest step allowed at `v`. -/
def flMaxStep (p : IterativeParams (Fl K)) (v : Fl K) : Fl K :=
  Fl.min p.maxStepAbs (Fl.mul p.maxStepRel (Fl.abs v))

theorem flMaxStep_nonneg {p : IterativeParams (Fl K)} (ha : leb (.zero false) p.maxStepAbs = true)
    (hb : leb (.zero false) p.maxStepRel = true) {v : Fl K} (hv : v ≠ .nan) :
    leb (.zero false) (flMaxStep p v) = true := by
  unfold flMaxStep
  by_cases h : Fl.mul p.maxStepRel (Fl.abs v) = .nan
  · rw [h, min_nan_right]; exact ha
  · exact leb_min ha (mul_nonneg hb (abs_nonneg hv) h)

theorem flMaxStep_le_abs {p : IterativeParams (Fl K)} (ha : p.maxStepAbs ≠ .nan) (v : Fl K) :
    leb (flMaxStep p v) p.maxStepAbs = true := min_leb_left ha

theorem flMaxStep_le_rel {p : IterativeParams (Fl K)} {v : Fl K}
    (h : Fl.mul p.maxStepRel (Fl.abs v) ≠ .nan) :
    leb (flMaxStep p v) (Fl.mul p.maxStepRel (Fl.abs v)) = true := min_leb_right h

/-- Distance of the limited value for any bound above the largest step. -/
theorem fl_limited_within {p : IterativeParams (Fl K)} {v r B : Fl K}
    (ha : leb (.zero false) p.maxStepAbs = true) (hb : leb (.zero false) p.maxStepRel = true)
    (hlo : leb p.minValue v = true) (hhi : leb v p.maxValue = true) (hv : v.IsFinite) (hr : r ≠ .nan)
    (hB : leb (flMaxStep p v) B = true) :
    leb (Fl.sub v B) (p.stepLimitation v r) = true ∧ leb (p.stepLimitation v r) (Fl.add v B) = true := by
  have hM := flMaxStep_nonneg ha hb hv.not_nan
  obtain ⟨h1, h2⟩ := flStep_bound hM hr
  have hBn : leb (Fl.neg B) (Fl.neg (flMaxStep p v)) = true := by rw [neg_leb_neg]; exact hB
  rw [fl_stepLimitation' p v hr]
  change leb _ (Fl.min (Fl.max (Fl.add v (flStep (flMaxStep p v) r)) _) _) = true ∧
    leb (Fl.min (Fl.max (Fl.add v (flStep (flMaxStep p v) r)) _) _) _ = true
  have hs : flStep (flMaxStep p v) r ≠ .nan := not_nan_of_leb_left h2
  have hn := add_not_nan hv hs
  obtain ⟨c1, c2⟩ := clamp_between hlo hhi hn
  have up : leb (Fl.add v (flStep (flMaxStep p v) r)) (Fl.add v B) = true :=
    add_mono_right hv (leb_trans h2 hB)
  have dn : leb (Fl.sub v B) (Fl.add v (flStep (flMaxStep p v) r)) = true :=
    add_mono_right hv (leb_trans hBn h1)
  rcases leb_total hv.not_nan hn with h | h
  · refine ⟨leb_trans ?_ (c1 h).1, leb_trans (c1 h).2 up⟩
    exact add_leb_of_nonpos hv (neg_leb_zero (leb_trans hM hB))
  · refine ⟨leb_trans dn (c2 h).2, leb_trans (c2 h).1 ?_⟩
    exact leb_add_of_nonneg hv (leb_trans hM hB)

/-- The two limits of an accepted parameter set are non-negative when not NaN. -/
theorem fl_accepted {p : IterativeParams (Fl K)}
    (hnew : ∃ a b lo hi, IterativeParams.new a b lo hi = .ok p)
    (ha : p.maxStepAbs ≠ .nan) (hb : p.maxStepRel ≠ .nan) :
    leb (.zero false) p.maxStepAbs = true ∧ leb (.zero false) p.maxStepRel = true := by
  obtain ⟨a, b, lo, hi, hn⟩ := hnew
  obtain ⟨h1, h2, h3, rfl⟩ := params_new_eq_ok.1 hn
  have hz : (Scalar.zero : Fl K) ≠ .nan := by simp [fl_zero]
  exact ⟨fl_le_of_lt ((fl_le_false ha hz).1 h1), fl_le_of_lt ((fl_le_false hb hz).1 h2)⟩

theorem signed_abs {r : Fl K} (hr : r ≠ .nan) : (if r.sign then Fl.neg (Fl.abs r) else Fl.abs r) = r := by
  rw [← mul_signum hr, abs_mul_signum hr]

/-- A bound above the raw step leaves it alone. -/
theorem flStep_free {M r : Fl K} (h : leb (Fl.abs r) M = true) :
    leb (flStep M r) r = true ∧ leb r (flStep M r) = true := by
  have hrn : r ≠ .nan := by
    intro e; rw [e] at h; simp [Fl.abs, leb] at h
  have h1 : leb (Fl.min M (Fl.abs r)) (Fl.abs r) = true := min_leb_right (abs_not_nan hrn)
  have h2 : leb (Fl.abs r) (Fl.min M (Fl.abs r)) = true := leb_min h (leb_refl (abs_not_nan hrn))
  have e := signed_abs hrn
  unfold flStep
  split
  · rename_i hs
    rw [if_pos hs] at e
    have h3 : leb (Fl.neg (Fl.min M (Fl.abs r))) (Fl.neg (Fl.abs r)) = true := by
      rw [neg_leb_neg]; exact h2
    have h4 : leb (Fl.neg (Fl.abs r)) (Fl.neg (Fl.min M (Fl.abs r))) = true := by
      rw [neg_leb_neg]; exact h1
    exact ⟨leb_trans h3 (by rw [e]; exact leb_refl hrn), leb_trans (by rw [e]; exact leb_refl hrn) h4⟩
  · rename_i hs
    rw [if_neg hs] at e
    exact ⟨leb_trans h1 (by rw [e]; exact leb_refl hrn), leb_trans (by rw [e]; exact leb_refl hrn) h2⟩

theorem flStep_inf {r : Fl K} (hr : r ≠ .nan) : flStep (.inf false) r = r := by
  have : Fl.min (.inf false) (Fl.abs r) = Fl.abs r := by
    rcases r with _ | s | s | ⟨x, hx⟩
    · exact absurd rfl hr
    · rfl
    · rfl
    · simp only [Fl.abs]
      split <;> rfl
  unfold flStep
  rw [this]
  exact signed_abs hr

theorem max_negInf {x : Fl K} (h : x ≠ .nan) : Fl.max x (.inf true) = x := by
  rcases x with _ | s | s | ⟨x, hx⟩
  · exact absurd rfl h
  · cases s <;> rfl
  · rfl
  · rfl

theorem min_inf {x : Fl K} (h : x ≠ .nan) : Fl.min x (.inf false) = x := by
  rcases x with _ | s | s | ⟨x, hx⟩
  · exact absurd rfl h
  · cases s <;> rfl
  · rfl
  · rfl

theorem flMaxStep_default (v : Fl K) :
    Fl.min (.inf false) (Fl.mul (.inf false) (Fl.abs v)) = .inf false := by
  rcases v with _ | s | s | ⟨x, hx⟩
  · rfl
  · rfl
  · rfl
  · simp only [Fl.abs]
    split
    · rename_i h
      simp [Fl.mul, sign, not_lt.2 (neg_pos.2 h).le, Fl.min, ltb]
    · rename_i h
      simp [Fl.mul, sign, h, Fl.min, ltb]

end Nrf
