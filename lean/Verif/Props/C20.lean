import Verif.Proofs.LimitsFloat
import Verif.Model.Binary64

/-!
# C20: direction, monotonicity and transparency of the step limitation
-/

namespace Nrf

open scoped Exact in
/-- Exact arithmetic, for every accepted parameter set and every current value in the range:
the move has the sign of the raw step, a raw step away from zero really moves a non-zero value
that is not at the bound, the limited value is monotone in the raw step, and nothing is changed when
no limit is active. -/
theorem C20_exact {K : Type} [Field K] [LinearOrder K] [IsStrictOrderedRing K]
    (p : IterativeParams K) (hnew : ∃ a b lo hi, IterativeParams.new a b lo hi = .ok p) (v : K)
    (hlo : p.minValue ≤ v) (hhi : v ≤ p.maxValue) :
    (∀ r, 0 ≤ r → v ≤ p.stepLimitation v r) ∧
    (∀ r, r ≤ 0 → p.stepLimitation v r ≤ v) ∧
    (∀ r, 0 < r → v ≠ 0 → v < p.maxValue → v < p.stepLimitation v r) ∧
    (∀ r, r < 0 → v ≠ 0 → p.minValue < v → p.stepLimitation v r < v) ∧
    (∀ r r', r ≤ r' → p.stepLimitation v r ≤ p.stepLimitation v r') ∧
    (∀ r, |r| ≤ p.maxStepAbs → |r| ≤ p.maxStepRel * |v| → p.minValue ≤ v + r → v + r ≤ p.maxValue →
      p.stepLimitation v r = v + r) := by
  obtain ⟨a, b, lo, hi, hn⟩ := hnew
  obtain ⟨h1, h2, h3, rfl⟩ := params_new_eq_ok.1 hn
  rw [ex_le_false] at h1 h2 h3
  change 0 < a at h1
  change 0 < b at h2
  change lo ≤ v at hlo
  change v ≤ hi at hhi
  have hM : 0 ≤ min a (b * |v|) := le_min h1.le (mul_nonneg h2.le (abs_nonneg v))
  have hMpos : v ≠ 0 → 0 < min a (b * |v|) := fun h => lt_min h1 (mul_pos h2 (abs_pos.2 h))
  have e : ∀ r, (⟨a, b, lo, hi⟩ : IterativeParams K).stepLimitation v r =
      min (max (v + min (min a (b * |v|)) |r| * (if 0 ≤ r then 1 else -1)) lo) hi := fun r => rfl
  generalize hMe : min a (b * |v|) = M at *
  -- the limited step
  have s1 : ∀ r : K, 0 ≤ r → min M |r| * (if 0 ≤ r then (1 : K) else -1) = min M r := by
    intro r hr; rw [if_pos hr, abs_of_nonneg hr, mul_one]
  have s2 : ∀ r : K, r ≤ 0 → min M |r| * (if 0 ≤ r then (1 : K) else -1) = -min M (-r) := by
    intro r hr
    rcases eq_or_lt_of_le hr with h | h
    · subst h; simp [hM]
    · rw [if_neg (not_le.2 h), abs_of_neg h]; ring
  have mono : ∀ r r', r ≤ r' → min M |r| * (if 0 ≤ r then (1 : K) else -1) ≤
      min M |r'| * (if 0 ≤ r' then (1 : K) else -1) := by
    intro r r' hr
    rcases le_total 0 r with h | h
    · rw [s1 r h, s1 r' (h.trans hr)]; exact min_le_min_left _ hr
    · rcases le_total 0 r' with h' | h'
      · rw [s2 r h, s1 r' h']
        have : 0 ≤ min M (-r) := le_min hM (by linarith)
        have : 0 ≤ min M r' := le_min hM h'
        linarith
      · rw [s2 r h, s2 r' h']
        have : min M (-r') ≤ min M (-r) := min_le_min_left _ (by linarith)
        linarith
  refine ⟨fun r hr => ?_, fun r hr => ?_, fun r hr hv hb => ?_, fun r hr hv hb => ?_, fun r r' hr => ?_,
    fun r g1 g2 g3 g4 => ?_⟩
  · rw [e, s1 r hr]
    have : 0 ≤ min M r := le_min hM hr
    exact le_min (le_max_of_le_left (by linarith)) hhi
  · rw [e, s2 r hr]
    have : 0 ≤ min M (-r) := le_min hM (by linarith)
    exact (min_le_left _ _).trans (max_le (by linarith) hlo)
  · rw [e, s1 r hr.le]
    have : 0 < min M r := lt_min (hMpos hv) hr
    exact lt_min (lt_max_of_lt_left (by linarith)) hb
  · rw [e, s2 r hr.le]
    have : 0 < min M (-r) := lt_min (hMpos hv) (by linarith)
    exact (min_le_left _ _).trans_lt (max_lt (by linarith) hb)
  · rw [e, e]
    exact min_le_min_right _ (max_le_max_right _ (by linarith [mono r r' hr]))
  · change |r| ≤ a at g1
    change |r| ≤ b * |v| at g2
    have g5 : |r| ≤ M := hMe ▸ le_min g1 g2
    have : min M |r| * (if 0 ≤ r then (1 : K) else -1) = r := by
      rw [min_eq_right g5]
      split
      · rename_i h; rw [abs_of_nonneg h, mul_one]
      · rename_i h; rw [abs_of_neg (not_le.1 h)]; ring
    rw [e, this]
    rw [max_eq_left g3, min_eq_left g4]

/-- Floating point with NaN-free accepted parameters and a finite value in the range: the move has
the sign of the raw step, is monotone in it, and equals the (rounded) raw move when no limit is
active.  Equality is IEEE equality, which does not separate the two zeros. -/
theorem C20_float {K : Type} [Field K] [LinearOrder K] [Rounding K] [IsStrictOrderedRing K]
    (p : IterativeParams (Fl K)) (hnew : ∃ a b lo hi, IterativeParams.new a b lo hi = .ok p)
    (ha : p.maxStepAbs ≠ .nan) (hb : p.maxStepRel ≠ .nan) (v : Fl K) (hv : v.IsFinite)
    (hlo : Scalar.le p.minValue v = true) (hhi : Scalar.le v p.maxValue = true) :
    (∀ r, Scalar.le Scalar.zero r = true → Scalar.le v (p.stepLimitation v r) = true) ∧
    (∀ r, Scalar.le r Scalar.zero = true → Scalar.le (p.stepLimitation v r) v = true) ∧
    (∀ r r', Scalar.le r r' = true →
      Scalar.le (p.stepLimitation v r) (p.stepLimitation v r') = true) ∧
    (∀ r, Scalar.le (Scalar.abs r) p.maxStepAbs = true →
      Scalar.le (Scalar.abs r) (Scalar.mul p.maxStepRel (Scalar.abs v)) = true →
      Scalar.le p.minValue (Scalar.add v r) = true → Scalar.le (Scalar.add v r) p.maxValue = true →
      Scalar.le (p.stepLimitation v r) (Scalar.add v r) = true ∧
      Scalar.le (Scalar.add v r) (p.stepLimitation v r) = true) := by
  obtain ⟨ha', hb'⟩ := fl_accepted hnew ha hb
  have hM := flMaxStep_nonneg ha' hb' hv.not_nan
  have hlon : p.minValue ≠ .nan := Fl.not_nan_of_leb_left hlo
  have hhin : p.maxValue ≠ .nan := Fl.not_nan_of_leb_right hhi
  have e : ∀ r : Fl K, r ≠ .nan → p.stepLimitation v r =
      Fl.min (Fl.max (Fl.add v (flStep (flMaxStep p v) r)) p.minValue) p.maxValue :=
    fun r hr => fl_stepLimitation' p v hr
  have hn : ∀ r : Fl K, r ≠ .nan → Fl.add v (flStep (flMaxStep p v) r) ≠ .nan :=
    fun r hr => Fl.add_not_nan hv (Fl.not_nan_of_leb_left (flStep_bound hM hr).2)
  refine ⟨fun r hr => ?_, fun r hr => ?_, fun r r' hr => ?_, fun r g1 g2 g3 g4 => ?_⟩
  · have hrn : r ≠ .nan := Fl.not_nan_of_leb_right hr
    rw [e r hrn]
    exact ((clamp_between hlo hhi (hn r hrn)).1 (Fl.leb_add_of_nonneg hv (flStep_nonneg hM hr))).1
  · have hrn : r ≠ .nan := Fl.not_nan_of_leb_left hr
    rw [e r hrn]
    exact ((clamp_between hlo hhi (hn r hrn)).2 (Fl.add_leb_of_nonpos hv (flStep_nonpos hM hr))).1
  · rw [e r (Fl.not_nan_of_leb_left hr), e r' (Fl.not_nan_of_leb_right hr)]
    exact clamp_mono hlon hhin (Fl.add_mono_right hv (flStep_mono hM hr))
  · have hrn : r ≠ .nan := by
      intro h; rw [h] at g1; revert g1; simp [Scalar.le, Scalar.abs, Fl.abs, Fl.leb]
    have hfree := flStep_free (M := flMaxStep p v) (r := r) (Fl.leb_min g1 g2)
    have hs : (Fl.add v r) ≠ .nan := Fl.not_nan_of_leb_right g3
    have hc := (clamp_between (v := Fl.add v r) g3 g4 hs).1 (Fl.leb_refl hs)
    rw [e r hrn]
    exact ⟨Fl.leb_trans (clamp_mono hlon hhin (Fl.add_mono_right hv hfree.1)) hc.2,
      Fl.leb_trans hc.1 (clamp_mono hlon hhin (Fl.add_mono_right hv hfree.2))⟩

/-- Default parameters never alter a step: the limited value is exactly the sum `v + r`, for all
floats `v` and `r` whose sum is a number. -/
theorem C20_default {K : Type} [Field K] [LinearOrder K] [Rounding K] [IsStrictOrderedRing K]
    (v r : Fl K) (h : Scalar.add v r ≠ .nan) :
    (IterativeParams.default : IterativeParams (Fl K)).stepLimitation v r = Scalar.add v r := by
  have hr : r ≠ .nan := by
    rintro rfl
    apply h
    change Fl.add v .nan = .nan
    cases v <;> rfl
  rw [fl_stepLimitation' _ v hr]
  change Fl.min (Fl.max (Fl.add v (flStep (Fl.min (.inf false) (Fl.mul (.inf false) (Fl.abs v))) r))
    (.inf true)) (.inf false) = Fl.add v r
  have h' : Fl.add v r ≠ .nan := h
  rw [flMaxStep_default, flStep_inf hr, max_negInf h', min_inf h']

namespace Demo20

/-- Steps of at most 1 and at most three times the value, range `[-5, 5]`. -/
def p {K : Type} [Field K] : IterativeParams K := ⟨1, 3, -5, 5⟩

/-- The same in binary64. -/
def q : IterativeParams F64 :=
  ⟨Fl.one, Fl.ofExact false 3, Fl.ofExact false (-5), Fl.ofExact false 5⟩

end Demo20

open scoped Exact in
/-- Hypotheses of `C20_exact`, with a binding and a transparent step. -/
example : (∃ a b lo hi, IterativeParams.new a b lo hi = .ok (Demo20.p : IterativeParams ℚ)) ∧
    (Demo20.p : IterativeParams ℚ).minValue ≤ 2 ∧ 2 ≤ (Demo20.p : IterativeParams ℚ).maxValue ∧
    (Demo20.p : IterativeParams ℚ).stepLimitation 2 10 = 3 ∧
    (Demo20.p : IterativeParams ℚ).stepLimitation 2 (-1/2) = 3/2 :=
  ⟨⟨_, _, _, _, params_new_eq_ok.2 ⟨by decide +kernel, by decide +kernel, by decide +kernel, rfl⟩⟩,
    by decide +kernel, by decide +kernel, by decide +kernel, by decide +kernel⟩

/-- Hypotheses of `C20_float`. -/
example : (∃ a b lo hi, IterativeParams.new a b lo hi = .ok Demo20.q) ∧
    Demo20.q.maxStepAbs ≠ .nan ∧ Demo20.q.maxStepRel ≠ .nan ∧
    (Fl.two : F64).IsFinite ∧ Scalar.le Demo20.q.minValue Fl.two = true ∧
    Scalar.le Fl.two Demo20.q.maxValue = true ∧
    Demo20.q.stepLimitation Fl.two (Fl.ofExact false (-1/2)) = Fl.ofExact false (3/2) := by
  refine ⟨⟨_, _, _, _, params_new_eq_ok.2 ⟨?_, ?_, ?_, rfl⟩⟩, ?_, ?_, trivial, ?_, ?_, ?_⟩ <;>
    decide +kernel

/-- A sum of binary64 numbers that is a number, starting from zero. -/
example : Scalar.add (.zero false : F64) (Fl.ofExact false (1/10)) ≠ .nan ∧
    (IterativeParams.default : IterativeParams F64).stepLimitation (.zero false)
      (Fl.ofExact false (1/10)) = Fl.ofExact false (1/10) := by
  constructor <;> decide +kernel

end Nrf
