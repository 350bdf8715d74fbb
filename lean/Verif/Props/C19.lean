import Verif.Proofs.LimitsFloat
import Verif.Model.Binary64

/-!
# C19: step size limits
-/

namespace Nrf

open scoped Exact in
/-- Exact arithmetic: for every accepted parameter set, current value in the range and raw step,
the value moves by at most `max_step_abs` and at most `max_step_rel * |value|`. -/
theorem C19_exact {K : Type} [Field K] [LinearOrder K] [IsStrictOrderedRing K]
    (p : IterativeParams K) (hnew : ∃ a b lo hi, IterativeParams.new a b lo hi = .ok p) (v r : K)
    (hlo : p.minValue ≤ v) (hhi : v ≤ p.maxValue) :
    |p.stepLimitation v r - v| ≤ p.maxStepAbs ∧
    |p.stepLimitation v r - v| ≤ p.maxStepRel * |v| := by
  obtain ⟨a, b, lo, hi, hn⟩ := hnew
  obtain ⟨h1, h2, h3, rfl⟩ := params_new_eq_ok.1 hn
  rw [ex_le_false] at h1 h2 h3
  change 0 < a at h1
  change 0 < b at h2
  change lo ≤ v at hlo
  change v ≤ hi at hhi
  have key : ∀ M : K, 0 ≤ M → ∀ s : K, |s| ≤ M → |min (max (v + s) lo) hi - v| ≤ M := by
    intro M hM s hs
    obtain ⟨g1, g2⟩ := abs_le.1 hs
    rw [abs_le]
    constructor
    · have : v - M ≤ min (max (v + s) lo) hi := le_min (le_max_of_le_left (by linarith)) (by linarith)
      linarith
    · have : min (max (v + s) lo) hi ≤ v + M := (min_le_left _ _).trans (max_le (by linarith) (by linarith))
      linarith
  have hM : 0 ≤ min a (b * |v|) := le_min h1.le (mul_nonneg h2.le (abs_nonneg v))
  have hs : |min (min a (b * |v|)) |r| * (if 0 ≤ r then 1 else -1)| ≤ min a (b * |v|) := by
    have h0 : 0 ≤ min (min a (b * |v|)) |r| := le_min hM (abs_nonneg r)
    have : |min (min a (b * |v|)) |r| * (if 0 ≤ r then (1 : K) else -1)| = min (min a (b * |v|)) |r| := by
      split <;> simp [abs_of_nonneg h0]
    rw [this]
    exact min_le_left _ _
  exact ⟨key a h1.le _ (hs.trans (min_le_left _ _)),
    key _ (mul_nonneg h2.le (abs_nonneg v)) _ (hs.trans (min_le_right _ _))⟩

/-- Floating point, raw step not NaN: the limited value lies between the floats `v - limit` and
`v + limit`, for both limits (the sums are the rounded ones).  The property also asks this of NaN
raw steps, see `C19_refuted`, and asks it without rounding, see `C19_refuted_rounding`. -/
theorem C19_float_partial {K : Type} [Field K] [LinearOrder K] [Rounding K] [IsStrictOrderedRing K]
    (p : IterativeParams (Fl K)) (hnew : ∃ a b lo hi, IterativeParams.new a b lo hi = .ok p)
    (ha : p.maxStepAbs ≠ .nan) (hb : p.maxStepRel ≠ .nan) (v r : Fl K) (hv : v.IsFinite)
    (hlo : Scalar.le p.minValue v = true) (hhi : Scalar.le v p.maxValue = true) (hr : r ≠ .nan) :
    (Scalar.le (Scalar.sub v p.maxStepAbs) (p.stepLimitation v r) = true ∧
      Scalar.le (p.stepLimitation v r) (Scalar.add v p.maxStepAbs) = true) ∧
    (Scalar.mul p.maxStepRel (Scalar.abs v) ≠ .nan →
      Scalar.le (Scalar.sub v (Scalar.mul p.maxStepRel (Scalar.abs v))) (p.stepLimitation v r) = true ∧
      Scalar.le (p.stepLimitation v r) (Scalar.add v (Scalar.mul p.maxStepRel (Scalar.abs v))) = true) := by
  obtain ⟨a, b, lo, hi, hn⟩ := hnew
  obtain ⟨h1, h2, h3, hp⟩ := params_new_eq_ok.1 hn
  have hz : (Scalar.zero : Fl K) ≠ .nan := by simp [fl_zero]
  have ha' : Fl.leb (.zero false) p.maxStepAbs = true := by
    rw [hp] at ha ⊢
    exact fl_le_of_lt ((fl_le_false ha hz).1 h1)
  have hb' : Fl.leb (.zero false) p.maxStepRel = true := by
    rw [hp] at hb ⊢
    exact fl_le_of_lt ((fl_le_false hb hz).1 h2)
  exact ⟨fl_limited_within ha' hb' hlo hhi hv hr (flMaxStep_le_abs ha v),
    fun hm => fl_limited_within ha' hb' hlo hhi hv hr (flMaxStep_le_rel hm)⟩

namespace Demo64

/-- Limits: steps of at most 1 and at most the value, range `[-16, 16]`. -/
def unit : IterativeParams F64 :=
  ⟨Fl.one, Fl.one, Fl.ofExact false (-16), Fl.ofExact false 16⟩

end Demo64

/-- A NaN raw step breaks the limits: with `max_step_abs = 1` the value 8 moves to -16. -/
theorem C19_refuted :
    (∃ a b lo hi, IterativeParams.new a b lo hi = .ok Demo64.unit) ∧
    Demo64.unit.stepLimitation (Fl.ofExact false 8) .nan = Fl.ofExact false (-16) := by
  refine ⟨⟨_, _, _, _, params_new_eq_ok.2 ⟨?_, ?_, ?_, rfl⟩⟩, ?_⟩ <;> decide +kernel

/-- Rounding breaks the limits by an ulp: with `max_step_abs = 3 * 2⁻⁵⁴` the value 1 moves by
`2⁻⁵²`. -/
theorem C19_refuted_rounding :
    ∃ (p : IterativeParams F64) (r x a : ℚ) (h : IsFloat a) (hx : IsFloat x) (hr : IsFloat r),
      (∃ a b lo hi, IterativeParams.new a b lo hi = .ok p) ∧ p.maxStepAbs = .num a h ∧
      p.stepLimitation Fl.one (.num r hr) = .num x hx ∧ a < x - 1 := by
  have h1 : (IsFloat (K := ℚ) (3 / 2 ^ 54)) ∧ IsFloat (K := ℚ) (1 + 1 / 2 ^ 52) ∧
      IsFloat (K := ℚ) 1 := by unfold IsFloat; decide +kernel
  have e : ∀ h : IsFloat (K := ℚ) (3 / 2 ^ 54), (Fl.num _ h : F64) = Fl.ofExact false (3 / 2 ^ 54) :=
    fun h => (Fl.ofExact_self false h).symm
  refine ⟨⟨.num (3 / 2 ^ 54) h1.1, Fl.one, .inf true, .inf false⟩, 1, 1 + 1 / 2 ^ 52, 3 / 2 ^ 54, h1.1,
    h1.2.1, h1.2.2, ⟨_, _, _, _, params_new_eq_ok.2 ⟨?_, ?_, ?_, rfl⟩⟩, rfl, ?_, ?_⟩
  · rw [e]; decide +kernel
  · decide +kernel
  · decide +kernel
  · rw [e, ← Fl.ofExact_self false h1.2.1, ← Fl.ofExact_self false h1.2.2]
    decide +kernel
  · norm_num

open scoped Exact in
/-- Accepted parameters with active limits: the raw step 10 at 2 is cut to 1. -/
example : (∃ a b lo hi, IterativeParams.new a b lo hi = .ok (⟨1, 3, -5, 5⟩ : IterativeParams ℚ)) ∧
    (⟨1, 3, -5, 5⟩ : IterativeParams ℚ).stepLimitation 2 10 = 3 :=
  ⟨⟨_, _, _, _, params_new_eq_ok.2 ⟨by decide, by decide, by decide, rfl⟩⟩, by decide +kernel⟩

/-- Hypotheses of the float theorem: the raw step 10 at 2 is cut to 1. -/
example : (∃ a b lo hi, IterativeParams.new a b lo hi = .ok Demo64.unit) ∧
    (Fl.two : F64).IsFinite ∧ Scalar.le Demo64.unit.minValue Fl.two = true ∧
    Scalar.le Fl.two Demo64.unit.maxValue = true ∧
    Demo64.unit.stepLimitation Fl.two (Fl.ofExact false 10) = Fl.ofExact false 3 := by
  refine ⟨⟨_, _, _, _, params_new_eq_ok.2 ⟨?_, ?_, ?_, rfl⟩⟩, trivial, ?_, ?_, ?_⟩ <;> decide +kernel

end Nrf
