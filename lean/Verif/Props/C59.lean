import Verif.Proofs.Stay
import Verif.Proofs.LimitsFloat
import Verif.Model.Binary64
import Verif.Spec.Demo
import Verif.Spec.Function

/-!
# C59: a variable strictly inside its range can always move

The property fails at the value zero: the relative limit `max_step_rel * |value|` is zero there, so
with a finite `max_step_rel` a variable that is zero stays zero for ever.
-/

namespace Nrf

open scoped Exact in
/-- Exact arithmetic: for every accepted parameter set and every value strictly inside the range, a
non-zero raw step moves the value, exactly when the value is not zero.  The property asks for it at
zero as well. -/
theorem C59_exact_partial {K : Type} [Field K] [LinearOrder K] [IsStrictOrderedRing K]
    (p : IterativeParams K) (hnew : ∃ a b lo hi, IterativeParams.new a b lo hi = .ok p) (v r : K)
    (hlo : p.minValue < v) (hhi : v < p.maxValue) (hr : r ≠ 0) :
    p.stepLimitation v r ≠ v ↔ v ≠ 0 := by
  obtain ⟨a, b, lo, hi, hn⟩ := hnew
  obtain ⟨h1, h2, h3, rfl⟩ := params_new_eq_ok.1 hn
  rw [ex_le_false] at h1 h2 h3
  change 0 < a at h1
  change 0 < b at h2
  change lo < v at hlo
  change v < hi at hhi
  have e : (⟨a, b, lo, hi⟩ : IterativeParams K).stepLimitation v r =
      min (max (v + min (min a (b * |v|)) |r| * (if 0 ≤ r then 1 else -1)) lo) hi := rfl
  constructor
  · rintro h rfl
    apply h
    have h0 : min a (b * |(0 : K)|) = 0 := by rw [abs_zero, mul_zero]; exact min_eq_right h1.le
    have h4 : min (0 : K) |r| = 0 := min_eq_left (abs_nonneg r)
    rw [e, h0, h4, zero_mul, add_zero, max_eq_left hlo.le, min_eq_left hhi.le]
  · intro hv
    have hM : 0 < min (min a (b * |v|)) |r| :=
      lt_min (lt_min h1 (mul_pos h2 (abs_pos.2 hv))) (abs_pos.2 hr)
    rw [e]
    rcases le_total 0 r with h | h
    · rw [if_pos h, mul_one]
      exact (lt_min (lt_max_of_lt_left (by linarith)) hhi).ne'
    · rw [if_neg (not_le.2 (lt_of_le_of_ne h hr)), mul_neg_one]
      exact ((min_le_left _ _).trans_lt (max_lt (by linarith) hlo)).ne

open scoped Exact in
/-- Refutation for whole solves, in exact arithmetic: whatever the method, the damping, the other
variables, the equations and the solver's past, a variable that is zero in the guess is zero in the
model at the end. -/
theorem C59_refuted {K : Type} [Field K] [LinearOrder K] [IsStrictOrderedRing K] {n : Nat}
    {EI EU S : Type} (c : Config K n) (m : UserModel K n EI EU S) (st st' : Solver K n) (s s' : S)
    (r : Except (SolverError EI EU) Unit) (i : Fin n) (p : IterativeParams K)
    (hG : Spec.GetSet m) (hA : Spec.AnalyticJacobian m)
    (hnew : ∃ a b lo hi, IterativeParams.new a b lo hi = .ok p)
    (hp : (c.iters i).stepLimitation = p.stepLimitation)
    (hlo : p.minValue ≤ 0) (hhi : 0 ≤ p.maxValue)
    (h : solve c m st s = .ok (st', s', r)) (h0 : c.guess i = 0) :
    m.getIteratives s' i = 0 := by
  obtain ⟨a, b, lo, hi, hn⟩ := hnew
  obtain ⟨h1, h2, h3, rfl⟩ := params_new_eq_ok.1 hn
  rw [ex_le_false] at h1
  change 0 < a at h1
  change lo ≤ 0 at hlo
  change 0 ≤ hi at hhi
  refine solve_stays (Q := fun v => v = 0) hG hA ?_ ?_ h h0
  · rintro v raw rfl
    rw [hp]
    have e : (⟨a, b, lo, hi⟩ : IterativeParams K).stepLimitation 0 raw =
      min (max (0 + min (min a (b * |(0 : K)|)) |raw| * (if 0 ≤ raw then 1 else -1)) lo) hi := rfl
    have h0 : min a (b * |(0 : K)|) = 0 := by rw [abs_zero, mul_zero]; exact min_eq_right h1.le
    have h4 : min (0 : K) |raw| = 0 := min_eq_left (abs_nonneg raw)
    rw [e, h0, h4, zero_mul, add_zero, max_eq_left hlo, min_eq_left hhi]
  · intro x y hx hy
    have e : dampedGuess x y i = x i * (1 - 1 / 2) + y i * (1 / 2) := rfl
    rw [e, hx, hy]; ring

/-- Floating point: with a finite `max_step_rel`, a limited step from zero is a zero, for every raw
step that is not NaN. -/
theorem C59_refuted_float {K : Type} [Field K] [LinearOrder K] [Rounding K] [IsStrictOrderedRing K]
    (p : IterativeParams (Fl K)) (hnew : ∃ a b lo hi, IterativeParams.new a b lo hi = .ok p)
    (ha : p.maxStepAbs ≠ .nan) (hb : p.maxStepRel.IsFinite)
    (hlo : Scalar.le p.minValue Scalar.zero = true) (hhi : Scalar.le Scalar.zero p.maxValue = true)
    (z : Bool) (r : Fl K) (hr : r ≠ .nan) : ∃ z', p.stepLimitation (.zero z) r = .zero z' := by
  obtain ⟨ha', hb'⟩ := fl_accepted hnew ha hb.not_nan
  have hz : ∃ t, Fl.mul p.maxStepRel (.zero false) = .zero t := by
    rcases hq : p.maxStepRel with _ | t | t | ⟨x, hx⟩
    · rw [hq] at hb; exact hb.elim
    · rw [hq] at hb; exact hb.elim
    · exact ⟨_, rfl⟩
    · exact ⟨_, rfl⟩
  obtain ⟨t, ht⟩ := hz
  have zero_of : ∀ {q : Fl K}, Fl.leb q (.zero false) = true → Fl.leb (.zero false) q = true →
      ∃ t, q = .zero t := by
    intro q h1 h2
    rcases q with _ | s | s | ⟨x, hx⟩
    · cases h1
    · cases s <;> simp [Fl.leb] at h1 h2
    · exact ⟨s, rfl⟩
    · simp [Fl.leb] at h1 h2; exact absurd h1 (not_lt.2 h2.le)
  -- the bound is a zero
  obtain ⟨t1, h1⟩ : ∃ t1, Fl.min p.maxStepAbs (Fl.mul p.maxStepRel (Fl.abs (.zero z))) = .zero t1 := by
    change ∃ t1, Fl.min p.maxStepAbs (Fl.mul p.maxStepRel (.zero false)) = .zero t1
    rw [ht]
    refine zero_of ?_ ?_
    · exact Fl.leb_trans (Fl.min_leb_right (by simp)) rfl
    · exact Fl.leb_min ha' rfl
  -- so is the step
  obtain ⟨t2, h2⟩ : ∃ t2, flStep (.zero t1 : Fl K) r = .zero t2 := by
    obtain ⟨g1, g2⟩ := flStep_bound (M := (.zero t1 : Fl K)) rfl hr
    exact zero_of (Fl.leb_trans g2 rfl) (Fl.leb_trans rfl g1)
  rw [fl_stepLimitation' p _ hr, h1, h2]
  have hv : Fl.add (.zero z) (.zero t2) = (.zero (z && t2) : Fl K) := rfl
  rw [hv]
  obtain ⟨g1, g2⟩ := clamp_between (v := (.zero (z && t2) : Fl K)) (a := .zero (z && t2))
    (Fl.leb_trans hlo rfl) (Fl.leb_trans (b := .zero false) rfl hhi) (by simp)
  exact zero_of (Fl.leb_trans (g2 rfl).1 rfl) (Fl.leb_trans (b := .zero (z && t2)) rfl (g1 rfl).1)

/-- Floating point, the case left: with an infinite `max_step_rel` (the default) the relative limit at
zero is NaN and ignored, and every raw step other than NaN and zero moves a variable away from a zero
strictly inside its range. -/
theorem C59_unlimited_partial {K : Type} [Field K] [LinearOrder K] [Rounding K]
    [IsStrictOrderedRing K] (p : IterativeParams (Fl K))
    (hnew : ∃ a b lo hi, IterativeParams.new a b lo hi = .ok p)
    (ha : p.maxStepAbs ≠ .nan) (hb : p.maxStepRel = .inf false)
    (hlo : Scalar.lt p.minValue Scalar.zero = true) (hhi : Scalar.lt Scalar.zero p.maxValue = true)
    (z : Bool) (r : Fl K) (hr : r ≠ .nan) (hr0 : ∀ t, r ≠ .zero t) :
    ∀ t, p.stepLimitation (.zero z) r ≠ .zero t := by
  have ha' : Fl.ltb (.zero false) p.maxStepAbs = true := by
    obtain ⟨a, b, lo, hi, hn⟩ := hnew
    obtain ⟨h1, -, -, hp⟩ := params_new_eq_ok.1 hn
    rw [hp] at ha ⊢
    exact (fl_le_false ha (by simp [fl_zero])).1 h1
  change Fl.ltb p.minValue (.zero false) = true at hlo
  change Fl.ltb (.zero false) p.maxValue = true at hhi
  have habs : Fl.ltb (.zero false) (Fl.abs r) = true := by
    rcases r with _ | s | s | ⟨x, hx⟩
    · exact absurd rfl hr
    · rfl
    · exact absurd rfl (hr0 s)
    · simp only [Fl.abs]
      split
      · rename_i h; simpa [Fl.ltb] using h
      · rename_i h; simpa [Fl.ltb] using lt_of_le_of_ne (not_lt.1 h) (Ne.symm hx.1)
  rw [fl_stepLimitation' p _ hr, hb]
  have e1 : Fl.mul (.inf false) (Fl.abs (.zero z)) = (.nan : Fl K) := rfl
  rw [e1, Fl.min_nan_right]
  -- the magnitude of the step is positive
  have hm : Fl.ltb (.zero false) (Fl.min p.maxStepAbs (Fl.abs r)) = true := by
    rw [Fl.min_eq ha (Fl.abs_not_nan hr)]
    split <;> assumption
  have e2 : ∀ q : Fl K, (∀ t, q ≠ .zero t) → Fl.add (.zero z) q = q := by
    intro q hq
    rcases q with _ | s | s | ⟨x, hx⟩
    · rfl
    · rfl
    · exact absurd rfl (hq s)
    · rfl
  have pos_ne : ∀ {q : Fl K}, Fl.ltb (.zero false) q = true → ∀ t, q ≠ .zero t := by
    rintro q h t rfl; cases h
  have neg_ne : ∀ {q : Fl K}, Fl.ltb q (.zero false) = true → ∀ t, q ≠ .zero t := by
    rintro q h t rfl; cases h
  have hq : ∀ t, flStep p.maxStepAbs r ≠ .zero t := by
    unfold flStep
    generalize Fl.min p.maxStepAbs (Fl.abs r) = M at hm
    split
    · rcases M with _ | s | s | ⟨x, hx⟩
      · cases hm
      · simp [Fl.neg]
      · cases hm
      · simp [Fl.neg]
    · exact pos_ne hm
  rw [e2 _ hq]
  intro t ht
  have hmin : ∀ {a b : Fl K}, Fl.min a b = .zero t → a = .zero t ∨ b = .zero t := by
    intro a b h
    by_cases h1 : a = .nan
    · rw [h1, Fl.min_nan_left] at h; exact .inr h
    by_cases h2 : b = .nan
    · rw [h2, Fl.min_nan_right] at h; exact .inl h
    rw [Fl.min_eq h1 h2] at h
    split at h
    · exact .inr h
    · exact .inl h
  have hmax : ∀ {a b : Fl K}, Fl.max a b = .zero t → a = .zero t ∨ b = .zero t := by
    intro a b h
    by_cases h1 : a = .nan
    · rw [h1, Fl.max_nan_left] at h; exact .inr h
    by_cases h2 : b = .nan
    · rw [h2, Fl.max_nan_right] at h; exact .inl h
    rw [Fl.max_eq h1 h2] at h
    split at h
    · exact .inr h
    · exact .inl h
  rcases hmin ht with h | h
  · rcases hmax h with h | h
    · exact hq t h
    · exact neg_ne hlo t h
  · exact pos_ne hhi t h

namespace Demo59

open scoped Exact

/-- `x = 1`, which every method solves in one step from any other guess. -/
def shift : UserModel ℚ 1 Empty Empty (AdapterState ℚ 1) :=
  fromFunctionAndJacobian (fun x _ => x 0 - 1) (fun _ _ _ => 1)

theorem getSet : Spec.GetSet shift := ⟨fun _ _ => rfl, fun _ => rfl⟩

theorem analytic : Spec.AnalyticJacobian shift := ⟨fun _ => rfl, fun _ => rfl, fun _ => rfl⟩

end Demo59

open scoped Exact in
/-- The equation `x = 1` is not solved from 0 in a thousand iterations, and is from 1/10. -/
example :
    Demo.kind (solve (Demo.cfg .NewtonRaphson false 1000 (1 / 1000) 0) Demo59.shift .new
      Demo.start) = .nonConvergence ∧
    Demo.kind (solve (Demo.cfg .NewtonRaphson false 1000 (1 / 1000) (1 / 10)) Demo59.shift .new
      Demo.start) = .ok := by
  constructor <;> decide +kernel

open scoped Exact in
/-- Hypotheses of `C59_refuted` and of `C59_exact_partial`. -/
example : Spec.GetSet Demo59.shift ∧ Spec.AnalyticJacobian Demo59.shift ∧
    (∃ a b lo hi, IterativeParams.new a b lo hi = .ok Demo.wide.iterativeParams) ∧
    ((Demo.cfg .NewtonRaphson false 9 (1 / 1000) 0).iters 0).stepLimitation =
      Demo.wide.iterativeParams.stepLimitation ∧
    Demo.wide.iterativeParams.minValue < 0 ∧ 0 < Demo.wide.iterativeParams.maxValue :=
  ⟨Demo59.getSet, Demo59.analytic,
    ⟨_, _, _, _, params_new_eq_ok.2 ⟨by decide +kernel, by decide +kernel, by decide +kernel, rfl⟩⟩,
    rfl, by decide +kernel, by decide +kernel⟩

/-- In binary64, `max_step_rel = 1` keeps zero at zero and the default does not. -/
example : (⟨Fl.one, Fl.one, .inf true, .inf false⟩ : IterativeParams F64).stepLimitation
      (.zero false) (Fl.ofExact false (1 / 10)) = .zero false ∧
    (IterativeParams.default : IterativeParams F64).stepLimitation
      (.zero false) (Fl.ofExact false (1 / 10)) = Fl.ofExact false (1 / 10) := by
  constructor <;> decide +kernel

/-- Hypotheses of the two float theorems. -/
example : (∃ a b lo hi, IterativeParams.new a b lo hi =
      .ok (⟨Fl.one, Fl.one, .inf true, .inf false⟩ : IterativeParams F64)) ∧
    (Fl.one : F64).IsFinite ∧
    (∃ a b lo hi, IterativeParams.new a b lo hi = .ok (IterativeParams.default : IterativeParams F64)) ∧
    Scalar.lt (.inf true : F64) Scalar.zero = true ∧ Scalar.lt Scalar.zero (.inf false : F64) = true := by
  refine ⟨⟨_, _, _, _, params_new_eq_ok.2 ⟨?_, ?_, ?_, rfl⟩⟩, trivial,
    ⟨_, _, _, _, params_new_eq_ok.2 ⟨?_, ?_, ?_, rfl⟩⟩, ?_, ?_⟩ <;> decide +kernel

end Nrf
