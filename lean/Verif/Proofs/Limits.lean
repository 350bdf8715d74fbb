import Verif.Proofs.Float
import Verif.Proofs.Exact
import Verif.Model.Iteratives

/-!
# Facts about the iterative parameters
-/

set_option linter.unusedSectionVars false

namespace Nrf

/-- The constructor either rejects or stores its arguments. -/
theorem params_new_eq_ok {F : Type} [Scalar F] {a b lo hi : F} {p : IterativeParams F} :
    IterativeParams.new a b lo hi = .ok p ↔
      Scalar.le a Scalar.zero = false ∧ Scalar.le b Scalar.zero = false ∧ Scalar.le hi lo = false ∧
      p = ⟨a, b, lo, hi⟩ := by
  unfold IterativeParams.new
  rcases Bool.eq_false_or_eq_true (Scalar.le a (Scalar.zero : F)) with h1 | h1 <;>
    rcases Bool.eq_false_or_eq_true (Scalar.le b (Scalar.zero : F)) with h2 | h2 <;>
    rcases Bool.eq_false_or_eq_true (Scalar.le hi lo) with h3 | h3 <;>
    simp [h1, h2, h3, eq_comm]

theorem paramsFd_new_eq_ok {F : Type} [Scalar F] {a b lo hi dxa dxr : F} {meth : PerturbationMethod}
    {p : IterativeParamsFD F} :
    IterativeParamsFD.new a b lo hi dxa dxr meth = .ok p ↔
      Scalar.le dxa Scalar.zero = false ∧ Scalar.le dxr Scalar.zero = false ∧
      ∃ q, IterativeParams.new a b lo hi = .ok q ∧ p = ⟨q, meth, dxa, dxr⟩ := by
  unfold IterativeParamsFD.new
  rcases Bool.eq_false_or_eq_true (Scalar.le dxa (Scalar.zero : F)) with h1 | h1 <;>
    rcases Bool.eq_false_or_eq_true (Scalar.le dxr (Scalar.zero : F)) with h2 | h2 <;>
    rcases IterativeParams.new a b lo hi with q | q <;>
    simp [h1, h2, eq_comm]

theorem paramsFd_extend_eq_ok {F : Type} [Scalar F] {q : IterativeParams F} {dxa dxr : F}
    {meth : PerturbationMethod} {p : IterativeParamsFD F} :
    IterativeParamsFD.extend q dxa dxr meth = .ok p ↔
      Scalar.le dxa Scalar.zero = false ∧ Scalar.le dxr Scalar.zero = false ∧
      p = ⟨q, meth, dxa, dxr⟩ := by
  unfold IterativeParamsFD.extend
  rcases Bool.eq_false_or_eq_true (Scalar.le dxa (Scalar.zero : F)) with h1 | h1 <;>
    rcases Bool.eq_false_or_eq_true (Scalar.le dxr (Scalar.zero : F)) with h2 | h2 <;>
    simp [h1, h2, eq_comm]

section Float
variable {K : Type} [Field K] [LinearOrder K] [Rounding K] [IsStrictOrderedRing K]

theorem fl_le (a b : Fl K) : Scalar.le a b = Fl.leb a b := rfl
theorem fl_lt (a b : Fl K) : Scalar.lt a b = Fl.ltb a b := rfl
theorem fl_zero : (Scalar.zero : Fl K) = .zero false := rfl

theorem fl_le_false {a b : Fl K} (ha : a ≠ .nan) (hb : b ≠ .nan) :
    Scalar.le a b = false ↔ Scalar.lt b a = true := by
  rw [fl_lt, Fl.ltb_iff hb ha, fl_le, Bool.not_eq_true]

theorem fl_le_of_lt {a b : Fl K} (h : Scalar.lt a b = true) : Scalar.le a b = true := by
  have ha : a ≠ .nan := by rintro rfl; simp [fl_lt, Fl.ltb] at h
  have hb : b ≠ .nan := by rintro rfl; cases a <;> simp [fl_lt, Fl.ltb] at h
  rw [fl_lt, Fl.ltb_iff ha hb] at h
  exact (Fl.leb_total ha hb).resolve_right h

/-- Bounds accepted by the constructor are ordered when they are not NaN. -/
theorem fl_bounds {p : IterativeParams (Fl K)} {a b lo hi : Fl K}
    (h : IterativeParams.new a b lo hi = .ok p) (hlo : p.minValue ≠ .nan) (hhi : p.maxValue ≠ .nan) :
    Fl.leb p.minValue p.maxValue = true := by
  obtain ⟨-, -, h3, rfl⟩ := params_new_eq_ok.1 h
  exact fl_le_of_lt ((fl_le_false hhi hlo).1 h3)

/-- The limited value is a clamped value. -/
theorem fl_stepLimitation (p : IterativeParams (Fl K)) (v r : Fl K) :
    p.stepLimitation v r =
      Fl.min (Fl.max (Fl.add v (Fl.mul (Fl.min (Fl.min p.maxStepAbs
        (Fl.mul p.maxStepRel (Fl.abs v))) (Fl.abs r)) (Fl.signum r))) p.minValue) p.maxValue := rfl

end Float

end Nrf
