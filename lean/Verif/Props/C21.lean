import Verif.Proofs.Limits
import Verif.Model.Binary64

/-!
# C21: limited values are never NaN
-/

namespace Nrf
variable {K : Type} [Field K] [LinearOrder K] [Rounding K] [IsStrictOrderedRing K]

/-- Whatever the current value, the raw step and the step limits are, NaN included, the limited
value is not NaN when the bounds are not. -/
theorem C21_never_nan (p : IterativeParams (Fl K)) (hhi : p.maxValue ≠ .nan) (v r : Fl K) :
    p.stepLimitation v r ≠ .nan := by
  rw [fl_stepLimitation]
  exact Fl.min_not_nan hhi

/-- A NaN step or a NaN current value sends the variable to its lower bound. -/
theorem C21_nan_goes_to_min (p : IterativeParams (Fl K)) (hlo : p.minValue ≠ .nan)
    (hle : Scalar.le p.minValue p.maxValue = true) (v r : Fl K) (h : v = .nan ∨ r = .nan) :
    p.stepLimitation v r = p.minValue := by
  have hhi : p.maxValue ≠ .nan := Fl.not_nan_of_leb_right hle
  have hn : Fl.add v (Fl.mul (Fl.min (Fl.min p.maxStepAbs (Fl.mul p.maxStepRel (Fl.abs v)))
      (Fl.abs r)) (Fl.signum r)) = .nan := by
    rcases h with rfl | rfl
    · cases Fl.mul (Fl.min (Fl.min p.maxStepAbs (Fl.mul p.maxStepRel (Fl.abs .nan)))
        (Fl.abs r)) (Fl.signum r) <;> rfl
    · have : ∀ a : Fl K, Fl.mul a (Fl.signum .nan) = .nan := by intro a; cases a <;> rfl
      rw [this]
      cases v <;> rfl
  rw [fl_stepLimitation, hn, Fl.max_nan_left, Fl.min_eq hlo hhi]
  rw [if_neg]
  rw [Fl.ltb_iff hhi hlo]
  exact not_not.2 hle

/-- In `f64` with bounds `[-1, 1]`. -/
example : ∃ p : IterativeParams F64, p.minValue ≠ .nan ∧ p.maxValue ≠ .nan ∧
    Scalar.le p.minValue p.maxValue = true :=
  ⟨⟨.nan, .inf false, Fl.neg Fl.one, Fl.one⟩, by decide +kernel, by decide +kernel, by decide +kernel⟩

end Nrf
