import Mathlib.Analysis.Calculus.Deriv.Basic
import Mathlib.Data.Real.Basic

/-!
# One equation with bounded slopes
-/

namespace Nrf.Spec

/-- `f'` is the derivative of `f`, and lies between `μ > 0` and `M` everywhere. -/
structure Slopes (f f' : ℝ → ℝ) (μ M : ℝ) : Prop where
  deriv : ∀ x, HasDerivAt f (f' x) x
  pos : 0 < μ
  low : ∀ x, μ ≤ f' x
  high : ∀ x, f' x ≤ M

/-- The slopes of the chords of `f` lie between `μ > 0` and `M`; `f` may have corners. -/
structure Chords (f : ℝ → ℝ) (μ M : ℝ) : Prop where
  pos : 0 < μ
  chord : ∀ x y, ∃ σ, μ ≤ σ ∧ σ ≤ M ∧ f y - f x = σ * (y - x)

/-- `f` is a straight line of slope `f' x` on one side of every `x`. -/
def StraightOnOneSide (f f' : ℝ → ℝ) : Prop :=
  ∀ x, (∃ y, x < y ∧ ∀ z, x ≤ z → z ≤ y → f z - f x = f' x * (z - x)) ∨
    ∃ y, y < x ∧ ∀ z, y ≤ z → z ≤ x → f z - f x = f' x * (z - x)

end Nrf.Spec
