import Verif.Spec.NearSystem

/-!
# A system of equations for which Newton's method converges quadratically
-/

namespace Nrf.Spec

/-- `ρ` is a root of `Φ`.  Within `R` of `ρ`, `A x` is invertible with inverse `B x`, and the Newton linearization at `x` misses
the root by at most `γ` times the square of the distance. -/
structure NewtonSystem {n : Nat} (Φ : (Fin n → ℝ) → Fin n → ℝ) (A B : (Fin n → ℝ) → Matrix (Fin n) (Fin n) ℝ)
    (ρ : Fin n → ℝ) (R σ L γ α β : ℝ) : Prop where
  posed : ∀ x, ‖x - ρ‖ ≤ R → WellPosed (A x) (B x) α β
  newton : ∀ x, ‖x - ρ‖ ≤ R → ‖(A x).mulVec (x - ρ) - Φ x‖ ≤ γ * ‖x - ρ‖ ^ 2
  slope : ∀ x, ‖x - ρ‖ ≤ R → ‖Φ x‖ ≤ L * ‖x - ρ‖
  slopeLow : 0 ≤ L
  slopeHigh : L ≤ 2 ^ 100
  scaleLow : 2 ^ (-900 : ℤ) ≤ σ
  scaleHigh : σ ≤ 2 ^ 90
  rootSize : ‖ρ‖ ≤ σ
  radius : R ≤ σ
  betaLow : 0 ≤ β
  gammaLow : 0 ≤ γ
  small : 4 * (β * γ * R) ≤ 1

/-- What remains of the distance to the root however many passes are made, as far as `C98_quadratic` tells. -/
noncomputable def newtonFloor (n : Nat) (α β η ε L σ R : ℝ) : ℝ :=
  2 * (β * (3 / 2 * (β * η) + 48 * ((n : ℝ) ^ 4 * 3 ^ n * 2 ^ (-53 : ℤ) * (α * β))) * (L * R) + 2 * (β * ε) +
    4 * 2 ^ (-53 : ℤ) * σ)

end Nrf.Spec
