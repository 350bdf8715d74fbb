import Verif.Spec.Exact
import Verif.Model.Config

/-!
# Denominators of the quasi-Newton updates

`J` approximates the Jacobian, `H` its inverse, `s` is the step, `y` the change of the residuals, `c`
the residuals at the current point.
-/

namespace Nrf.Spec
open Matrix

/-- The number the update of the Jacobian divides by. -/
def denomJac {K : Type} [Field K] {n : Nat} (u : UpdateMethod) (J H : Matrix (Fin n) (Fin n) K)
    (s y c : Fin n → K) : K :=
  match u with
  | .BroydenFirst => s ⬝ᵥ s
  | .BroydenSecond => y ⬝ᵥ J *ᵥ s
  | .GreenstadtFirst => c ⬝ᵥ J *ᵥ s
  | .GreenstadtSecond => (H *ᵥ y) ⬝ᵥ s

/-- The number the update of the inverse divides by. -/
def denomInv {K : Type} [Field K] {n : Nat} (u : UpdateMethod) (H : Matrix (Fin n) (Fin n) K)
    (s y c : Fin n → K) : K :=
  match u with
  | .BroydenFirst => s ⬝ᵥ H *ᵥ y
  | .BroydenSecond => y ⬝ᵥ y
  | .GreenstadtFirst => c ⬝ᵥ y
  | .GreenstadtSecond => (H *ᵥ y) ⬝ᵥ (H *ᵥ y)

end Nrf.Spec

namespace Nrf

/-- The same configuration with another resolution method. -/
def Config.withMethod {F : Type} {n : Nat} (c : Config F n) (q : ResolutionMethod) : Config F n :=
  { c with params := { c.params with method := q } }

end Nrf
