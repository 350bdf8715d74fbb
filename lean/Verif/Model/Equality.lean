import Verif.Model.Float
import Verif.Model.Iteratives
import Verif.Model.Residuals
import Verif.Model.Method

/-!
# The derived equality (`#[derive(PartialEq)]`) of the settings

`#[derive(PartialEq)]` compares the variant, then the fields in the order of their declaration, each with the `==` of its
type.  The `==` of `f64` is the comparison of IEEE 754: NaN differs from everything, the two zeros are equal.
`SolverParameters` does not derive the trait.
-/

namespace Nrf

/-- `==` of `f64`. -/
def Fl.eqb {K : Type} [Field K] [LinearOrder K] [Rounding K] : Fl K → Fl K → Bool
  | .inf s, .inf t => s == t
  | .zero _, .zero _ => true
  | .num x _, .num y _ => decide (x = y)
  | _, _ => false

section
variable {K : Type} [Field K] [LinearOrder K] [Rounding K]

/-- `iteratives/iterative_var.rs` L7. -/
def IterativeParams.eqb (p q : IterativeParams (Fl K)) : Bool :=
  Fl.eqb p.maxStepAbs q.maxStepAbs && Fl.eqb p.maxStepRel q.maxStepRel && Fl.eqb p.minValue q.minValue &&
    Fl.eqb p.maxValue q.maxValue

/-- `iteratives/iterative_var_fd.rs` L6. -/
def PerturbationMethod.eqb : PerturbationMethod → PerturbationMethod → Bool
  | .Max, .Max => true
  | .Sum, .Sum => true
  | _, _ => false

/-- `iteratives/iterative_var_fd.rs` L30. -/
def IterativeParamsFD.eqb (p q : IterativeParamsFD (Fl K)) : Bool :=
  p.iterativeParams.eqb q.iterativeParams && p.perturbationMethod.eqb q.perturbationMethod &&
    Fl.eqb p.dxAbs q.dxAbs && Fl.eqb p.dxRel q.dxRel

end

/-- `==` of slices and of `Vec`: the lengths, then the elements in order. -/
def sliceEqb {α : Type} (eq : α → α → Bool) : List α → List α → Bool
  | [], [] => true
  | a :: l, b :: m => eq a b && sliceEqb eq l m
  | _, _ => false

/-- `solver/resolution_method.rs` L148. -/
def UpdateMethod.eqb : UpdateMethod → UpdateMethod → Bool
  | .BroydenFirst, .BroydenFirst => true
  | .BroydenSecond, .BroydenSecond => true
  | .GreenstadtFirst, .GreenstadtFirst => true
  | .GreenstadtSecond, .GreenstadtSecond => true
  | _, _ => false

/-- `solver/resolution_method.rs` L52. -/
def QuasiNewtonMethod.eqb : QuasiNewtonMethod → QuasiNewtonMethod → Bool
  | .StationaryNewton, .StationaryNewton => true
  | .JacobianUpdate a, .JacobianUpdate b => a.eqb b
  | .InverseJacobianUpdate a, .InverseJacobianUpdate b => a.eqb b
  | _, _ => false

/-- `solver/resolution_method.rs` L10. -/
def ResolutionMethod.eqb : ResolutionMethod → ResolutionMethod → Bool
  | .NewtonRaphson, .NewtonRaphson => true
  | .QuasiNewton a, .QuasiNewton b => a.eqb b
  | _, _ => false

/-- `residuals/mod.rs` L21. -/
def NormalizationMethod.eqb : NormalizationMethod → NormalizationMethod → Bool
  | .Abs, .Abs => true
  | .Rel, .Rel => true
  | .Adapt, .Adapt => true
  | _, _ => false

/-- `residuals/config.rs` L9. -/
def ResidualConfig.eqb (a b : ResidualConfig) : Bool :=
  a.stoppingCriteria.eqb b.stoppingCriteria && a.updateMethod.eqb b.updateMethod

/-- `residuals/config.rs` L51. -/
def ResidualsConfig.eqb (a b : ResidualsConfig) : Bool :=
  sliceEqb NormalizationMethod.eqb a.stoppingCriterias b.stoppingCriterias &&
    sliceEqb NormalizationMethod.eqb a.updateMethods b.updateMethods && a.length == b.length

end Nrf
