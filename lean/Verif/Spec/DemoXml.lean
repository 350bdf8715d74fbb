import Verif.Spec.Demo
import Verif.Model.Xml

/-!
# A concrete configuration document

Two equations in two unknowns, with group defaults, overrides, an unknown attribute and
an unknown element.  Numbers are natural numbers read into `ℚ`.
-/

namespace Nrf.Demo

/-- A float parser for the demonstration: decimal naturals. -/
def parseQ (s : String) : Option ℚ := (parseUsize s).map fun k => (k : ℚ)

/-- The document. -/
def document : Element :=
  .mk "nrf" []
    [ .mk "solver" [("resolution_method", "BROY2_INV"), ("tolerance", "3"), ("problem_size", "2"),
        ("max_iter", "+50")] [],
      .mk "iteratives" [("max_step_abs", "100"), ("max_step_rel", "10"), ("min_value", "1"),
          ("max_value", "1000"), ("dx_abs", "4"), ("dx_rel", "5"), ("perturbation_method", "Sum")]
        [ .mk "iterative" [("id", "0"), ("dx_abs", "7")] [],
          .mk "iterative" [("colour", "red"), ("id", "1"), ("perturbation_method", "Max"),
            ("max_step_abs", "20")] [] ],
      .mk "residuals" [("stopping_criteria", "Adapt"), ("update_method", "Abs")]
        [ .mk "residual" [("id", "0")] [],
          .mk "residual" [("id", "1"), ("stopping_criteria", "Rel")] [] ],
      .mk "comments" [] [] ]

/-- What it says. -/
def documentFd : ParsedConfig ℚ (IterativeParamsFD ℚ) :=
  { params :=
      { problemSize := 2
        tolerance := 3
        maxIter := 50
        method := .QuasiNewton (.InverseJacobianUpdate .BroydenSecond)
        damping := false }
    iteratives :=
      [ ⟨⟨100, 10, 1, 1000⟩, .Sum, 7, 5⟩, ⟨⟨20, 10, 1, 1000⟩, .Max, 4, 5⟩ ]
    stoppingCriterias := [.Adapt, .Rel]
    updateMethods := [.Abs, .Abs] }

open scoped Exact in
theorem document_fd : fromXmlFiniteDiff parseQ document = .ok documentFd := by
  rfl

open scoped Exact in
theorem document_jac : fromXmlJacobian parseQ document = .ok
    { documentFd with iteratives := [ ⟨100, 10, 1, 1000⟩, ⟨20, 10, 1, 1000⟩ ] } := by
  rfl

end Nrf.Demo
