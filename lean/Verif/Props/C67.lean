import Verif.Proofs.ConfigText
import Verif.Props.C65

set_option linter.unusedSectionVars false

/-!
# C67: the log identifies the configuration
-/

namespace Nrf
open Spec

/-- **C67 fails for the resolution method.** Updating the Jacobian matrix and updating its inverse are different methods
with the same text. -/
theorem C67_method_refuted (u : UpdateMethod) :
    (ResolutionMethod.QuasiNewton (.JacobianUpdate u)) ≠ .QuasiNewton (.InverseJacobianUpdate u) ∧
    (ResolutionMethod.QuasiNewton (.JacobianUpdate u)).text = (ResolutionMethod.QuasiNewton (.InverseJacobianUpdate u)).text :=
  ⟨by simp, rfl⟩

/-- Methods which differ at most in what they update. -/
def Spec.SameUpdate : ResolutionMethod → ResolutionMethod → Prop
  | .QuasiNewton (.JacobianUpdate u), .QuasiNewton (.InverseJacobianUpdate v) => u = v
  | .QuasiNewton (.InverseJacobianUpdate u), .QuasiNewton (.JacobianUpdate v) => u = v
  | a, b => a = b

/-- This is all that is lost. -/
theorem C67_method_partial (a b : ResolutionMethod) : a.text = b.text ↔ Spec.SameUpdate a b := by
  rcases a with _ | (_ | u | u) <;> rcases b with _ | (_ | v | v) <;> (try cases u) <;> (try cases v) <;>
    first
      | exact ⟨fun _ => rfl, fun _ => rfl⟩
      | (simp only [Spec.SameUpdate, reduceCtorEq, iff_false, ResolutionMethod.QuasiNewton.injEq,
          QuasiNewtonMethod.JacobianUpdate.injEq, QuasiNewtonMethod.InverseJacobianUpdate.injEq]; decide)

section
variable {F : Type} {n : Nat} {num : F → List Char}

/-- Everything else is identified.  Two configurations (with finite differences) whose parameters are written in the
same way have the same size, limit, tolerance, damping, iteratives and residuals, and methods which differ at most in what
they update. -/
theorem C67_configuration_partial [Scalar F] (hnum : PlainNum num) (hinj : Function.Injective num)
    {mat : Mat F n → List Char} (c c' : Config F n) (ps ps' : Fin n → IterativeParamsFD F)
    (h : (LogEntry.parameters (F := F) (n := n)).text num mat c true ((List.finRange n).map fun i => (ps i).text num) =
      (LogEntry.parameters (F := F) (n := n)).text num mat c' true ((List.finRange n).map fun i => (ps' i).text num)) :
    c.params.problemSize = c'.params.problemSize ∧ c.params.maxIter = c'.params.maxIter ∧
    c.params.tolerance = c'.params.tolerance ∧ c.params.damping = c'.params.damping ∧
    Spec.SameUpdate c.params.method c'.params.method ∧ ps = ps' ∧ c.res = c'.res := by
  have nl : ∀ ps : Fin n → IterativeParamsFD F, ∀ t ∈ (List.finRange n).map fun i => (ps i).text num, '\n' ∉ t := by
    intro ps t ht
    obtain ⟨i, -, rfl⟩ := List.mem_map.1 ht
    exact (C65_iteratives_one_line hnum).2 _
  obtain ⟨h1, h2, h3⟩ := config_parts hnum (nl ps) (nl ps') (by simp) h
  have h4 := congrArg cells h1
  rw [row_cells hnum, row_cells hnum] at h4
  simp only [List.cons.injEq, and_true, true_and] at h4
  obtain ⟨e1, e2, e3, e4, e5⟩ := h4
  exact ⟨natText_injective e1, natText_injective e2, hinj e3, bool_filter e4,
    (C67_method_partial _ _).1 (method_filter e5),
    funext fun i => paramsFD_text_injective hnum hinj (List.map_inj_left.1 h2 i (List.mem_finRange i)), h3⟩

/-- The same without finite differences. -/
theorem C67_configuration_plain_partial [Scalar F] (hnum : PlainNum num) (hinj : Function.Injective num)
    {mat : Mat F n → List Char} (c c' : Config F n) (ps ps' : Fin n → IterativeParams F)
    (h : (LogEntry.parameters (F := F) (n := n)).text num mat c false ((List.finRange n).map fun i => (ps i).text num) =
      (LogEntry.parameters (F := F) (n := n)).text num mat c' false ((List.finRange n).map fun i => (ps' i).text num)) :
    c.params.problemSize = c'.params.problemSize ∧ c.params.maxIter = c'.params.maxIter ∧
    c.params.tolerance = c'.params.tolerance ∧ c.params.damping = c'.params.damping ∧
    Spec.SameUpdate c.params.method c'.params.method ∧ ps = ps' ∧ c.res = c'.res := by
  have nl : ∀ ps : Fin n → IterativeParams F, ∀ t ∈ (List.finRange n).map fun i => (ps i).text num, '\n' ∉ t := by
    intro ps t ht
    obtain ⟨i, -, rfl⟩ := List.mem_map.1 ht
    exact (C65_iteratives_one_line hnum).1 _
  obtain ⟨h1, h2, h3⟩ := config_parts hnum (nl ps) (nl ps') (by simp) h
  have h4 := congrArg cells h1
  rw [row_cells hnum, row_cells hnum] at h4
  simp only [List.cons.injEq, and_true, true_and] at h4
  obtain ⟨e1, e2, e3, e4, e5⟩ := h4
  exact ⟨natText_injective e1, natText_injective e2, hinj e3, bool_filter e4,
    (C67_method_partial _ _).1 (method_filter e5),
    funext fun i => params_text_injective hnum hinj (List.map_inj_left.1 h2 i (List.mem_finRange i)), h3⟩

end

/-- The hypotheses can be met (a configuration and itself), and two configurations which only differ in the tolerance
have different texts. -/
example : (Demo.cfg .NewtonRaphson true 50 (1 / 100) 1).params.text Demo.ratText ≠
    (Demo.cfg .NewtonRaphson true 50 (1 / 1000) 1).params.text Demo.ratText := by
  decide +kernel

/-- The two methods of the refutation, with their text. -/
example : (ResolutionMethod.QuasiNewton (.JacobianUpdate .BroydenFirst)).text =
    lit "Quasi Newton: Jacobian matrix behavior: Jacobian matrix approximatedBroyden First Method" := by
  decide +kernel

end Nrf
