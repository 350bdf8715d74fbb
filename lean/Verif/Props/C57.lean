import Verif.Model.Errors

/-!
# C57: error messages identify the error
-/

namespace Nrf

/-- The kinds of solver errors, down to the wrapped model error. -/
inductive Spec.ErrorKind where
  | nonConvergence | initialEvaluation | evaluationInaccurate | evaluationUnusable
  | jacobianInaccurate | jacobianUnusable | jacobianNotInvertible | finalEvaluation
  deriving DecidableEq

/-- The kind of an error. -/
def Spec.errorKind {EI EU : Type} : SolverError EI EU → Spec.ErrorKind
  | .nonConvergence => .nonConvergence
  | .modelInitialEvaluation _ => .initialEvaluation
  | .modelEvaluation (.inaccurate _) => .evaluationInaccurate
  | .modelEvaluation (.unusable _) => .evaluationUnusable
  | .jacobian (.invalidJacobian (.inaccurate _)) => .jacobianInaccurate
  | .jacobian (.invalidJacobian (.unusable _)) => .jacobianUnusable
  | .jacobian .invalidJacobianInverse => .jacobianNotInvertible
  | .finalEvaluation => .finalEvaluation

/-- The text of the wrapped user error, if any. -/
def Spec.wrapped {EI EU : Type} (showI : EI → String) (showU : EU → String) :
    SolverError EI EU → Option String
  | .nonConvergence => none
  | .modelInitialEvaluation msg => some msg
  | .modelEvaluation (.inaccurate e) => some (showI e)
  | .modelEvaluation (.unusable e) => some (showU e)
  | .jacobian (.invalidJacobian (.inaccurate e)) => some (showI e)
  | .jacobian (.invalidJacobian (.unusable e)) => some (showU e)
  | .jacobian .invalidJacobianInverse => none
  | .finalEvaluation => none

/-- The fixed part of the text. -/
def Spec.introduction : Spec.ErrorKind → String
  | .nonConvergence => "Convergence not reached"
  | .initialEvaluation => "Initial model evaluation failed: "
  | .evaluationInaccurate => "Model evaluation failed: InaccurateValues Error: "
  | .evaluationUnusable => "Model evaluation failed: UnusableValuesError Error: "
  | .jacobianInaccurate => "Jacobian error: Invalid jacobian: InaccurateValues Error: "
  | .jacobianUnusable => "Jacobian error: Invalid jacobian: UnusableValuesError Error: "
  | .jacobianNotInvertible => "Jacobian error: Non invertible jacobian"
  | .finalEvaluation => "Final model evaluation failed"

/-- The text is the fixed part of its kind followed by the text of the wrapped error. -/
theorem C57_contains {EI EU : Type} (showI : EI → String) (showU : EU → String)
    (e : SolverError EI EU) : e.display showI showU =
      Spec.introduction (Spec.errorKind e) ++ (Spec.wrapped showI showU e).getD "" := by
  have key : ∀ {a b c x : String}, a ++ b = c → a ++ (b ++ x) = c ++ x := by
    rintro a b _ x rfl
    exact String.append_assoc.symm
  have key3 : ∀ {a b c d x : String}, a ++ (b ++ c) = d → a ++ (b ++ (c ++ x)) = d ++ x := by
    rintro a b c _ x rfl
    rw [String.append_assoc, String.append_assoc]
  have nil : ∀ {a : String}, a = a ++ "" := String.append_empty.symm
  match e with
  | .nonConvergence => exact nil
  | .modelInitialEvaluation msg => rfl
  | .modelEvaluation (.inaccurate e) => exact key rfl
  | .modelEvaluation (.unusable e) => exact key rfl
  | .jacobian (.invalidJacobian (.inaccurate e)) => exact key3 rfl
  | .jacobian (.invalidJacobian (.unusable e)) => exact key3 rfl
  | .jacobian .invalidJacobianInverse =>
    exact (show ("Jacobian error: " ++ "Non invertible jacobian" : String) = _ from rfl).trans nil
  | .finalEvaluation => exact nil

/-- No fixed part is the beginning of another one. -/
theorem introduction_prefix : ∀ k k', (Spec.introduction k).toList <+:
    (Spec.introduction k').toList → k = k' := by
  intro k k'
  cases k <;> cases k' <;> decide

/-- The text determines the kind of the error and the text of the wrapped error, whatever
the texts of the user's errors are. -/
theorem C57_text {EI EU : Type} (showI : EI → String) (showU : EU → String)
    (e e' : SolverError EI EU) (h : e.display showI showU = e'.display showI showU) :
    Spec.errorKind e = Spec.errorKind e' ∧
      (Spec.wrapped showI showU e).getD "" = (Spec.wrapped showI showU e').getD "" := by
  rw [C57_contains, C57_contains] at h
  have hl := congrArg String.toList h
  rw [String.toList_append, String.toList_append] at hl
  have hk : Spec.errorKind e = Spec.errorKind e' := by
    rcases List.prefix_or_prefix_of_prefix (hl ▸ List.prefix_append _ _)
      (List.prefix_append _ _) with hp | hp
    · exact (introduction_prefix _ _ hp)
    · exact (introduction_prefix _ _ hp).symm
  refine ⟨hk, ?_⟩
  rw [hk, List.append_cancel_left_eq] at hl
  exact String.toList_inj.1 hl

/-- Two different errors have different texts, as soon as the user's error values do. -/
theorem C57_injective {EI EU : Type} (showI : EI → String) (showU : EU → String)
    (hI : ∀ a b, showI a = showI b → a = b) (hU : ∀ a b, showU a = showU b → a = b)
    (e e' : SolverError EI EU) (h : e.display showI showU = e'.display showI showU) : e = e' := by
  obtain ⟨h1, h2⟩ := C57_text showI showU e e' h
  rcases e with _ | a | (a | a) | ((a | a) | _) | _ <;>
  rcases e' with _ | b | (b | b) | ((b | b) | _) | _ <;>
  first
  | cases h1
    done
  | rfl
  | exact congrArg _ h2
  | rw [hI a b h2]
  | rw [hU a b h2]

/-- The error reported when an unusable evaluation ends a solve. -/
example : (SolverError.modelEvaluation (.unusable "negative pressure") :
      SolverError Empty String).display (fun e => nomatch e) id =
    "Model evaluation failed: UnusableValuesError Error: negative pressure" := by
  rfl

end Nrf
