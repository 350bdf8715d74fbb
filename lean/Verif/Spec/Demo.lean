import Verif.Spec.Exact
import Verif.Spec.Recorded
import Verif.Model.RootFinder
import Mathlib.Algebra.Order.Ring.Rat
import Mathlib.Tactic.FinCases

/-!
# Concrete problems used as witnesses

Small problems over `ℚ`, run inside Lean by evaluation.  They show that the
hypotheses of the property theorems can be met, and serve as counterexamples for
the refuted properties.
-/

namespace Nrf.Demo
open scoped Exact

/-- Exact linear algebra in dimension one, written without determinants so that the
kernel can evaluate it. -/
def la1 : LinAlg ℚ 1 where
  dot v w := v 0 * w 0
  inv A := if A 0 0 = 0 then none else some fun _ _ => 1 / A 0 0

theorem la1_isExact : la1.IsExact where
  dot v w := by simp [la1]
  inv_some A h := by
    have h0 : A 0 0 ≠ 0 := by simpa [Matrix.det_fin_one] using h
    simp only [la1, if_neg h0]
    refine congrArg some (Matrix.ext fun i j => ?_)
    fin_cases i; fin_cases j
    simp [Matrix.inv_def, Matrix.adjugate_fin_one, Matrix.det_fin_one, Ring.inverse_eq_inv']
  inv_none A h := by
    have h0 : A 0 0 = 0 := by simpa [Matrix.det_fin_one] using h
    simp [la1, h0]

/-- Iterative parameters accepted by `IterativeParamsFD::new`, with wide limits. -/
def wide : IterativeParamsFD ℚ :=
  { iterativeParams := { maxStepAbs := 100, maxStepRel := 100, minValue := -100, maxValue := 100 }
    perturbationMethod := .Max
    dxAbs := 1 / 100
    dxRel := 1 / 100 }

/-- One-dimensional configuration. -/
def cfg (method : ResolutionMethod) (damping : Bool) (maxIter : Nat) (tol guess : ℚ) :
    Config ℚ 1 where
  params := { problemSize := 1, tolerance := tol, maxIter, method, damping }
  guess := fun _ => guess
  iters := fun _ => wide.toIterative
  res := { stop := fun _ => .Abs, upd := fun _ => .Abs }
  la := la1

/-- `x² = 2` with its derivative. -/
def sqrt2 : UserModel ℚ 1 Empty Empty (AdapterState ℚ 1) :=
  fromFunctionAndJacobian (fun x _ => x 0 * x 0 - 2) (fun x _ _ => 2 * x 0)

/-- `x² = 2` without derivative. -/
def sqrt2Fd : UserModel ℚ 1 Empty Empty (AdapterState ℚ 1) :=
  fromFunction (fun x _ => x 0 * x 0 - 2)

/-- A starting state of the adapters (exact arithmetic has no NaN). -/
def start : AdapterState ℚ 1 := { inputs := fun _ => 0, left := fun _ => 0, right := fun _ => 0 }

/-- The kind of outcome of a solve. -/
inductive Kind where
  | ok | nonConvergence | initFailed | evalFailed | jacobian | finalEvaluation | panic
  deriving DecidableEq, Repr

/-- Classify the outcome of a solve. -/
def kind {A S EI EU : Type} : Except Panic (A × S × Except (SolverError EI EU) Unit) → Kind
  | .error _ => .panic
  | .ok (_, _, .ok ()) => .ok
  | .ok (_, _, .error .nonConvergence) => .nonConvergence
  | .ok (_, _, .error (.modelInitialEvaluation _)) => .initFailed
  | .ok (_, _, .error (.modelEvaluation _)) => .evalFailed
  | .ok (_, _, .error (.jacobian _)) => .jacobian
  | .ok (_, _, .error .finalEvaluation) => .finalEvaluation

theorem kind_ok {A S EI EU : Type} {x : Except Panic (A × S × Except (SolverError EI EU) Unit)}
    (h : kind x = .ok) : ∃ a s, x = .ok (a, s, .ok ()) := by
  unfold kind at h
  split at h <;> first | exact ⟨_, _, rfl⟩ | cases h

theorem kind_nonConvergence {A S EI EU : Type}
    {x : Except Panic (A × S × Except (SolverError EI EU) Unit)}
    (h : kind x = .nonConvergence) : ∃ a s, x = .ok (a, s, .error .nonConvergence) := by
  unfold kind at h
  split at h <;> first | exact ⟨_, _, rfl⟩ | cases h

theorem kind_final {A S EI EU : Type}
    {x : Except Panic (A × S × Except (SolverError EI EU) Unit)}
    (h : kind x = .finalEvaluation) : ∃ a s, x = .ok (a, s, .error .finalEvaluation) := by
  unfold kind at h
  split at h <;> first | exact ⟨_, _, rfl⟩ | cases h

theorem kind_not_panic {A S EI EU : Type}
    {x : Except Panic (A × S × Except (SolverError EI EU) Unit)}
    (h : kind x ≠ .panic) : ∃ a s r, x = .ok (a, s, r) := by
  cases x with
  | error p => exact absurd rfl h
  | ok v => exact ⟨v.1, v.2.1, v.2.2, rfl⟩

/-- Three Newton steps solve `x² = 2` from 2 within 1/1000. -/
theorem sqrt2_ok :
    kind (solve (cfg .NewtonRaphson false 5 (1 / 1000) 2) sqrt2 .new start) = .ok := by
  decide +kernel

end Nrf.Demo
