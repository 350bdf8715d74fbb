import Verif.Proofs.Damping
import Verif.Spec.Demo
import Mathlib.Tactic.Ring
import Mathlib.Tactic.FieldSimp

/-!
# C41: damping only acts when the error grows

Proved for models with an analytic Jacobian.  With finite differences the statement is
false: the solver compares with the error at the last perturbed point instead of
the current point (`rootfinder.rs` L342-343 runs after the perturbations).
-/

namespace Nrf

/-- The configuration without damping. -/
def Spec.noDamping {F : Type} {n : Nat} (c : Config F n) : Config F n :=
  { c with params := { c.params with damping := false } }

/-- The configuration with another budget. -/
def Spec.budget {F : Type} {n : Nat} (c : Config F n) (k : Nat) : Config F n :=
  { c with params := { c.params with maxIter := k } }

/-- The largest stopping residual of the model state `s`. -/
def Spec.maxError {F : Type} [Scalar F] {n : Nat} {EI EU S : Type} (c : Config F n)
    (m : UserModel F n EI EU S) (s : S) : F :=
  amax fun i => Scalar.abs
    (normalization ((m.getResiduals s).left i) ((m.getResiduals s).right i) (c.res.stop i))

/-- `(1 - 1/2) a + (1/2) b` as the floats are computed. -/
def Spec.midpoint {F : Type} [Scalar F] {n : Nat} (a b : Vec F n) : Vec F n :=
  fun i => a i *ᶠ (Scalar.one -ᶠ Scalar.one /ᶠ Scalar.two) +ᶠ
    b i *ᶠ (Scalar.one /ᶠ Scalar.two)

/-- In exact arithmetic this is the midpoint. -/
theorem C41_midpoint_exact {K : Type} [Field K] [LinearOrder K] [IsStrictOrderedRing K] {n : Nat}
    (a b : Vec K n) (i : Fin n) :
    @Spec.midpoint K (exactScalar K) n a b i = (a i + b i) / 2 := by
  change a i * (1 - 1 / 2) + b i * (1 / 2) = _
  ring

/-- An iteration in which the error does not grow is the iteration made without
damping (model state, result, solver object). -/
theorem C41_iteration_partial {F : Type} [Scalar F] {n : Nat} {EI EU S : Type}
    (c : Config F n) (m : UserModel F n EI EU S) (hA : Spec.AnalyticJacobian m)
    (st : Solver F n) (s : S)
    (h : ∀ st' s' e', iterate (Spec.noDamping c) m st s = .ok (st', s', .ok e') →
      Scalar.lt (Spec.maxError c m s) (Spec.maxError c m s') = false) :
    iterate c m st s = iterate (Spec.noDamping c) m st s := by
  refine iterate_idle hA fun st' s' e' hi => ?_
  have he : e' = amax (evaluateErrors (undamped c) m s') := (iterate_outcome hi).error_eq
  rw [he]
  exact h st' s' e' hi

/-- A solve along which the error never grows is the solve without damping.  The points
of the solve are observed by giving it smaller budgets. -/
theorem C41_solve_partial {F : Type} [Scalar F] {n : Nat} {EI EU S : Type}
    (c : Config F n) (m : UserModel F n EI EU S) (hA : Spec.AnalyticJacobian m)
    (st : Solver F n) (s : S)
    (h : ∀ k st1 s1 st2 s2 r,
      solve (Spec.budget (Spec.noDamping c) k) m st s = .ok (st1, s1, .error .nonConvergence) →
      solve (Spec.budget (Spec.noDamping c) (k + 1)) m st s = .ok (st2, s2, r) →
      r = .ok () ∨ r = .error .nonConvergence ∨ r = .error .finalEvaluation →
      Scalar.lt (Spec.maxError c m s1) (Spec.maxError c m s2) = false) :
    solve c m st s = solve (Spec.noDamping c) m st s :=
  solve_idle hA h

/-- When the error would grow although the Jacobian has just been computed, the
iteration evaluates the model at the midpoint of the current and the proposed point
and leaves it there (a model error at that point is fatal, see C13). -/
theorem C41_midpoint_partial {F : Type} [Scalar F] {n : Nat} {EI EU S : Type}
    (c : Config F n) (m : UserModel F n EI EU S) (hA : Spec.AnalyticJacobian m)
    (hG : Spec.GetSet m) (hd : c.params.damping = true) (st st' : Solver F n) (s s' : S) (e' : F)
    (hj : c.params.method = .NewtonRaphson ∨ st.jac.computeNext = true)
    (h : iterate (Spec.noDamping c) m st s = .ok (st', s', .ok e'))
    (hlt : Scalar.lt (Spec.maxError c m s) (Spec.maxError c m s') = true) :
    match m.evaluate (m.setIteratives s' (Spec.midpoint (m.getIteratives s) (m.getIteratives s')))
    with
    | (s2, .ok ()) => ∃ st2, iterate c m st s = .ok (st2, s2, .ok (Spec.maxError c m s2))
    | (_, .error _) => iterate c m st s = .error .dampingEvaluateUnwrap := by
  have he : e' = amax (evaluateErrors (undamped c) m s') := (iterate_outcome h).error_eq
  exact iterate_damped hA hG hd hj h (by rw [he]; exact hlt)

/-- `1 - 87.5 x + 3750 x²` without derivative. -/
def Demo.dip : UserModel ℚ 1 Empty Empty (AdapterState ℚ 1) :=
  @fromFunction ℚ (exactScalar ℚ) 1 (fun x _ => 1 - 175 / 2 * x 0 + 3750 * x 0 ^ 2)

open scoped Exact in
/-- With finite differences damping acts although the error decreases: from 0 (error
1) the undamped step goes to 0.02 (error 0.75), but 0.02 is worse than the perturbed
point 0.01, so the damped step stops at 0.015. -/
theorem C41_refuted_finite_differences :
    (∃ st s r, solve (Demo.cfg .NewtonRaphson false 0 (1 / 1000) 0) Demo.dip .new Demo.start =
        .ok (st, s, r) ∧ Spec.maxError (Demo.cfg .NewtonRaphson false 0 (1 / 1000) 0) Demo.dip s = 1) ∧
    (∃ st s r, solve (Demo.cfg .NewtonRaphson false 1 (1 / 1000) 0) Demo.dip .new Demo.start =
        .ok (st, s, r) ∧ s.inputs 0 = 1 / 50 ∧
        Spec.maxError (Demo.cfg .NewtonRaphson false 1 (1 / 1000) 0) Demo.dip s = 3 / 4) ∧
    (∃ st s r, solve (Demo.cfg .NewtonRaphson true 1 (1 / 1000) 0) Demo.dip .new Demo.start =
        .ok (st, s, r) ∧ s.inputs 0 = 3 / 200) := by
  have key : ∀ {x : Except Panic (Solver ℚ 1 × AdapterState ℚ 1 × Except (SolverError Empty Empty)
      Unit)} {P : AdapterState ℚ 1 → Prop} [DecidablePred P],
      (match x with | .ok (_, s, _) => decide (P s) | .error _ => false) = true →
      ∃ st s r, x = .ok (st, s, r) ∧ P s := by
    intro x P _ h
    match x, h with
    | .ok (st, s, r), h => exact ⟨st, s, r, rfl, by simpa using h⟩
  exact ⟨key (by decide +kernel), key (by decide +kernel), key (by decide +kernel)⟩

open scoped Exact in
/-- `sqrt2` has an undisturbing analytic Jacobian and obeys the get/set contract. -/
example : Spec.AnalyticJacobian Demo.sqrt2 ∧ Spec.GetSet Demo.sqrt2 :=
  ⟨⟨fun _ => rfl, fun _ => rfl, fun _ => rfl⟩, ⟨fun _ _ => rfl, fun _ => rfl⟩⟩

/-- `x³ - 2x + 2` with its derivative. -/
def Demo.cubic : UserModel ℚ 1 Empty Empty (AdapterState ℚ 1) :=
  @fromFunctionAndJacobian ℚ (exactScalar ℚ) 1 (fun x _ => x 0 ^ 3 - 2 * x 0 + 2) (fun x _ _ => 3 * x 0 ^ 2 - 2)

open scoped Exact in
/-- On `sqrt2` from 2 the first step decreases the error; on `cubic` from 1/2 it does
not. -/
example :
    (match iterate (Spec.noDamping (Demo.cfg .NewtonRaphson true 9 (1 / 1000) 2)) Demo.sqrt2 .new
        (Demo.sqrt2.evaluate { Demo.start with inputs := fun _ => 2 }).1 with
      | .ok (_, s', .ok _) =>
        !Scalar.lt (Spec.maxError (Demo.cfg .NewtonRaphson true 9 (1 / 1000) 2) Demo.sqrt2
            (Demo.sqrt2.evaluate { Demo.start with inputs := fun _ => 2 }).1)
          (Spec.maxError (Demo.cfg .NewtonRaphson true 9 (1 / 1000) 2) Demo.sqrt2 s')
      | _ => false) = true ∧
    (match iterate (Spec.noDamping (Demo.cfg .NewtonRaphson true 9 (1 / 1000) (1 / 2))) Demo.cubic
        .new (Demo.cubic.evaluate { Demo.start with inputs := fun _ => 1 / 2 }).1 with
      | .ok (_, s', .ok _) =>
        Scalar.lt (Spec.maxError (Demo.cfg .NewtonRaphson true 9 (1 / 1000) 2) Demo.cubic
            (Demo.cubic.evaluate { Demo.start with inputs := fun _ => 1 / 2 }).1)
          (Spec.maxError (Demo.cfg .NewtonRaphson true 9 (1 / 1000) 2) Demo.cubic s')
      | _ => false) = true := by
  constructor <;> decide +kernel

end Nrf
