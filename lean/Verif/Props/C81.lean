import Verif.Proofs.Units
import Verif.Props.C75
import Verif.Spec.Demo

/-!
# C81: the units of the variables
-/

namespace Nrf
open Spec
open scoped Exact

section
variable {K : Type} [Field K] [LinearOrder K] [IsStrictOrderedRing K] {n : Nat} {EI EU S : Type}

/-- Newton-Raphson, stationary Newton, Broyden's second and Greenstadt's first method do not depend on the units in
which the variables are expressed.  The whole solve is the same in the new units: the states of the model, the
verdict, the number of iterations, the log, the panics. -/
theorem C81_units (c : Config K n) (hL : c.la.IsExact) (m : UserModel K n EI EU S) (d : Vec K n)
    (hd : ∀ i, d i ≠ 0) (hm : UnitFree c.params.method) (st : Solver K n) (s : S) :
    solve (configInUnits d c) (modelInUnits d m) (solverInUnits d st) s = outcomeInUnits d (solve c m st s) :=
  solve_units hL hd (.inl hm) st s

/-- With the same unit for all variables, up to signs, this holds for every method. -/
theorem C81_common_unit (c : Config K n) (hL : c.la.IsExact) (m : UserModel K n EI EU S) (d : Vec K n) (u : K)
    (hu : u ≠ 0) (hd : ∀ i, d i = u ∨ d i = -u) (st : Solver K n) (s : S) :
    solve (configInUnits d c) (modelInUnits d m) (solverInUnits d st) s = outcomeInUnits d (solve c m st s) := by
  refine solve_units hL ?_ (.inr ⟨u * u, ?_⟩) st s
  · intro i
    rcases hd i with h | h <;> rw [h]
    · exact hu
    · exact neg_ne_zero.2 hu
  · intro i
    rcases hd i with h | h <;> rw [h]
    exact neg_mul_neg u u

/-- A new solver is the same in all units. -/
theorem C81_new (d : Vec K n) : solverInUnits d (.new : Solver K n) = .new := rfl

/-- The parameters of a variable in the new unit: the absolute ones are converted, the relative ones stay. -/
def Spec.paramsInUnits (u : K) (p : IterativeParams K) : IterativeParams K :=
  ⟨u * p.maxStepAbs, p.maxStepRel, u * p.minValue, u * p.maxValue⟩

def Spec.paramsFdInUnits (u : K) (p : IterativeParamsFD K) : IterativeParamsFD K :=
  { p with iterativeParams := paramsInUnits u p.iterativeParams, dxAbs := u * p.dxAbs }

theorem limit_units {u : K} (hu : 0 < u) (p : IterativeParams K) (v r : K) :
    u * p.stepLimitation (v / u) (r / u) = (paramsInUnits u p).stepLimitation v r := by
  have hs : (Scalar.signum (r / u) : K) = Scalar.signum r := by
    rw [ex_signum, ex_signum]
    simp only [div_nonneg_iff, hu.le, hu.not_ge, and_true, and_false, or_false]
  have hmin : ∀ a b : K, u * min a b = min (u * a) (u * b) := fun a b => mul_min_of_nonneg a b hu.le
  have hmax : ∀ a b : K, u * max a b = max (u * a) (u * b) := fun a b => mul_max_of_nonneg a b hu.le
  have habs : ∀ a : K, u * |a / u| = |a| := by
    intro a
    rw [abs_div, abs_of_pos hu, mul_div_cancel₀ _ hu.ne']
  change u * min (max (v / u + min (min p.maxStepAbs (p.maxStepRel * |v / u|)) |r / u| * Scalar.signum (r / u))
      p.minValue) p.maxValue =
    min (max (v + min (min (u * p.maxStepAbs) (p.maxStepRel * |v|)) |r| * Scalar.signum r) (u * p.minValue))
      (u * p.maxValue)
  rw [hs, hmin, hmax, mul_add, mul_div_cancel₀ _ hu.ne', ← mul_assoc, hmin, hmin, habs, mul_left_comm, habs]

/-- `IterativeParams` converted to the new unit behave as required. -/
theorem C81_parameters {u : K} (hu : 0 < u) (p : IterativeParams K) :
    (paramsInUnits u p).toIterative = iterativeInUnits u p.toIterative := by
  change (⟨_, _, _⟩ : Iterative K) = ⟨_, _, _⟩
  congr 1
  funext v r
  exact (limit_units hu p v r).symm

/-- So do `IterativeParamsFD`. -/
theorem C81_parameters_fd {u : K} (hu : 0 < u) (p : IterativeParamsFD K) :
    (paramsFdInUnits u p).toIterative = iterativeInUnits u p.toIterative := by
  change (⟨_, _, _⟩ : Iterative K) = ⟨_, _, _⟩
  have habs : ∀ a : K, u * |a / u| = |a| := by
    intro a
    rw [abs_div, abs_of_pos hu, mul_div_cancel₀ _ hu.ne']
  congr 1
  · funext v r
    exact (limit_units hu p.iterativeParams v r).symm
  · refine congrArg some ?_
    funext v
    rcases p with ⟨q, _ | _, a, r⟩
    · change max (u * a) (|v| * r) = u * max a (|v / u| * r)
      rw [mul_max_of_nonneg _ _ hu.le, ← mul_assoc, habs]
    · change u * a + |v| * r = u * (a + |v / u| * r)
      rw [mul_add, ← mul_assoc, habs]

/-- The constructor accepts the parameters in one unit if and only if it accepts them in the other. -/
theorem C81_constructor {u : K} (hu : 0 < u) (a r lo hi : K) :
    IterativeParams.new (u * a) r (u * lo) (u * hi) = (IterativeParams.new a r lo hi).map (paramsInUnits u) := by
  have h1 : Scalar.le (u * a) (Scalar.zero : K) = Scalar.le a (Scalar.zero : K) := by
    rw [Bool.eq_iff_iff, ex_le, ex_le]
    change u * a ≤ 0 ↔ a ≤ 0
    exact ⟨fun h => not_lt.1 fun h0 => absurd (mul_pos hu h0) h.not_gt, fun h => mul_nonpos_of_nonneg_of_nonpos hu.le h⟩
  have h2 : Scalar.le (u * hi) (u * lo) = Scalar.le hi lo := by
    rw [Bool.eq_iff_iff, ex_le, ex_le]
    exact mul_le_mul_iff_right₀ hu
  unfold IterativeParams.new
  rw [h1, h2]
  split
  · rfl
  split
  · rfl
  split <;> rfl

end

namespace Demo

/-- `x² + y = 3`, `x y = 2`: a solution is `(1, 2)`. -/
def circle : UserModel ℚ 2 Empty Empty (AdapterState ℚ 2) :=
  fromFunction fun x => ![x 0 * x 0 + x 1 - 3, x 0 * x 1 - 2]

/-- The same with its derivatives. -/
def circleJac : UserModel ℚ 2 Empty Empty (AdapterState ℚ 2) :=
  fromFunctionAndJacobian (fun x => ![x 0 * x 0 + x 1 - 3, x 0 * x 1 - 2])
    fun x => ![![2 * x 0, 1], ![x 1, x 0]]

def circleCfg (method : ResolutionMethod) (damping : Bool) : Config ℚ 2 where
  params := { problemSize := 2, tolerance := 1 / 100, maxIter := 3, method, damping }
  guess := ![1 / 2, 3]
  iters := fun _ => wide.toIterative
  res := { stop := fun _ => .Abs, upd := fun _ => .Abs }
  la := nalgebraLinAlg ℚ 2

/-- Where a solve ends. -/
def endsAt (w : Except Panic (Solver ℚ 2 × AdapterState ℚ 2 × Except (SolverError Empty Empty) Unit)) :
    Option (ℚ × ℚ) :=
  w.toOption.map fun p => (p.2.1.inputs 0, p.2.1.inputs 1)

theorem endsAt_units (d : Vec ℚ 2)
    (w : Except Panic (Solver ℚ 2 × AdapterState ℚ 2 × Except (SolverError Empty Empty) Unit)) :
    endsAt (outcomeInUnits d w) = endsAt w := by
  rcases w with p | ⟨a, s, r⟩ <;> rfl

end Demo

/-- Doubling the unit of one of two variables changes the solves with Broyden's first and Greenstadt's second method,
in both forms: the model ends in another state. -/
theorem C81_mixed_units (q : QuasiNewtonMethod) (hq : ¬UnitFree (.QuasiNewton q)) :
    ∃ (c : Config ℚ 2) (m : UserModel ℚ 2 Empty Empty (AdapterState ℚ 2)) (s : AdapterState ℚ 2),
      c.params.method = .QuasiNewton q ∧ c.la.IsExact ∧
      solve (configInUnits ![1, 2] c) (modelInUnits ![1, 2] m) .new s ≠ outcomeInUnits ![1, 2] (solve c m .new s) := by
  have key : Demo.endsAt (solve (configInUnits ![1, 2] (Demo.circleCfg (.QuasiNewton q) false))
      (modelInUnits ![1, 2] Demo.circle) .new ⟨0, 0, 0⟩) ≠
      Demo.endsAt (solve (Demo.circleCfg (.QuasiNewton q) false) Demo.circle .new ⟨0, 0, 0⟩) := by
    rcases q with _ | (_ | _ | _ | _) | (_ | _ | _ | _)
    · exact absurd trivial hq
    · decide +kernel
    · exact absurd (.inl rfl) hq
    · exact absurd (.inr rfl) hq
    · decide +kernel
    · decide +kernel
    · exact absurd (.inl rfl) hq
    · exact absurd (.inr rfl) hq
    · decide +kernel
  refine ⟨Demo.circleCfg (.QuasiNewton q) false, Demo.circle, ⟨0, 0, 0⟩, rfl, C75_exact, fun h => key ?_⟩
  rw [h, Demo.endsAt_units]

/-! ### The hypotheses can be met -/

/-- Greenstadt's first method with finite differences and damping, the second variable in halves. -/
example : solve (configInUnits ![1, 2] (Demo.circleCfg (.QuasiNewton (.JacobianUpdate .GreenstadtFirst)) true))
    (modelInUnits ![1, 2] Demo.circle) .new ⟨0, 0, 0⟩ =
    outcomeInUnits ![1, 2]
      (solve (Demo.circleCfg (.QuasiNewton (.JacobianUpdate .GreenstadtFirst)) true) Demo.circle .new ⟨0, 0, 0⟩) :=
  C81_units _ C75_exact _ _ (by intro i; fin_cases i <;> decide) (show UnitFree (.QuasiNewton (.JacobianUpdate .GreenstadtFirst)) from Or.inr rfl) .new _

/-- The solve does something: it does three iterations and ends away from the guess. -/
example : (solve (Demo.circleCfg (.QuasiNewton (.JacobianUpdate .GreenstadtFirst)) true) Demo.circle .new
    ⟨0, 0, 0⟩).toOption.map (fun p => (p.1.iter, decide (p.2.1.inputs 0 = 1 / 2))) = some (3, false) := by
  decide +kernel

/-- Broyden's first method with thousandths. -/
example : solve (configInUnits (fun _ => 1000) (Demo.circleCfg (.QuasiNewton (.InverseJacobianUpdate .BroydenFirst)) true))
    (modelInUnits (fun _ => 1000) Demo.circle) .new ⟨0, 0, 0⟩ =
    outcomeInUnits (fun _ => 1000)
      (solve (Demo.circleCfg (.QuasiNewton (.InverseJacobianUpdate .BroydenFirst)) true) Demo.circle .new ⟨0, 0, 0⟩) :=
  C81_common_unit _ C75_exact _ _ 1000 (by norm_num) (fun _ => .inl rfl) .new _

/-- The limits of a length in metres, converted to millimetres. -/
example : (paramsFdInUnits 1000 Demo.wide).toIterative = iterativeInUnits 1000 Demo.wide.toIterative :=
  C81_parameters_fd (by norm_num) _

example : IterativeParams.new (1000 * 1) (1 / 2) (1000 * 0) (1000 * 5 : ℚ) =
    .ok (paramsInUnits 1000 ⟨1, 1 / 2, 0, 5⟩) := by
  rw [C81_constructor (by norm_num)]
  decide +kernel

end Nrf
