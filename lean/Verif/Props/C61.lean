import Verif.Proofs.AmaxFloat
import Verif.Proofs.Loop
import Verif.Proofs.Exact
import Verif.Spec.Demo
import Verif.Props.C02

/-!
# C61: a tolerance that can never be met, or always is, is rejected

`SolverParameters::new` (`parameters.rs` L57-71) stores any `f64`, and so does the XML reader.
-/

namespace Nrf

/-- Refuted: with a NaN tolerance every solve of a new solver whose first evaluation succeeds reports
success at the initial guess, whatever the residuals are. -/
theorem C61_refuted_nan {K : Type} [Field K] [LinearOrder K] [Rounding K] [IsStrictOrderedRing K]
    {n : Nat} {EI EU S : Type} (c : Config (Fl K) n) (m : UserModel (Fl K) n EI EU S)
    (st : Solver (Fl K) n) (hd : st.debug = false) (hv : st.valid = true) (s s1 : S)
    (ht : c.params.tolerance = .nan)
    (he : m.evaluate (m.setIteratives s c.guess) = (s1, .ok ())) :
    solve c m st s = .ok (st, s1, .ok ()) := by
  have hlt : ∀ e : Fl K, Scalar.lt c.params.tolerance e = false := by
    intro e; rw [ht]; rfl
  rw [solve_usable he .ok, solveFrom_noDebug hd, loop_eq]
  simp [continues, finalResult, hlt, hv]

open scoped Exact in
/-- Refuted: with a negative tolerance no solve ever reports success, even when the guess is an exact
solution. -/
theorem C61_refuted_negative {K : Type} [Field K] [LinearOrder K] [IsStrictOrderedRing K]
    {n : Nat} {EI EU S : Type} (c : Config K n) (m : UserModel K n EI EU S)
    (st st' : Solver K n) (s s' : S) (ht : c.params.tolerance < 0) :
    solve c m st s ≠ .ok (st', s', .ok ()) := by
  intro h
  have h1 := C01_any_arithmetic c m st st' s s' h
  have h2 : (0 : K) ≤ amax (c.res.evaluateStopping (m.getResiduals s')) := amax_nonneg _
  have h3 : Scalar.lt c.params.tolerance (amax (c.res.evaluateStopping (m.getResiduals s'))) = true :=
    decide_eq_true (lt_of_lt_of_le ht h2)
  rw [h1] at h3
  cases h3

open scoped Exact in
/-- What holds: a tolerance that is a non-negative number is met by every solution: a solve of a new
solver from an exact solution succeeds at once. -/
theorem C61_solution_partial {K : Type} [Field K] [LinearOrder K] [IsStrictOrderedRing K]
    {n : Nat} {EI EU S : Type} (c : Config K n) (m : UserModel K n EI EU S)
    (st : Solver K n) (hd : st.debug = false) (hv : st.valid = true) (s s1 : S)
    (ht : 0 ≤ c.params.tolerance)
    (he : m.evaluate (m.setIteratives s c.guess) = (s1, .ok ()))
    (hz : ∀ i, (m.getResiduals s1).left i = (m.getResiduals s1).right i) :
    solve c m st s = .ok (st, s1, .ok ()) := by
  have ha : amax (evaluateErrors c m s1) ≤ 0 := by
    refine (amax_le_iff _ (le_refl _)).2 fun i => ?_
    have : evaluateErrors c m s1 i = 0 := by
      simp only [evaluateErrors, evaluateStopping_exact]
      rw [hz i]
      cases c.res.stop i <;> simp [Spec.residual]
    rw [this, abs_zero]
  have hlt : Scalar.lt c.params.tolerance (amax (evaluateErrors c m s1)) = false :=
    decide_eq_false (not_lt.2 (ha.trans ht))
  rw [solve_usable he .ok, solveFrom_noDebug hd, loop_eq]
  simp [continues, finalResult, hlt, hv]

/-- `x² = 2` in binary64 from the guess of the demonstration, with tolerance NaN. -/
example : Demo.kind (solve { Demo64.cfg 3 with params := { (Demo64.cfg 3).params with
    tolerance := .nan } } Demo64.sqrt2 .new .new) = .ok := by decide +kernel

open scoped Exact in
/-- The equation `x² = 2` with tolerance -1, and `x² = 4` started at its solution with tolerance 0. -/
example : (Demo.cfg .NewtonRaphson false 3 (-1) 2).params.tolerance < 0 ∧
    Demo.kind (solve (Demo.cfg .NewtonRaphson false 3 (-1) 2) Demo.sqrt2 .new Demo.start) =
      .nonConvergence ∧
    Demo.kind (solve (Demo.cfg .NewtonRaphson false 3 0 2)
      (fromFunctionAndJacobian (fun x _ => x 0 * x 0 - 4) (fun x _ _ => 2 * x 0)) .new Demo.start) =
      .ok := by
  refine ⟨?_, ?_, ?_⟩ <;> decide +kernel

end Nrf
