import Verif.Proofs.Reuse
import Verif.Spec.Demo

/-!
# C14: solves are independent (refuted)

Full statement: calling `solve` again on the same `RootFinder` behaves like calling it
on a freshly built one.  The iteration counter, the accuracy flag, the Jacobian cache
and the stored steps are not reset, so it fails.  For Newton-Raphson the only
influence of the past is the number of iterations already used (and the accuracy flag
of the last evaluation when no iteration is made).
-/

namespace Nrf

/-- Newton-Raphson, debugging off: a solve on a used solver behaves like a solve on a
new solver whose budget is what the earlier solves left.  Missing for the full
statement: the budget is not restored, the methods other than Newton-Raphson also
keep their Jacobian and steps, and `valid` survives. -/
theorem C14_newton_raphson_partial {F : Type} [Scalar F] {n : Nat} {EI EU S : Type}
    (c : Config F n) (m : UserModel F n EI EU S) (st : Solver F n) (s : S)
    (hm : c.params.method = .NewtonRaphson) (hd : st.debug = false) (hv : st.valid = true) :
    (solve c m st s).map (fun x => x.2) =
      (solve { c with params := { c.params with maxIter := c.params.maxIter - st.iter } } m .new
        s).map (fun x => x.2) := by
  change _ = (solve (withMaxIter c (c.params.maxIter - st.iter)) m .new s).map _
  have hs : Shift st.iter st (Solver.new : Solver F n) := ⟨(Nat.zero_add _).symm, hv, hd, rfl⟩
  have key : ∀ s0, (solveFrom c m st s0).map (fun x => x.2) =
      (solveFrom (withMaxIter c (c.params.maxIter - st.iter)) m .new s0).map (fun x => x.2) := by
    intro s0
    rw [solveFrom_noDebug hd, solveFrom_noDebug rfl]
    have hl := loop_shift (m := m) hm (c.params.maxIter - st.iter) hs s0
      (amax (evaluateErrors c m s0))
    have h1 : (withMaxIter c (c.params.maxIter - st.iter)).params.maxIter -
        (Solver.new : Solver F n).iter = c.params.maxIter - st.iter := rfl
    have h2 : evaluateErrors (withMaxIter c (c.params.maxIter - st.iter)) m s0 =
        evaluateErrors c m s0 := rfl
    rw [h1, h2]
    rcases hl.elim with ⟨p, e1, e2⟩ | ⟨a, b, s', r, e1, e2, e3⟩
    · rw [e1, e2]
    · rw [e1, e2]
      match r with
      | .error e => rfl
      | .ok e =>
        simp only [Except.map, finalResult, withMaxIter, e3.valid]
        rfl
  have hg : (withMaxIter c (c.params.maxIter - st.iter)).guess = c.guess := rfl
  rcases he : m.evaluate (m.setIteratives s c.guess) with ⟨s1, rv⟩
  match rv, he with
  | .ok (), he => rw [solve_usable he .ok, solve_usable (hg ▸ he) .ok]; exact key s1
  | .error (.inaccurate e), he =>
    rw [solve_usable he (.inaccurate e), solve_usable (hg ▸ he) (.inaccurate e)]; exact key s1
  | .error (.unusable e), he => rw [solve_unusable he, solve_unusable (hg ▸ he)]; rfl

/-- The solver object left by a solve (or the one given, on a panic). -/
def Demo.after {S EI EU : Type} {F : Type} {n : Nat} (st : Solver F n) :
    Except Panic (Solver F n × S × Except (SolverError EI EU) Unit) → Solver F n
  | .ok (st', _, _) => st'
  | .error _ => st

open scoped Exact in
/-- The property fails: the same problem solved twice with the same solver gives `Ok`
and then non-convergence, while a new solver gives `Ok`. -/
theorem C14_refuted_budget :
    let c := Demo.cfg .NewtonRaphson false 3 (1 / 1000) 2
    Demo.kind (solve c Demo.sqrt2 .new Demo.start) = .ok ∧
    Demo.kind (solve c Demo.sqrt2 (Demo.after .new (solve c Demo.sqrt2 .new Demo.start))
      Demo.start) = .nonConvergence := by
  constructor <;> decide +kernel

open scoped Exact in
/-- The property fails in another way: with stationary Newton the second problem is
solved with the Jacobian of the first.  The equation `x = 3` is solved in one
iteration by a new solver, but by a solver used for `x² = 2` not even in 12. -/
theorem C14_refuted_jacobian :
    let c := Demo.cfg (.QuasiNewton .StationaryNewton) false 12 (1 / 1000) 2
    let m2 : UserModel ℚ 1 Empty Empty (AdapterState ℚ 1) :=
      fromFunctionAndJacobian (fun x _ => x 0 - 3) (fun _ _ _ => 1)
    Demo.kind (solve (Demo.cfg (.QuasiNewton .StationaryNewton) false 1 (1 / 1000) 2) m2 .new
      Demo.start) = .ok ∧
    Demo.kind (solve c m2 (Demo.after .new (solve c Demo.sqrt2 .new Demo.start)) Demo.start) =
      .nonConvergence := by
  constructor <;> decide +kernel

/-- A used solver meeting the hypotheses of the partial theorem. -/
example : ∃ (c : Config ℚ 1) (st : Solver ℚ 1), c.params.method = .NewtonRaphson ∧
    st.debug = false ∧ st.valid = true ∧ 0 < st.iter ∧ st.iter < c.params.maxIter :=
  ⟨Demo.cfg .NewtonRaphson false 9 (1 / 1000) 2, { (Solver.new : Solver ℚ 1) with iter := 3 },
    rfl, rfl, rfl, by decide, by decide⟩

end Nrf
