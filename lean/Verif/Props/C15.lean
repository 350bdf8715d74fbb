import Verif.Proofs.NoPanic
import Verif.Props.C08
import Verif.Props.C14
import Verif.Spec.Demo

/-!
# C15: a failed solve does not poison the solver (refuted)

Full statement: after a solve that returned an error, a later solve on a well behaved
model does not panic.  It fails for the methods that update the Jacobian or its
inverse.  It holds for Newton-Raphson and stationary Newton whatever happened before,
and for all methods when no earlier solve ended with a Jacobian or evaluation error.
-/

namespace Nrf

/-- Solver objects that can be met: new, with debugging activated, or left by solves
(which returned) of well behaved models of any kind satisfying `P` on the result. -/
inductive Spec.Reachable {F : Type} [Scalar F] {n : Nat} (c : Config F n)
    (P : ∀ EI EU : Type, Except (SolverError EI EU) Unit → Prop) : Solver F n → Prop where
  | new : Reachable c P Solver.new
  | activateDebug {st} (h : Reachable c P st) : Reachable c P st.activateDebug
  | solve {EI EU S : Type} {st st'} (h : Reachable c P st) (m : UserModel F n EI EU S)
      (hw : Spec.WellBehaved c m) (s s' : S) (r : Except (SolverError EI EU) Unit)
      (hs : Nrf.solve c m st s = .ok (st', s', r)) (hP : P EI EU r) : Reachable c P st'

theorem Spec.Reachable.ready {F : Type} [Scalar F] {n : Nat} {c : Config F n} (hn : n ≠ 0)
    {P : ∀ EI EU : Type, Except (SolverError EI EU) Unit → Prop} {st : Solver F n}
    (h : Spec.Reachable c P st)
    (hP : Simple c.params.method ∨ ∀ (EI EU : Type) (r : Except (SolverError EI EU) Unit), P EI EU r →
      (∀ e, r ≠ .error (.jacobian e)) ∧ (∀ e, r ≠ .error (.modelEvaluation e))) :
    Ready c.params.method st := by
  induction h with
  | new => exact Ready.new _
  | activateDebug _ ih => exact ih.activateDebug
  | solve h m hw s s' r hs hPr ih =>
    obtain ⟨st1, s1, r1, h1, -, h2⟩ := solve_progress hw s ih (fun _ => hn)
    rw [hs] at h1
    cases h1
    rcases hP with hP | hP
    · exact h2 (.inr hP)
    · exact h2 (.inl (hP _ _ r hPr))

/-- Newton-Raphson and stationary Newton: no history makes a solve of a well behaved
model panic.  Missing for the full statement: the eight updating methods, see
`C15_refuted`. -/
theorem C15_not_poisoned_partial {F : Type} [Scalar F] {n : Nat} {EI EU S : Type}
    (c : Config F n) (hn : n ≠ 0)
    (hm : c.params.method = .NewtonRaphson ∨ c.params.method = .QuasiNewton .StationaryNewton)
    (st : Solver F n) (h : Spec.Reachable c (fun _ _ _ => True) st)
    (m : UserModel F n EI EU S) (hw : Spec.WellBehaved c m) (s : S) :
    ∃ st' s' r, solve c m st s = .ok (st', s', r) := by
  obtain ⟨st', s', r, h, -⟩ := solve_progress hw s (h.ready hn (.inl hm)) (fun _ => hn)
  exact ⟨st', s', r, h⟩

/-- All methods: a history of solves that converged, ran out of budget, or failed
their first or last evaluation leaves the solver usable.  Missing: histories with a
Jacobian or evaluation error. -/
theorem C15_regular_history_partial {F : Type} [Scalar F] {n : Nat} {EI EU S : Type}
    (c : Config F n) (hn : n ≠ 0) (st : Solver F n)
    (h : Spec.Reachable c (fun _ _ r => (∀ e, r ≠ .error (.jacobian e)) ∧
      (∀ e, r ≠ .error (.modelEvaluation e))) st)
    (m : UserModel F n EI EU S) (hw : Spec.WellBehaved c m) (s : S) :
    ∃ st' s' r, solve c m st s = .ok (st', s', r) := by
  obtain ⟨st', s', r, h, -⟩ := solve_progress hw s (h.ready hn (.inr fun _ _ _ h => h)) (fun _ => hn)
  exact ⟨st', s', r, h⟩

open scoped Exact in
/-- The property fails.  With Broyden's method (either form), a first solve ends with
an unusable evaluation; the next solve, on a well behaved model, panics. -/
theorem C15_refuted :
    let c1 := Demo.cfg (.QuasiNewton (.JacobianUpdate .BroydenFirst)) false 9 (1 / 1000) (1 / 10)
    let c2 := Demo.cfg (.QuasiNewton (.InverseJacobianUpdate .BroydenFirst)) false 9 (1 / 1000)
      (1 / 10)
    Demo.kind (solve c1 Demo.below8 .new Demo.start) = .evalFailed ∧
    Demo.kind (solve c1 Demo.sqrt2 (Demo.after .new (solve c1 Demo.below8 .new Demo.start))
      Demo.start) = .panic ∧
    Demo.kind (solve c2 Demo.below8 .new Demo.start) = .evalFailed ∧
    Demo.kind (solve c2 Demo.sqrt2 (Demo.after .new (solve c2 Demo.below8 .new Demo.start))
      Demo.start) = .panic ∧
    Demo.kind (solve c1 Demo.sqrt2 .new Demo.start) ≠ .panic ∧
    Spec.WellBehaved c1 Demo.below8 ∧ Spec.WellBehaved c1 Demo.sqrt2 := by
  refine ⟨by decide +kernel, by decide +kernel, by decide +kernel, by decide +kernel,
    by decide +kernel, ?_, ?_⟩
  · exact ⟨fun _ _ e => (nomatch e), fun _ h => (by cases h), fun h => (by cases h)⟩
  · exact ⟨fun _ _ e => (nomatch e), fun _ h => (by cases h), fun h => (by cases h)⟩

open scoped Exact in
/-- A reachable solver after two solves, for the first partial theorem. -/
example : let c := Demo.cfg .NewtonRaphson false 9 (1 / 1000) (1 / 10)
    ∃ st : Solver ℚ 1, Spec.Reachable c (fun _ _ _ => True) st ∧ st.iter = 1 := by
  intro c
  have hk : Demo.kind (solve c Demo.below8 .new Demo.start) = .evalFailed := by decide +kernel
  obtain ⟨a, s', r, h⟩ := Demo.kind_not_panic (x := solve c Demo.below8 .new Demo.start)
    (by rw [hk]; decide)
  refine ⟨a, .solve .new Demo.below8
    ⟨fun _ _ e => (nomatch e), fun _ h => (by cases h), fun h => (by cases h)⟩ _ _ _ h trivial, ?_⟩
  have : (Demo.after .new (solve c Demo.below8 .new Demo.start)).iter = 1 := by decide +kernel
  rw [h] at this
  exact this

end Nrf
