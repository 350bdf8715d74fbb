import Verif.Proofs.Calls
import Verif.Proofs.Exact
import Verif.Spec.Demo

/-!
# C05: no unnecessary evaluation
-/

namespace Nrf

/-- With any arithmetic: if the budget is spent or the stopping test holds at the
initial guess, the only calls made on the model are the two that put it there. -/
theorem C05_any_arithmetic {F : Type} [Scalar F] {n : Nat} {EI EU S : Type}
    (c : Config F n) (m : UserModel F n EI EU S) (st st' : Solver F n) (s s' : S)
    (calls : List (Call F n EI EU)) (r : Except (SolverError EI EU) Unit)
    (h : solve c (recorded m) st (s, []) = .ok (st', (s', calls), r))
    (h0 : c.params.maxIter ≤ st.iter ∨ Scalar.lt c.params.tolerance
      (amax (c.res.evaluateStopping (m.getResiduals (m.evaluate (m.setIteratives s c.guess)).1))) =
        false) :
    calls = [.setIteratives c.guess, .evaluate (m.evaluate (m.setIteratives s c.guess)).2] ∧
    s' = (m.evaluate (m.setIteratives s c.guess)).1 := by
  have key : ∀ {s0 : S × List (Call F n EI EU)} {r0},
      (recorded m).evaluate ((recorded m).setIteratives (s, []) c.guess) = (s0, r0) →
      s0.2 = [.setIteratives c.guess, .evaluate (m.evaluate (m.setIteratives s c.guess)).2] ∧
      s0.1 = (m.evaluate (m.setIteratives s c.guess)).1 ∧
      ∀ l, continues c { st with log := l } (amax (evaluateErrors c (recorded m) s0)) = false := by
    intro s0 r0 he
    obtain ⟨rfl, h2⟩ := solve_start he
    refine ⟨by simp [h2], rfl, fun l => ?_⟩
    simp only [continues, Bool.and_eq_false_iff, decide_eq_false_iff_not, not_lt]
    rcases h0 with h0 | h0
    · exact .inr h0
    · exact .inl h0
  cases solve_outcome h with
  | initFailed he => exact ⟨(key he).1, (key he).2.1⟩
  | finished he hu hl =>
    cases hl with
    | exit hrun hc =>
      cases hrun with
      | done => exact ⟨(key he).1, (key he).2.1⟩
      | pass hc _ _ => rw [(key he).2.2] at hc; cases hc
  | failed he hu hl =>
    cases hl with
    | failed hrun hc =>
      cases hrun with
      | done => rw [(key he).2.2] at hc; cases hc
      | pass hc _ _ => rw [(key he).2.2] at hc; cases hc

open scoped Exact in
/-- In exact arithmetic the second condition says that every stopping residual at
the initial guess is within the tolerance. -/
theorem C05_no_unnecessary_evaluation {K : Type} [Field K] [LinearOrder K] [IsStrictOrderedRing K]
    {n : Nat} {EI EU S : Type} (c : Config K n) (m : UserModel K n EI EU S)
    (st st' : Solver K n) (s s' : S) (calls : List (Call K n EI EU))
    (r : Except (SolverError EI EU) Unit) (htol : 0 ≤ c.params.tolerance)
    (h : solve c (recorded m) st (s, []) = .ok (st', (s', calls), r))
    (h0 : c.params.maxIter ≤ st.iter ∨ ∀ i, |Spec.residual (c.res.stop i)
      ((m.getResiduals (m.evaluate (m.setIteratives s c.guess)).1).left i)
      ((m.getResiduals (m.evaluate (m.setIteratives s c.guess)).1).right i)| ≤ c.params.tolerance) :
    calls = [.setIteratives c.guess, .evaluate (m.evaluate (m.setIteratives s c.guess)).2] ∧
    s' = (m.evaluate (m.setIteratives s c.guess)).1 :=
  C05_any_arithmetic c m st st' s s' calls r h (h0.imp_right (stopping_iff _ _ htol).2)

open scoped Exact in
/-- `x² = 2` started at 3/2 with tolerance 1/2 (and the residual is not zero). -/
example : (∃ st' s' calls r,
    solve (Demo.cfg .NewtonRaphson false 5 (1 / 2) (3 / 2)) (recorded Demo.sqrt2) .new
      (Demo.start, []) = .ok (st', (s', calls), r)) ∧
    |(3 / 2 : ℚ) * (3 / 2) - 2 - 0| ≤ 1 / 2 := by
  obtain ⟨a, b, r, h⟩ := Demo.kind_not_panic (x :=
    solve (Demo.cfg .NewtonRaphson false 5 (1 / 2) (3 / 2)) (recorded Demo.sqrt2) .new
      (Demo.start, [])) (by decide +kernel)
  exact ⟨⟨a, b.1, b.2, r, h⟩, by rw [abs_le]; constructor <;> norm_num⟩

end Nrf
