import Verif.Proofs.LogTrace
import Verif.Spec.Demo

/-!
# C44: the log is a faithful numbered record

`Spec.readLog` reads the numbered states in a list of log entries.  The state numbered
`k` is compared with the model left by the same solve given a budget of `k`
iterations.
-/

namespace Nrf

/-- A solve with debugging whose first evaluation is usable appends to the log: first
the parameters, and in all one state per completed iteration plus the initial one;
the state read at position `k` is numbered `first + k` and is the state of the model
after `k` iterations.  `completed` is the number of completed iterations: all
iterations, except the last one when that one failed. -/
theorem C44_log {F : Type} [Scalar F] {n : Nat} {EI EU S : Type}
    (c : Config F n) (m : UserModel F n EI EU S) (st st' : Solver F n) (s s' : S)
    (l0 : List (LogEntry F n)) (r : Except (SolverError EI EU) Unit)
    (hd : st.debug = true) (hl : st.log = some l0)
    (hu : ∀ e, (m.evaluate (m.setIteratives s c.guess)).2 ≠ .error (.unusable e))
    (h : solve c m st s = .ok (st', s', r)) :
    ∃ new completed, st'.log = some (l0 ++ new) ∧ new.head? = some .parameters ∧
      ((r = .ok () ∨ r = .error .nonConvergence ∨ r = .error .finalEvaluation) ∧
          st'.iter = st.iter + completed ∨
        ((∃ e, r = .error (.modelEvaluation e)) ∨ ∃ e, r = .error (.jacobian e)) ∧
          st'.iter = st.iter + completed + 1) ∧
      (Spec.readLog new).length = completed + 1 ∧
      ∀ k, k ≤ completed → ∃ stk sk rk,
        solve { c with params := { c.params with maxIter := st.iter + k } } m st s =
          .ok (stk, sk, rk) ∧
        (Spec.readLog new)[k]? = some
          { iter := st.iter + k
            iteratives := m.getIteratives sk
            residuals := m.getResiduals sk
            errors := fun i => Scalar.abs (normalization ((m.getResiduals sk).left i)
              ((m.getResiduals sk).right i) (c.res.stop i)) } := by
  obtain ⟨new, completed, h1, h2, h3, h4⟩ := solve_log ⟨hd, hl⟩ h hu
  refine ⟨_, completed, h1.2, rfl, h2, h3, fun k hk => ?_⟩
  obtain ⟨stk, sk, rk, g1, -, g2⟩ := h4 k hk
  exact ⟨stk, sk, rk, g1, g2⟩

/-- Without debugging nothing is written. -/
theorem C44_silent {F : Type} [Scalar F] {n : Nat} {EI EU S : Type}
    (c : Config F n) (m : UserModel F n EI EU S) (st st' : Solver F n) (s s' : S)
    (r : Except (SolverError EI EU) Unit) (hd : st.debug = false)
    (h : solve c m st s = .ok (st', s', r)) : st'.log = st.log :=
  (solve_silent hd h).2

/-- `activate_debug` starts a new file: whatever was logged before, the file of the solve that follows
is the header, the parameters and what that solve adds; only the header when the initial guess is unusable. -/
theorem C44_file {F : Type} [Scalar F] {n : Nat} {EI EU S : Type}
    (c : Config F n) (m : UserModel F n EI EU S) (st st' : Solver F n) (s s' : S)
    (r : Except (SolverError EI EU) Unit) (h : solve c m st.activateDebug s = .ok (st', s', r)) :
    (∃ e, (m.evaluate (m.setIteratives s c.guess)).2 = .error (.unusable e)) ∧ st'.log = some [.header] ∨
      ∃ rest, st'.log = some (.header :: .parameters :: rest) := by
  by_cases hu : ∀ e, (m.evaluate (m.setIteratives s c.guess)).2 ≠ .error (.unusable e)
  · obtain ⟨new, _, h1, h2, -⟩ := C44_log c m st.activateDebug st' s s' [.header] r rfl rfl hu h
    right
    rcases new with _ | ⟨a, rest⟩
    · cases h2
    · cases h2
      exact ⟨rest, h1⟩
  · push Not at hu
    obtain ⟨e, he⟩ := hu
    refine .inl ⟨⟨e, he⟩, ?_⟩
    unfold solve at h
    rcases hev : m.evaluate (m.setIteratives s c.guess) with ⟨s1, r1⟩
    rw [hev] at h he
    cases he
    cases h
    rfl

open scoped Exact in
/-- Four states are read in the log of the demonstration solve. -/
example : (match solve (Demo.cfg .NewtonRaphson true 9 (1 / 1000) 2) Demo.sqrt2
      Solver.new.activateDebug Demo.start with
    | .ok (st, _, _) => decide ((st.log.map fun l =>
        (Spec.readLog l).map fun e => (e.iter, e.iteratives 0)) =
          some [(0, 2), (1, 3 / 2), (2, 17 / 12), (3, 577 / 408)])
    | _ => false) = true := by
  decide +kernel

end Nrf
