import Verif.Proofs.Economy
import Verif.Spec.Demo

/-!
# C16: Jacobian economy

Jacobians are counted through what the model sees: `get_jacobian` calls when it
provides a Jacobian, `len_problem()` evaluations per Jacobian when it does not.
-/

namespace Nrf

/-- Newton-Raphson asks for exactly one Jacobian per iteration, whatever happens
(damping, errors, earlier solves). -/
theorem C16_newton_raphson {F : Type} [Scalar F] {n : Nat} {EI EU S : Type}
    (c : Config F n) (m : UserModel F n EI EU S) (st st' : Solver F n) (s s' : S)
    (calls : List (Call F n EI EU)) (r : Except (SolverError EI EU) Unit)
    (hm : c.params.method = .NewtonRaphson) (hp : ∀ s, m.jacobianProvided s = true)
    (h : solve c (recorded m) st (s, []) = .ok (st', (s', calls), r)) :
    countGetJacobian calls = st'.iter - st.iter := by
  have := (solve_cost (N := 0) hp (fun h => by cases h) (.inl hm) h).1 rfl
  rwa [jacCount, if_pos hm] at this

/-- The other methods ask for exactly one Jacobian in the first solve (none when no
iteration is made): the updating methods when damping is off, stationary Newton
always. -/
theorem C16_quasi_newton {F : Type} [Scalar F] {n : Nat} {EI EU S : Type}
    (c : Config F n) (m : UserModel F n EI EU S) (st' : Solver F n) (s s' : S)
    (calls : List (Call F n EI EU)) (r : Except (SolverError EI EU) Unit)
    (hm : c.params.method ≠ .NewtonRaphson)
    (hd : c.params.damping = false ∨ c.params.method = .QuasiNewton .StationaryNewton)
    (hp : ∀ s, m.jacobianProvided s = true)
    (h : solve c (recorded m) .new (s, []) = .ok (st', (s', calls), r)) :
    countGetJacobian calls = min 1 st'.iter := by
  have := (solve_cost (N := 0) hp (fun h => by cases h)
    (.inr (hd.imp_right fun h => ⟨h, rfl⟩)) h).1 rfl
  rwa [jacCount, if_neg hm, if_pos (show (Solver.new : Solver F n).jac.computeNext = true from rfl)]
    at this

/-- Finite differences, damping off: a solve that does not end in an evaluation or
Jacobian error evaluates the model once at the guess, once per iteration, and
`len_problem()` times per Jacobian; Newton-Raphson computes one Jacobian per
iteration, a new solver with another method a single one. -/
theorem C16_finite_differences {F : Type} [Scalar F] {n : Nat} {EI EU S : Type}
    (c : Config F n) (m : UserModel F n EI EU S) (st' : Solver F n) (s s' : S)
    (calls : List (Call F n EI EU)) (r : Except (SolverError EI EU) Unit) (N : Nat)
    (hd : c.params.damping = false) (hp : ∀ s, m.jacobianProvided s = false)
    (hN : ∀ s, m.lenProblem s = N)
    (h : solve c (recorded m) .new (s, []) = .ok (st', (s', calls), r))
    (hr : r = .ok () ∨ r = .error .nonConvergence ∨ r = .error .finalEvaluation) :
    countEvaluate calls = 1 + st'.iter +
      (if c.params.method = .NewtonRaphson then st'.iter else min 1 st'.iter) * N := by
  have := (solve_cost hp (fun _ => hN) (.inr (.inl hd)) h).2.1 rfl hd
    (by rintro e rfl; simp at hr) (by rintro e rfl; simp at hr)
  simpa [jacCount, Solver.new, JacobianMatrix.new] using this

/-- The solver objects obtained from `st` by further solves, of any models. -/
inductive Spec.Later {F : Type} [Scalar F] {n : Nat} (c : Config F n) (st : Solver F n) :
    Solver F n → Prop where
  | refl : Later c st st
  | solve {EI EU S : Type} {st1 st2} (h : Later c st st1) (m : UserModel F n EI EU S)
      (s s' : S) (r : Except (SolverError EI EU) Unit)
      (hs : Nrf.solve c m st1 s = .ok (st2, s', r)) : Later c st st2

/-- Stationary Newton, over the whole life of the solver object: once a solve has
completed an iteration, no later solve of any model asks for a Jacobian (not even
after errors). -/
theorem C16_stationary_lifetime {F : Type} [Scalar F] {n : Nat} {EI EU S EI1 EU1 S1 : Type}
    (c : Config F n) (hm : c.params.method = .QuasiNewton .StationaryNewton)
    (m1 : UserModel F n EI1 EU1 S1) (st1 : Solver F n) (s1 s1' : S1)
    (r1 : Except (SolverError EI1 EU1) Unit)
    (h1 : solve c m1 .new s1 = .ok (st1, s1', r1)) (hi : 0 < st1.iter)
    (hr1 : r1 = .ok () ∨ r1 = .error .nonConvergence ∨ r1 = .error .finalEvaluation)
    (st2 : Solver F n) (hl : Spec.Later c st1 st2)
    (m : UserModel F n EI EU S) (st' : Solver F n) (s s' : S)
    (calls : List (Call F n EI EU)) (r : Except (SolverError EI EU) Unit)
    (h : solve c (recorded m) st2 (s, []) = .ok (st', (s', calls), r)) :
    countGetJacobian calls = 0 := by
  have hQ1 : StationaryKept st1 := by
    cases solve_outcome h1 with
    | initFailed he => exact absurd hi (by simp [Solver.new])
    | failed he hu hl =>
      exfalso
      cases hl with
      | failed hrun hc hi =>
        cases iterate_outcome hi with
        | evalFailed st1 s1 x st2 s2 e h1 h2 => cases h2; simp at hr1
        | jacFailed st1 s1 e h1 => simp at hr1
    | finished he hu hl =>
      cases hl with
      | exit hrun hc =>
        have := hrun.invariant (P := fun st _ _ => st.jac.approximated = false ∧
          (0 < st.iter → StationaryKept st)) ?_ ⟨rfl, fun h => absurd h (by simp [Solver.new])⟩
        · exact this.2 hi
        · rintro st1 s1 e st2 s2 e2 ⟨ha, -⟩ - hi
          obtain ⟨a, b⟩ := iterate_ok_pending (.inr ⟨hm, ha⟩) hi
          cases iterate_outcome hi with
          | step st3 s3 x _ _ e h1 h2 =>
            have h3 := h1.approximated hm ha
            have := h2.jac_eq (.inr ⟨hm, h3⟩)
            rw [← this] at h3
            exact ⟨h3, fun _ => ⟨a, h3⟩⟩
  have hQ2 : StationaryKept st2 := by
    clear h
    induction hl with
    | refl => exact hQ1
    | solve h m s s' r hs ih => exact stationary_solve hm ih hs
  -- no call in any iteration
  have zero : ∀ {sta stb : Solver F n} {sa sb : S} {ta tb} {ra : Except (SolverError EI EU) F},
      StationaryKept sta →
      iterate c (recorded m) sta (sa, ta) = .ok (stb, (sb, tb), ra) →
      countGetJacobian ta = 0 → countGetJacobian tb = 0 := by
    intro sta stb sa sb ta tb ra hQ hi h0
    obtain ⟨seg, rfl, hic⟩ := iterate_calls hi
    have hno : ∀ {jc ra}, StepCalls c m { sta with iter := sta.iter + 1 } sa jc ra → jc = [] := by
      intro jc ra h
      cases h with
      | computed seg rj r hm' h hr =>
        rcases hm' with h | h
        · rw [hm] at h; cases h
        · exact absurd (hQ.1.symm.trans h) (by simp)
      | none r hm hc => rfl
    rw [countGetJacobian_append, h0]
    cases hic with
    | step jc uc s1 x s' v e h1 h2 => rw [hno h1, List.nil_append, h2.counts.2]
    | evalFailed jc uc s1 x s' v e h1 h2 => rw [hno h1, List.nil_append, h2.counts.2]
    | jacFailed jc s' v e h1 => rw [hno h1]; rfl
  let P : Solver F n → S × List (Call F n EI EU) → F → Prop := fun st s _ =>
    StationaryKept st ∧ countGetJacobian s.2 = 0
  have stp : ∀ st1 s1 e st2 s2 e2, P st1 s1 e → continues c st1 e = true →
      iterate c (recorded m) st1 s1 = .ok (st2, s2, .ok e2) → P st2 s2 e2 :=
    fun _ _ _ _ _ _ h _ hi => ⟨stationary_iterate hm h.1 hi, zero h.1 hi h.2⟩
  have start : ∀ {s0 : S × List (Call F n EI EU)} {r0 l},
      (recorded m).evaluate ((recorded m).setIteratives (s, []) c.guess) = (s0, r0) →
      P { st2 with log := l } s0 (amax (evaluateErrors c (recorded m) s0)) := by
    intro s0 r0 l he
    obtain ⟨rfl, -⟩ := solve_start he
    exact ⟨hQ2, rfl⟩
  cases solve_outcome h with
  | initFailed he => exact (start (l := st2.log) he).2
  | finished he hu hl =>
    cases hl with
    | exit hrun hc => exact (hrun.invariant (P := P) stp (start he)).2
  | failed he hu hl =>
    cases hl with
    | failed hrun hc hi =>
      have := hrun.invariant (P := P) stp (start he)
      exact zero this.1 hi this.2

open scoped Exact in
/-- Four iterations of Newton-Raphson, stationary Newton and Broyden's method (finite
differences): the hypotheses are met by solves that iterate. -/
example :
    (∃ st' s' calls r, solve (Demo.cfg .NewtonRaphson true 4 (1 / 1000000000) 2)
      (recorded Demo.sqrt2) .new (Demo.start, []) = .ok (st', (s', calls), r)) ∧
    (∃ st' s' calls r, solve (Demo.cfg (.QuasiNewton .StationaryNewton) true 4 (1 / 1000000000) 2)
      (recorded Demo.sqrt2) .new (Demo.start, []) = .ok (st', (s', calls), r)) ∧
    (∃ st' s' calls, solve (Demo.cfg (.QuasiNewton (.JacobianUpdate .BroydenFirst)) false 4
      (1 / 1000000000) 2) (recorded Demo.sqrt2Fd) .new (Demo.start, []) =
        .ok (st', (s', calls), .error .nonConvergence)) := by
  refine ⟨?_, ?_, ?_⟩
  · obtain ⟨a, b, r, h⟩ := Demo.kind_not_panic (x := solve (Demo.cfg .NewtonRaphson true 4
      (1 / 1000000000) 2) (recorded Demo.sqrt2) .new (Demo.start, [])) (by decide +kernel)
    exact ⟨a, b.1, b.2, r, h⟩
  · obtain ⟨a, b, r, h⟩ := Demo.kind_not_panic (x := solve (Demo.cfg (.QuasiNewton .StationaryNewton)
      true 4 (1 / 1000000000) 2) (recorded Demo.sqrt2) .new (Demo.start, [])) (by decide +kernel)
    exact ⟨a, b.1, b.2, r, h⟩
  · obtain ⟨a, b, h⟩ := Demo.kind_nonConvergence (x := solve (Demo.cfg (.QuasiNewton (.JacobianUpdate
      .BroydenFirst)) false 4 (1 / 1000000000) 2) (recorded Demo.sqrt2Fd) .new (Demo.start, []))
      (by decide +kernel)
    exact ⟨a, b.1, b.2, h⟩

end Nrf
