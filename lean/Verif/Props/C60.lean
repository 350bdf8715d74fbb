import Verif.Proofs.Consistent
import Verif.Proofs.ExactMat
import Verif.Spec.Demo

/-!
# C60: the stored Jacobian and its inverse belong together

`Display for JacobianMatrix` (`jacobian_struct.rs` L131-163), which is what the log shows, says
"Jacobian up to date with its inverse" when a matrix is stored, and otherwise "The update of the
inverse is more recent".
-/

namespace Nrf

/-- Every Jacobian a solver with debugging writes to its log, and the one it keeps, comes with the
inverse of the stored matrix, if a matrix is stored.  This holds for every outcome of the solve, and
for every solver in which it holds at the start, hence for all solves of a new solver. -/
theorem C60_up_to_date {F : Type} [Scalar F] {n : Nat} {EI EU S : Type}
    (c : Config F n) (m : UserModel F n EI EU S) (st st' : Solver F n) (s s' : S)
    (l0 : List (LogEntry F n)) (r : Except (SolverError EI EU) Unit)
    (hd : st.debug = true) (hl : st.log = some l0)
    (hj : ∀ M, st.jac.matrix = some M → ∃ inv, st.jac.inverse = some inv ∧ c.la.inv M = some inv)
    (h : solve c m st s = .ok (st', s', r)) :
    (∀ M, st'.jac.matrix = some M → ∃ inv, st'.jac.inverse = some inv ∧ c.la.inv M = some inv) ∧
    ∃ new, st'.log = some (l0 ++ new) ∧ ∀ j, LogEntry.jacobian j ∈ new → ∀ M, j.matrix = some M →
      ∃ inv, j.inverse = some inv ∧ c.la.inv M = some inv := by
  obtain ⟨new, h1, h2, h3, -⟩ := solve_jac_log ⟨hd, hl⟩ hj h
  exact ⟨h3, new, h1.2, h2⟩

open scoped Exact in
/-- In exact arithmetic the two matrices shown are inverse to each other. -/
theorem C60_inverse {K : Type} [Field K] [LinearOrder K] {n : Nat} {EI EU S : Type}
    (c : Config K n) (hL : c.la.IsExact) (m : UserModel K n EI EU S) (st st' : Solver K n) (s s' : S)
    (l0 : List (LogEntry K n)) (r : Except (SolverError EI EU) Unit)
    (hd : st.debug = true) (hl : st.log = some l0) (hj : st.jac = .new)
    (h : solve c m st s = .ok (st', s', r)) :
    ∃ new, st'.log = some (l0 ++ new) ∧ ∀ j, LogEntry.jacobian j ∈ new → ∀ M, j.matrix = some M →
      ∃ inv, j.inverse = some inv ∧ (M : Matrix (Fin n) (Fin n) K) * inv = 1 ∧
        (inv : Matrix (Fin n) (Fin n) K) * M = 1 := by
  obtain ⟨-, new, h1, h2⟩ := C60_up_to_date c m st st' s s' l0 r hd hl (by rw [hj]; intro M hM; cases hM) h
  refine ⟨new, h1, fun j hm M hM => ?_⟩
  obtain ⟨inv, h3, h4⟩ := h2 j hm M hM
  have hdet : (M : Matrix (Fin n) (Fin n) K).det ≠ 0 := by
    intro h0
    rw [hL.inv_none M h0] at h4
    cases h4
  rw [hL.inv_some M hdet] at h4
  cases h4
  exact ⟨_, h3, Matrix.mul_nonsing_inv _ (Ne.isUnit hdet), Matrix.nonsing_inv_mul _ (Ne.isUnit hdet)⟩

/-- The Jacobian written during a completed iteration is the one used for the step.  For an analytic
Jacobian and without damping, the new point is the limited Newton step made with the inverse shown. -/
theorem C60_used {F : Type} [Scalar F] {n : Nat} {EI EU S : Type}
    (c : Config F n) (m : UserModel F n EI EU S) (st st' : Solver F n) (s s' : S)
    (l : List (LogEntry F n)) (e : F) (hd : st.debug = true) (hl : st.log = some l)
    (hG : Spec.GetSet m) (hA : Spec.AnalyticJacobian m) (hdamp : c.params.damping = false)
    (h : iterate c m st s = .ok (st', s', .ok e)) :
    ∃ j inv rest, st'.log = some (l ++ .jacobian j :: rest) ∧ j.inverse = some inv ∧
      (∀ j', LogEntry.jacobian j' ∉ rest) ∧
      m.getIteratives s' = stepLimitations c.iters (m.getIteratives s)
        (mulVec c.la (mneg inv) (c.res.evaluateUpdate (m.getResiduals s))) := by
  obtain ⟨new, h1, -, h3⟩ := iterate_jac_log ⟨hd, hl⟩ h
  obtain ⟨st1, s1, x, rest, rfl, k1, k2, st2, r2, k3⟩ := h3 (.inl ⟨_, rfl⟩)
  obtain ⟨inv, k4, k5⟩ := k2.newton
  obtain ⟨e1, e2⟩ := k2.pure hA
  rw [e1, e2] at k5
  refine ⟨st1.jac, inv, rest, h1.2, k4, fun j' hj' => k1 j' hj', ?_⟩
  rw [← k5]
  have key : ∀ {s : S} {y : Vec F n} {s1 r1}, m.evaluate (m.setIteratives s y) = (s1, r1) →
      m.getIteratives s1 = y := by
    intro s y s1 r1 he
    have := hG.get_evaluate (m.setIteratives s y)
    rw [he, hG.get_set] at this
    exact this
  cases k3 with
  | unusable s1 e he => exact key he
  | plain s1 r v l he hu hd => exact key he
  | refused s1 r v l he hu hd hlt hm ha => exact key he
  | damped s1 r v l s2 he hu hd' hlt hm he2 => rw [hdamp] at hd'; cases hd'

/-- When no matrix is shown there is an inverse to be more recent, in every solve that does not stop
on a Jacobian error.  The property asks for it always; see `C60_refuted`. -/
theorem C60_more_recent_partial {F : Type} [Scalar F] {n : Nat} {EI EU S : Type}
    (c : Config F n) (m : UserModel F n EI EU S) (st st' : Solver F n) (s s' : S)
    (l0 : List (LogEntry F n)) (r : Except (SolverError EI EU) Unit)
    (hd : st.debug = true) (hl : st.log = some l0) (hj : st.jac = .new)
    (h : solve c m st s = .ok (st', s', r)) (hr : ∀ e, r ≠ .error (.jacobian e)) :
    ∃ new, st'.log = some (l0 ++ new) ∧
      ∀ j, LogEntry.jacobian j ∈ new → ∃ inv, j.inverse = some inv := by
  obtain ⟨new, h1, -, -, h4⟩ := solve_jac_log ⟨hd, hl⟩ (by rw [hj]; intro M hM; cases hM) h
  exact ⟨new, h1.2, h4 hr⟩

open scoped Exact in
/-- A singular Jacobian is written to the log as "The update of the inverse is more recent" although
there is no inverse. -/
theorem C60_refuted :
    (match solve (Demo.cfg .NewtonRaphson false 9 (1 / 1000) 0) Demo.sqrt2 Solver.new.activateDebug
        Demo.start with
      | .ok (st, _, .error (.jacobian _)) =>
        st.log.any (List.any · fun
          | .jacobian j => j.matrix.isNone && j.inverse.isNone
          | _ => false)
      | _ => false) = true := by
  decide +kernel

open scoped Exact in
/-- Hypotheses: a new solver with debugging writes three Jacobians with their inverses. -/
example : (Solver.new (F := ℚ) (n := 1)).activateDebug.debug = true ∧
    (Solver.new (F := ℚ) (n := 1)).activateDebug.jac = .new ∧
    (match solve (Demo.cfg (.QuasiNewton .StationaryNewton) false 3 (1 / 1000) 2) Demo.sqrt2
        Solver.new.activateDebug Demo.start with
      | .ok (st, _, .error .nonConvergence) =>
        decide ((st.log.map (List.filterMap fun
          | .jacobian j => some (j.matrix.map (· 0 0), j.inverse.map (· 0 0))
          | _ => none)) = some [(some 4, some (1/4)), (some 4, some (1/4)), (some 4, some (1/4))])
      | _ => false) = true :=
  ⟨rfl, rfl, by decide +kernel⟩

end Nrf
