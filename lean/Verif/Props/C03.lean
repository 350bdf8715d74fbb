import Verif.Proofs.Repeated
import Verif.Spec.Demo

/-!
# C03: bounded work
-/

namespace Nrf

/-- Recording the calls made on the model changes nothing: the solve of the bare
model is the recorded one with the call list forgotten (panics included). -/
theorem C03_recording_is_faithful {F : Type} [Scalar F] {n : Nat} {EI EU S : Type}
    (c : Config F n) (m : UserModel F n EI EU S) (st : Solver F n) (s : S) :
    solve c m st s =
      match solve c (recorded m) st (s, []) with
      | .error p => .error p
      | .ok (st', s', r) => .ok (st', s'.1, r) := by
  rw [solve_recorded c m st s []]
  unfold mapMid
  split <;> rename_i h <;> rw [h]

/-- Bound on the iterations, evaluations and analytic Jacobians of one solve, for
every model, method, arithmetic and history of the solver.  `N` bounds
`len_problem()` while no Jacobian is provided (0 when one always is). -/
theorem C03_bounded_work {F : Type} [Scalar F] {n : Nat} {EI EU S : Type}
    (c : Config F n) (m : UserModel F n EI EU S) (st st' : Solver F n) (s s' : S)
    (calls : List (Call F n EI EU)) (r : Except (SolverError EI EU) Unit) (N : Nat)
    (hN : ∀ s, m.jacobianProvided s = false → m.lenProblem s ≤ N)
    (h : solve c (recorded m) st (s, []) = .ok (st', (s', calls), r)) :
    st'.iter - st.iter ≤ c.params.maxIter - st.iter ∧
    countEvaluate calls ≤
      1 + (c.params.maxIter - st.iter) * (N + 1 + if c.params.damping then 1 else 0) ∧
    countGetJacobian calls ≤ c.params.maxIter - st.iter := by
  obtain ⟨-, h1, h2, h3⟩ := solve_work hN h
  exact ⟨h1, h2.trans (Nat.add_le_add_left (Nat.mul_le_mul_right _ h1) _), h3.trans h1⟩

open scoped Exact in
/-- A recorded solve with finite differences and damping (`N = 1`). -/
example : ∃ st' s' calls r,
    solve (Demo.cfg (.QuasiNewton (.JacobianUpdate .BroydenFirst)) true 5 (1 / 1000) 2)
      (recorded Demo.sqrt2Fd) .new (Demo.start, []) = .ok (st', (s', calls), r) ∧
    ∀ s, Demo.sqrt2Fd.jacobianProvided s = false → Demo.sqrt2Fd.lenProblem s ≤ 1 := by
  obtain ⟨a, b, r, h⟩ := Demo.kind_not_panic (x :=
    solve (Demo.cfg (.QuasiNewton (.JacobianUpdate .BroydenFirst)) true 5 (1 / 1000) 2)
      (recorded Demo.sqrt2Fd) .new (Demo.start, [])) (by decide +kernel)
  exact ⟨a, b.1, b.2, r, h, fun _ _ => le_refl _⟩

end Nrf
