import Verif.Proofs.Renumber
import Verif.Props.C81
import Mathlib.Logic.Equiv.Basic

/-!
# C82: the order of the variables and of the equations
-/

namespace Nrf
open Spec
open scoped Exact

section
variable {K : Type} [Field K] [LinearOrder K] [IsStrictOrderedRing K] {n : Nat} {EI EU S : Type}

/-- The order of the equations does not matter: the same solve, with every method, with or without Jacobian. -/
theorem C82_equations (c : Config K n) (hL : c.la.IsExact) (m : UserModel K n EI EU S) (τ : Equiv.Perm (Fin n))
    (st : Solver K n) (s : S) :
    solve (renumberConfig 1 τ c) (renumberModel 1 τ m) (renumberSolver 1 τ st) s =
      renumberOutcome 1 τ (solve c m st s) :=
  solve_renumber hL (.inr rfl) st s

/-- When the model gives its Jacobian, the order of the variables does not matter either. -/
theorem C82_variables (c : Config K n) (hL : c.la.IsExact) (m : UserModel K n EI EU S) (σ τ : Equiv.Perm (Fin n))
    (hJ : ∀ s, m.jacobianProvided s = true) (st : Solver K n) (s : S) :
    solve (renumberConfig σ τ c) (renumberModel σ τ m) (renumberSolver σ τ st) s =
      renumberOutcome σ τ (solve c m st s) :=
  solve_renumber hL (.inl hJ) st s

/-- A new solver is the same in all orders. -/
theorem C82_new (σ τ : Equiv.Perm (Fin n)) : renumberSolver σ τ (.new : Solver K n) = .new := rfl

end

theorem endsAt_renumber (σ τ : Equiv.Perm (Fin 2))
    (w : Except Panic (Solver ℚ 2 × AdapterState ℚ 2 × Except (SolverError Empty Empty) Unit)) :
    Demo.endsAt (renumberOutcome σ τ w) = Demo.endsAt w := by
  rcases w with p | ⟨a, s, r⟩ <;> rfl

/-- With finite differences the order of the variables matters: for every updating method there is a problem with two
variables whose solve ends elsewhere when they are exchanged. -/
theorem C82_refuted (q : QuasiNewtonMethod) (hq : q ≠ .StationaryNewton) :
    ∃ (c : Config ℚ 2) (m : UserModel ℚ 2 Empty Empty (AdapterState ℚ 2)) (s : AdapterState ℚ 2),
      c.params.method = .QuasiNewton q ∧ c.la.IsExact ∧
      solve (renumberConfig (Equiv.swap 0 1) 1 c) (renumberModel (Equiv.swap 0 1) 1 m) .new s ≠
        renumberOutcome (Equiv.swap 0 1) 1 (solve c m .new s) := by
  have key : Demo.endsAt (solve (renumberConfig (Equiv.swap 0 1) 1 (Demo.circleCfg (.QuasiNewton q) false))
      (renumberModel (Equiv.swap 0 1) 1 Demo.circle) .new ⟨0, 0, 0⟩) ≠
      Demo.endsAt (solve (Demo.circleCfg (.QuasiNewton q) false) Demo.circle .new ⟨0, 0, 0⟩) := by
    rcases q with _ | (_ | _ | _ | _) | (_ | _ | _ | _)
    · exact absurd rfl hq
    all_goals decide +kernel
  refine ⟨Demo.circleCfg (.QuasiNewton q) false, Demo.circle, ⟨0, 0, 0⟩, rfl, C75_exact, fun h => key ?_⟩
  rw [h, endsAt_renumber]

/-- So it does for Newton-Raphson with damping. -/
theorem C82_damping_refuted :
    ∃ (c : Config ℚ 2) (m : UserModel ℚ 2 Empty Empty (AdapterState ℚ 2)) (s : AdapterState ℚ 2),
      c.params.method = .NewtonRaphson ∧ c.la.IsExact ∧
      solve (renumberConfig (Equiv.swap 0 1) 1 c) (renumberModel (Equiv.swap 0 1) 1 m) .new s ≠
        renumberOutcome (Equiv.swap 0 1) 1 (solve c m .new s) := by
  have key : Demo.endsAt (solve (renumberConfig (Equiv.swap 0 1) 1 { Demo.circleCfg .NewtonRaphson true with guess := ![1 / 10, 1 / 10] })
      (renumberModel (Equiv.swap 0 1) 1 Demo.circle) .new ⟨0, 0, 0⟩) ≠
      Demo.endsAt (solve { Demo.circleCfg .NewtonRaphson true with guess := ![1 / 10, 1 / 10] } Demo.circle .new ⟨0, 0, 0⟩) := by
    decide +kernel
  refine ⟨{ Demo.circleCfg .NewtonRaphson true with guess := ![1 / 10, 1 / 10] }, Demo.circle, ⟨0, 0, 0⟩, rfl, C75_exact, fun h => key ?_⟩
  rw [h, endsAt_renumber]

/-! ### The hypotheses can be met -/

/-- Broyden's first method with Jacobian and damping: variables and equations exchanged. -/
example : solve (renumberConfig (Equiv.swap 0 1) (Equiv.swap 0 1)
      (Demo.circleCfg (.QuasiNewton (.JacobianUpdate .BroydenFirst)) true))
    (renumberModel (Equiv.swap 0 1) (Equiv.swap 0 1) Demo.circleJac) .new ⟨0, 0, 0⟩ =
    renumberOutcome (Equiv.swap 0 1) (Equiv.swap 0 1)
      (solve (Demo.circleCfg (.QuasiNewton (.JacobianUpdate .BroydenFirst)) true) Demo.circleJac .new ⟨0, 0, 0⟩) :=
  C82_variables _ C75_exact _ _ _ (fun _ => rfl) .new _

/-- That solve does three iterations. -/
example : (solve (Demo.circleCfg (.QuasiNewton (.JacobianUpdate .BroydenFirst)) true) Demo.circleJac .new
    ⟨0, 0, 0⟩).toOption.map (fun p => (p.1.iter, decide (p.2.1.inputs 0 = 1 / 2))) = some (3, false) := by
  decide +kernel

/-- Equations exchanged with finite differences. -/
example : solve (renumberConfig 1 (Equiv.swap 0 1) (Demo.circleCfg (.QuasiNewton (.JacobianUpdate .BroydenFirst)) true))
    (renumberModel 1 (Equiv.swap 0 1) Demo.circle) .new ⟨0, 0, 0⟩ =
    renumberOutcome 1 (Equiv.swap 0 1)
      (solve (Demo.circleCfg (.QuasiNewton (.JacobianUpdate .BroydenFirst)) true) Demo.circle .new ⟨0, 0, 0⟩) :=
  C82_equations _ C75_exact _ _ .new _

end Nrf
