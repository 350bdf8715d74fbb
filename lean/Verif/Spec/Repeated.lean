import Verif.Spec.Recorded
import Verif.Model.RootFinder

/-!
# Solves one after another on the same solver
-/

namespace Nrf.Spec

/-- `k` solves one after another on one solver, none of which panics: each on any model in any state, with any outcome.
`evals` and `jacs` count the `evaluate` and `get_jacobian` calls of all of them.  `N` bounds `len_problem()` of the models
that provide no Jacobian. -/
inductive Solves {F : Type} [Scalar F] {n : Nat} (c : Config F n) (N : Nat) :
    Solver F n → (k evals jacs : Nat) → Solver F n → Prop where
  | none (st) : Solves c N st 0 0 0 st
  | more {EI EU S : Type} {st st1 st2 : Solver F n} {k evals jacs : Nat} (m : UserModel F n EI EU S) (s s' : S)
      (calls : List (Call F n EI EU)) (r : Except (SolverError EI EU) Unit)
      (hN : ∀ s, m.jacobianProvided s = false → m.lenProblem s ≤ N)
      (h : solve c (recorded m) st (s, []) = .ok (st1, (s', calls), r)) (t : Solves c N st1 k evals jacs st2) :
      Solves c N st (k + 1) (countEvaluate calls + evals) (countGetJacobian calls + jacs) st2

/-- `k` solves of the same model one after another on one solver: the results. -/
def again {F : Type} [Scalar F] {n : Nat} {EI EU S : Type} (c : Config F n) (m : UserModel F n EI EU S) :
    Nat → Solver F n → S → Except Panic (Solver F n × S × List (Except (SolverError EI EU) Unit))
  | 0, st, s => .ok (st, s, [])
  | k + 1, st, s =>
    match solve c m st s with
    | .error p => .error p
    | .ok (st, s, r) => (again c m k st s).map fun x => (x.1, x.2.1, r :: x.2.2)

/-- In every state that satisfies `inv`, the initial guess can be evaluated and is not a solution. -/
def GuessUnsolved {F : Type} [Scalar F] {n : Nat} {EI EU S : Type} (c : Config F n) (m : UserModel F n EI EU S)
    (inv : S → Prop) : Prop :=
  ∀ s, inv s → (∀ e, (m.evaluate (m.setIteratives s c.guess)).2 ≠ .error (.unusable e)) ∧
    Scalar.lt c.params.tolerance
      (amax (evaluateErrors c m (m.evaluate (m.setIteratives s c.guess)).1)) = true

end Nrf.Spec
