import Verif.Model.RootFinder
import Verif.Spec.Exact
import Mathlib.Logic.Equiv.Defs

/-!
# The same problem with variables and equations in another order

Variable `i` of the new problem is variable `σ i` of the old one, equation `i` is equation `τ i`.
-/

namespace Nrf.Spec

section
variable {F : Type} {n : Nat} {EI EU S : Type} (σ τ : Equiv.Perm (Fin n))

/-- A matrix with rows for equations and columns for variables. -/
def renumberMat (σ τ : Equiv.Perm (Fin n)) (A : Mat F n) : Mat F n := fun i k => A (τ i) (σ k)

def renumberModel (m : UserModel F n EI EU S) : UserModel F n EI EU S :=
  { m with
    setIteratives := fun s x => m.setIteratives s (x ∘ σ.symm)
    getIteratives := fun s => m.getIteratives s ∘ σ
    getResiduals := fun s => ⟨(m.getResiduals s).left ∘ τ, (m.getResiduals s).right ∘ τ⟩
    getJacobian := fun s =>
      ((m.getJacobian s).1, (m.getJacobian s).2.map fun J => ⟨renumberMat σ τ J.left, renumberMat σ τ J.right⟩) }

def renumberConfig (c : Config F n) : Config F n :=
  { c with
    guess := c.guess ∘ σ
    iters := c.iters ∘ σ
    res := ⟨c.res.stop ∘ τ, c.res.upd ∘ τ⟩ }

/-- The inverse has rows for variables and columns for equations. -/
def renumberJacobian (j : JacobianMatrix F n) : JacobianMatrix F n :=
  { j with matrix := j.matrix.map (renumberMat σ τ), inverse := j.inverse.map (renumberMat τ σ) }

def renumberEntry : LogEntry F n → LogEntry F n
  | .iteration k x v e => .iteration k (x ∘ σ) ⟨v.left ∘ τ, v.right ∘ τ⟩ (e ∘ τ)
  | .damping x v e => .damping (x ∘ σ) ⟨v.left ∘ τ, v.right ∘ τ⟩ (e ∘ τ)
  | .jacobian j => .jacobian (renumberJacobian σ τ j)
  | .header => .header
  | .parameters => .parameters
  | .refused => .refused

def renumberSolver (st : Solver F n) : Solver F n :=
  { st with
    jac := renumberJacobian σ τ st.jac
    itStep := st.itStep.map (· ∘ σ)
    resStep := st.resStep.map (· ∘ τ)
    resCur := st.resCur.map (· ∘ τ)
    log := st.log.map (List.map (renumberEntry σ τ)) }

/-- An outcome: panics, model states and verdicts stay the same. -/
def renumberOutcome {R : Type} (w : Except Panic (Solver F n × S × R)) : Except Panic (Solver F n × S × R) :=
  w.map fun p => (renumberSolver σ τ p.1, p.2)

end
end Nrf.Spec
