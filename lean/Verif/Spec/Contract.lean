import Verif.Model.Config
import Verif.Model.UserModel

/-!
# Contracts a user model may obey
-/

namespace Nrf.Spec

/-- The get/set contract: `get_iteratives` returns what was last set, and `evaluate`
does not change it. -/
structure GetSet {F : Type} {n : Nat} {EI EU S : Type} (m : UserModel F n EI EU S) : Prop where
  get_set : ∀ s x, m.getIteratives (m.setIteratives s x) = x
  get_evaluate : ∀ s, m.getIteratives (m.evaluate s).1 = m.getIteratives s

/-- A model the solver is documented to handle, together with a configuration fit
for it: an analytic Jacobian is never reported inaccurate; without one the
iteratives have perturbations and `len_problem()` is not above the dimension; with
damping no evaluation reports an error. -/
structure WellBehaved {F : Type} {n : Nat} {EI EU S : Type} (c : Config F n)
    (m : UserModel F n EI EU S) : Prop where
  jacobian : ∀ s, m.jacobianProvided s = true → ∀ e, (m.getJacobian s).2 ≠ .error (.inaccurate e)
  finiteDiff : ∀ s, m.jacobianProvided s = false →
    m.lenProblem s ≤ n ∧ ∀ i, (c.iters i).computePerturbation.isSome = true
  damping : c.params.damping = true → ∀ s e, (m.evaluate s).2 ≠ .error e

/-- A model with an analytic Jacobian that can be asked without disturbing the model. -/
structure AnalyticJacobian {F : Type} {n : Nat} {EI EU S : Type} (m : UserModel F n EI EU S) :
    Prop where
  provided : ∀ s, m.jacobianProvided s = true
  residuals : ∀ s, m.getResiduals (m.getJacobian s).1 = m.getResiduals s
  iteratives : ∀ s, m.getIteratives (m.getJacobian s).1 = m.getIteratives s

end Nrf.Spec

namespace Nrf.Spec

/-- The memory contract (`model/model_definition.rs`, documentation of `get_memory` and
`set_memory`).  `ctx s` is whatever an evaluation at state `s` depends on besides the iteratives.
States with equal context give equal residuals, and setting back a remembered memory after an
evaluation restores the context. -/
structure Memory {F : Type} {n : Nat} {EI EU S C : Type} (m : UserModel F n EI EU S) (ctx : S → C) :
    Prop where
  residuals : ∀ s s' x, ctx s = ctx s' →
    m.getResiduals (m.evaluate (m.setIteratives s x)).1 =
      m.getResiduals (m.evaluate (m.setIteratives s' x)).1
  restore : ∀ s s0 x, ctx s = ctx s0 →
    ctx (m.setMemory (m.evaluate (m.setIteratives s x)).1 (m.getMemory s0)) = ctx s0

/-- `set_memory` changes neither the iteratives nor the residuals that can be read back. -/
structure MemoryQuiet {F : Type} {n : Nat} {EI EU S : Type} (m : UserModel F n EI EU S) : Prop where
  iteratives : ∀ s v, m.getIteratives (m.setMemory s v) = m.getIteratives s
  residuals : ∀ s v, m.getResiduals (m.setMemory s v) = m.getResiduals s

/-- The residuals obtained by evaluating the model at `y`, starting from state `s`. -/
def residualsAt {F : Type} {n : Nat} {EI EU S : Type} (m : UserModel F n EI EU S) (s : S)
    (y : Vec F n) : ResidualsValues F n := m.getResiduals (m.evaluate (m.setIteratives s y)).1

end Nrf.Spec
