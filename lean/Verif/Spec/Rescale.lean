import Verif.Model.RootFinder
import Verif.Spec.Exact

/-!
# The same equations written differently

Models that differ only in the way their equations are written: sides exchanged, or equations
multiplied by constants.
-/

namespace Nrf.Spec

section
variable {F : Type} {n : Nat} {EI EU S : Type}

/-- Rewrite the sides of the equations: `ψ` acts on the values, `φ` on the derivatives. -/
def rewritten (ψ : ResidualsValues F n → ResidualsValues F n) (φ : JacobianValues F n → JacobianValues F n)
    (m : UserModel F n EI EU S) : UserModel F n EI EU S :=
  { m with
    getResiduals := fun s => ψ (m.getResiduals s)
    getJacobian := fun s => ((m.getJacobian s).1, (m.getJacobian s).2.map φ) }

/-- Exchange left and right of the equations selected by `swap`. -/
def exchanged (swap : Fin n → Bool) (m : UserModel F n EI EU S) : UserModel F n EI EU S :=
  rewritten
    (fun v => ⟨fun i => if swap i then v.right i else v.left i, fun i => if swap i then v.left i else v.right i⟩)
    (fun J => ⟨fun i => if swap i then J.right i else J.left i, fun i => if swap i then J.left i else J.right i⟩)
    m

/-- The same outcome, up to the stored Jacobian and its inverse. -/
def SameUpToJacobian {R : Type} :
    Except Panic (Solver F n × S × R) → Except Panic (Solver F n × S × R) → Prop
  | .error p, .error q => p = q
  | .ok (a, s, r), .ok (b, s', r') => s = s' ∧ r = r' ∧ b = { a with jac := b.jac }
  | _, _ => False

end

/-- Multiply the equations by the factors `d`. -/
def scaled {K : Type} [Mul K] {n : Nat} {EI EU S : Type} (d : Vec K n) (m : UserModel K n EI EU S) :
    UserModel K n EI EU S :=
  rewritten (fun v => ⟨fun i => d i * v.left i, fun i => d i * v.right i⟩)
    (fun J => ⟨fun i k => d i * J.left i k, fun i k => d i * J.right i k⟩) m

end Nrf.Spec
