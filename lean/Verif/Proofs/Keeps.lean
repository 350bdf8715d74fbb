import Verif.Proofs.Hom

/-!
# What every call of the model keeps, a solve keeps
-/

namespace Nrf

/-- Every call that can change the model keeps `inv`. -/
structure Spec.Keeps {F : Type} {n : Nat} {EI EU S : Type} (m : UserModel F n EI EU S) (inv : S → Prop) : Prop where
  setIteratives : ∀ s x, inv s → inv (m.setIteratives s x)
  evaluate : ∀ s, inv s → inv (m.evaluate s).1
  getJacobian : ∀ s, inv s → inv (m.getJacobian s).1
  setMemory : ∀ s l, inv s → inv (m.setMemory s l)

section
variable {F : Type} {n : Nat} {EI EU S : Type}

/-- The model on the states that satisfy `inv`. -/
def restrict (m : UserModel F n EI EU S) {inv : S → Prop} (h : Spec.Keeps m inv) :
    UserModel F n EI EU {s // inv s} where
  lenProblem s := m.lenProblem s.1
  setIteratives s x := ⟨m.setIteratives s.1 x, h.setIteratives _ _ s.2⟩
  getIteratives s := m.getIteratives s.1
  evaluate s := (⟨(m.evaluate s.1).1, h.evaluate _ s.2⟩, (m.evaluate s.1).2)
  getResiduals s := m.getResiduals s.1
  jacobianProvided s := m.jacobianProvided s.1
  getJacobian s := (⟨(m.getJacobian s.1).1, h.getJacobian _ s.2⟩, (m.getJacobian s.1).2)
  getMemory s := m.getMemory s.1
  setMemory s l := ⟨m.setMemory s.1 l, h.setMemory _ _ s.2⟩
  displayUnusable e := m.displayUnusable e

theorem restrict_hom (m : UserModel F n EI EU S) {inv : S → Prop} (h : Spec.Keeps m inv) :
    Hom (restrict m h) m Subtype.val :=
  ⟨fun _ => rfl, fun _ _ => rfl, fun _ => rfl, fun _ => rfl, fun _ => rfl, fun _ => rfl, fun _ => rfl, fun _ => rfl,
    fun _ _ => rfl, fun _ => rfl⟩

/-- A solve keeps what every call keeps. -/
theorem solve_keeps [Scalar F] {c : Config F n} {m : UserModel F n EI EU S} {inv : S → Prop} (h : Spec.Keeps m inv)
    {st st' : Solver F n} {s s' : S} {r : Except (SolverError EI EU) Unit} (hs : inv s)
    (he : solve c m st s = .ok (st', s', r)) : inv s' := by
  have := solve_hom (c := c) (restrict_hom m h) st ⟨s, hs⟩
  change solve c m st s = _ at this
  rw [this] at he
  rcases hr : solve c (restrict m h) st ⟨s, hs⟩ with p | ⟨a, b, r'⟩
  · rw [hr] at he; cases he
  · rw [hr] at he
    cases he
    exact b.2

end
end Nrf
