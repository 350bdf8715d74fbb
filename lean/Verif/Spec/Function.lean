import Verif.Model.RootFinder

/-!
# Models that compute a function

What it means for a user model to compute the two sides of a system of equations on a set `D` of
points, without hidden state that matters.  `inv` is a property of the state that every call keeps
(for the adapters: the constant right side).
-/

namespace Nrf.Spec

section
variable {F : Type} {n : Nat} {EI EU S : Type}

/-- Setting a point of `D` and evaluating succeeds; afterwards the model is at that point with the
residuals `f` of the point. -/
structure Computes (m : UserModel F n EI EU S) (inv : S → Prop) (D : Vec F n → Prop)
    (f : Vec F n → ResidualsValues F n) : Prop where
  keeps : ∀ s x, inv s → D x → inv (m.evaluate (m.setIteratives s x)).1
  ok : ∀ s x, inv s → D x → (m.evaluate (m.setIteratives s x)).2 = .ok ()
  iteratives : ∀ s x, inv s → D x → m.getIteratives (m.evaluate (m.setIteratives s x)).1 = x
  residuals : ∀ s x, inv s → D x → m.getResiduals (m.evaluate (m.setIteratives s x)).1 = f x

/-- The model is at the point `x`, evaluated. -/
structure At (m : UserModel F n EI EU S) (inv : S → Prop) (f : Vec F n → ResidualsValues F n)
    (s : S) (x : Vec F n) : Prop where
  good : inv s
  iteratives : m.getIteratives s = x
  residuals : m.getResiduals s = f x

/-- The model provides the Jacobian `g`. -/
structure Differentiates (m : UserModel F n EI EU S) (inv : S → Prop)
    (f : Vec F n → ResidualsValues F n) (g : Vec F n → JacobianValues F n) : Prop where
  provided : ∀ s, inv s → m.jacobianProvided s = true
  ok : ∀ s x, At m inv f s x → (m.getJacobian s).2 = .ok (g x)
  stays : ∀ s x, At m inv f s x → At m inv f (m.getJacobian s).1 x

/-- The model provides no Jacobian, and restoring its memory changes nothing that matters. -/
structure Underived (m : UserModel F n EI EU S) (inv : S → Prop)
    (f : Vec F n → ResidualsValues F n) : Prop where
  provided : ∀ s, inv s → m.jacobianProvided s = false
  len : ∀ s, inv s → m.lenProblem s = n
  stays : ∀ s x v, At m inv f s x → At m inv f (m.setMemory s v) x

end

section
variable {F : Type} [Scalar F] {n : Nat}

/-- The adapters for functions compute the function; the right side is constant. -/
theorem fromFunction_computes (f : Vec F n → Vec F n) (r : Vec F n) :
    Computes (fromFunction f) (fun s => s.right = r) (fun _ => True) (fun x => ⟨f x, r⟩) where
  keeps _ _ h _ := h
  ok _ _ _ _ := rfl
  iteratives _ _ _ _ := rfl
  residuals s x h _ := by
    change (⟨f x, s.right⟩ : ResidualsValues F n) = _
    rw [h]

theorem fromFunction_underived (f : Vec F n → Vec F n) (r : Vec F n) :
    Underived (fromFunction f) (fun s => s.right = r) (fun x => ⟨f x, r⟩) where
  provided _ _ := rfl
  len _ _ := rfl
  stays _ _ _ h := h

theorem fromFunctionAndJacobian_computes (f : Vec F n → Vec F n) (jac : Vec F n → Mat F n)
    (r : Vec F n) :
    Computes (fromFunctionAndJacobian f jac) (fun s => s.right = r) (fun _ => True)
      (fun x => ⟨f x, r⟩) where
  keeps _ _ h _ := h
  ok _ _ _ _ := rfl
  iteratives _ _ _ _ := rfl
  residuals s x h _ := by
    change (⟨f x, s.right⟩ : ResidualsValues F n) = _
    rw [h]

theorem fromFunctionAndJacobian_differentiates (f : Vec F n → Vec F n) (jac : Vec F n → Mat F n)
    (r : Vec F n) :
    Differentiates (fromFunctionAndJacobian f jac) (fun s => s.right = r) (fun x => ⟨f x, r⟩)
      (fun x => ⟨jac x, mzero⟩) where
  provided _ _ := rfl
  ok s x h := by
    change Except.ok (⟨jac s.inputs, mzero⟩ : JacobianValues F n) = _
    rw [show s.inputs = x from h.iteratives]
  stays _ _ h := h

end
end Nrf.Spec
