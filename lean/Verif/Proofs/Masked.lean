import Verif.Spec.Masked
import Verif.Proofs.Sim

/-!
# A model and its masked version
-/

set_option linter.unusedSectionVars false

namespace Nrf

section
variable {F : Type} [Scalar F] {n : Nat} {EI EU S : Type}
variable {c : Config F n} {m : UserModel F n EI EU S}

theorem fdLoop_masked (res : ResConf n) (pert : Vec F n) (mem : List F) (x r : Vec F n) :
    ∀ (k i : Nat) (J : Mat F n) (s : S),
      fdLoop res (masked m) pert mem x r k i J s = fdLoop res m pert mem x r k i J s := by
  intro k
  induction k with
  | zero => intro i J s; rfl
  | succ k ih =>
    intro i J s
    unfold fdLoop
    by_cases hi : i < n
    · simp only [hi, dite_true]
      simp only [masked]
      rcases m.evaluate (m.setIteratives s _) with ⟨s1, rv⟩
      match rv with
      | .error (.unusable e) => rfl
      | .error (.inaccurate e) => exact ih _ _ _
      | .ok () => exact ih _ _ _
    · simp [hi]

theorem computeJac_masked (j : JacobianMatrix F n) (s : S) :
    computeJac c (masked m) j s = computeJac c m j s := by
  unfold computeJac fdJacobian fdCompute
  simp only [fdLoop_masked]
  rfl

/-- Accuracy flags of a model and its masked version: the second is `true` on
success and unchanged by failures. -/
def MaskedFlag : Bool → Bool → Prop := fun a b => a = true → b = true

theorem masked_sim (hd : c.params.damping = false) : MSim c MaskedFlag m (masked m) where
  jac j s := (computeJac_masked j s).symm
  set _ _ := rfl
  get _ := rfl
  res _ := rfl
  disp _ := rfl
  eval s := by
    rcases he : m.evaluate s with ⟨s1, rv⟩
    match rv, he with
    | .error (.unusable e), he => exact .inl ⟨s1, e, rfl, by simp [masked, he]⟩
    | .error (.inaccurate e), he =>
      exact .inr ⟨s1, _, _, false, true, rfl, by simp only [masked, he], .inaccurate e, .ok,
        fun _ => rfl⟩
    | .ok (), he =>
      exact .inr ⟨s1, _, _, true, true, rfl, by simp only [masked, he], .ok, .ok, fun _ => rfl⟩
  damp h := by rw [hd] at h; cases h

theorem masked_recordedArgs : masked (recordedArgs m) = recordedArgs (masked m) := by
  have : (masked (recordedArgs m)).evaluate = (recordedArgs (masked m)).evaluate := by
    funext s
    simp only [masked, recordedArgs]
    rcases m.evaluate s.1 with ⟨s1, rv⟩
    match rv with
    | .error (.unusable e) => rfl
    | .error (.inaccurate e) => rfl
    | .ok () => rfl
  unfold masked recordedArgs at *
  dsimp only at this ⊢
  rw [this]

end
end Nrf
