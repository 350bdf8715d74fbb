import Verif.Proofs.JacOutcome
import Verif.Spec.Contract

/-!
# The column loop of the finite-difference Jacobian
-/

set_option linter.unusedSectionVars false

namespace Nrf

section
variable {F : Type} [Scalar F] {n : Nat} {EI EU S C : Type}
variable {res : ResConf n} {m : UserModel F n EI EU S}

/-- The point with coordinate `i` moved by `d`. -/
def moved (x : Vec F n) (i : Fin n) (d : F) : Vec F n := fun l => if l = i then x i +ᶠ d else x l

/-- Columns and final state of a completed loop. -/
theorem fdLoop_columns {ctx : S → C} (hm : Spec.Memory m ctx) (s0 : S) (pert x r : Vec F n) :
    ∀ (k i : Nat) (J : Mat F n) (s : S) {s' J'}, ctx s = ctx s0 →
      fdLoop res m pert (m.getMemory s0) x r k i J s = .ok (s', .ok J') →
      i + k ≤ max i n ∧
      (∀ row col, J' row col =
        if i ≤ col.1 ∧ col.1 < i + k then
          (res.evaluateUpdate (Spec.residualsAt m s0 (moved x col (pert col))) row -ᶠ r row) /ᶠ pert col
        else J row col) ∧
      (k = 0 → s' = s) ∧
      (k ≠ 0 → ∃ (s1 : S) (last : Fin n), last.1 + 1 = i + k ∧ ctx s1 = ctx s0 ∧
        s' = m.setMemory (m.evaluate (m.setIteratives s1 (moved x last (pert last)))).1
          (m.getMemory s0)) := by
  intro k
  induction k with
  | zero =>
    intro i J s s' J' hc h
    cases h
    refine ⟨by omega, fun row col => ?_, fun _ => rfl, fun h => absurd rfl h⟩
    rw [if_neg (by omega)]
  | succ k ih =>
    intro i J s s' J' hc h
    unfold fdLoop at h
    split at h
    · rename_i hi
      dsimp only at h
      have hstep : fdLoop res m pert (m.getMemory s0) x r k (i + 1)
          (setColumn J ⟨i, hi⟩ (vdiv (vsub (res.evaluateUpdate
            (m.getResiduals (m.evaluate (m.setIteratives s (moved x ⟨i, hi⟩ (pert ⟨i, hi⟩)))).1)) r)
              (pert ⟨i, hi⟩)))
          (m.setMemory (m.evaluate (m.setIteratives s (moved x ⟨i, hi⟩ (pert ⟨i, hi⟩)))).1
            (m.getMemory s0)) = .ok (s', .ok J') := by
        have e : (fun l => if l = (⟨i, hi⟩ : Fin n) then x ⟨i, hi⟩ +ᶠ pert ⟨i, hi⟩ else x l) =
          moved x ⟨i, hi⟩ (pert ⟨i, hi⟩) := rfl
        rw [e] at h
        rcases he : m.evaluate (m.setIteratives s (moved x ⟨i, hi⟩ (pert ⟨i, hi⟩))) with ⟨s2, u⟩
        rw [he] at h
        rcases u with (u | u) | u
        · exact h
        · cases h
        · exact h
      have hctx := hm.restore s s0 (moved x ⟨i, hi⟩ (pert ⟨i, hi⟩)) hc
      obtain ⟨h1, h2, h3, h4⟩ := ih _ _ _ hctx hstep
      refine ⟨by omega, fun row col => ?_, fun h => absurd h (by omega), fun _ => ?_⟩
      · rw [h2]
        by_cases hcol : col.1 = i
        · have : col = ⟨i, hi⟩ := Fin.ext hcol
          subst this
          rw [if_neg (by simp), if_pos (by simp)]
          simp only [setColumn, if_true, vdiv, vsub, Spec.residualsAt]
          rw [hm.residuals s s0 _ hc]
        · have hne : col ≠ ⟨i, hi⟩ := fun h => hcol (congrArg Fin.val h)
          by_cases hin : i + 1 ≤ col.1 ∧ col.1 < i + 1 + k
          · rw [if_pos hin, if_pos (by omega)]
          · rw [if_neg hin, if_neg (by omega)]
            simp [setColumn, hne]
      · by_cases hk : k = 0
        · subst hk
          exact ⟨s, ⟨i, hi⟩, rfl, hc, h3 rfl⟩
        · obtain ⟨s1, last, g1, g2, g3⟩ := h4 hk
          exact ⟨s1, last, by omega, g2, g3⟩
    · cases h

/-- Without unusable evaluations the loop completes. -/
theorem fdLoop_completes (hu : ∀ s e, (m.evaluate s).2 ≠ .error (.unusable e)) (pert x r : Vec F n)
    (mem : List F) : ∀ (k i : Nat) (J : Mat F n) (s : S), i + k ≤ n →
      ∃ s' J', fdLoop res m pert mem x r k i J s = .ok (s', .ok J') := by
  intro k
  induction k with
  | zero => intro i J s _; exact ⟨s, J, rfl⟩
  | succ k ih =>
    intro i J s hk
    unfold fdLoop
    rw [dif_pos (by omega : i < n)]
    dsimp only
    split
    · rename_i e he
      exact absurd (congrArg Prod.snd he) (hu _ e)
    · exact ih _ _ _ (by omega)

end
end Nrf
