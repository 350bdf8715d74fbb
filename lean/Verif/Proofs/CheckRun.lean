import Verif.Proofs.Loop

/-!
# Checking every state of a concrete run by evaluation
-/

namespace Nrf

section
variable {F : Type} [Scalar F] {n : Nat} {EI EU S : Type}

/-- Follow the loop for at most `k` passes, testing every state on the way; fails if the loop has not
ended. -/
def checkRun (c : Config F n) (m : UserModel F n EI EU S) (P : Solver F n → S → Bool) :
    Nat → Solver F n → S → F → Bool
  | 0, st, s, e => !continues c st e && P st s
  | k + 1, st, s, e => P st s && (!continues c st e ||
      match iterate c m st s with
      | .ok (st1, s1, .ok e1) => checkRun c m P k st1 s1 e1
      | _ => true)

theorem checkRun_sound {c : Config F n} {m : UserModel F n EI EU S} {P : Solver F n → S → Bool}
    {st st' : Solver F n} {s s' : S} {e e' : F} (hr : Run c m st s e st' s' e') :
    ∀ {k : Nat}, checkRun c m P k st s e = true → P st' s' = true := by
  induction hr with
  | done st s e =>
    intro k h
    cases k with
    | zero => simp only [checkRun, Bool.and_eq_true] at h; exact h.2
    | succ k => simp only [checkRun, Bool.and_eq_true] at h; exact h.1
  | pass hc hi hr ih =>
    intro k h
    cases k with
    | zero => simp [checkRun, hc] at h
    | succ k =>
      simp only [checkRun, hc, hi, Bool.and_eq_true, Bool.not_true, Bool.false_or] at h
      exact ih h.2

end
end Nrf
