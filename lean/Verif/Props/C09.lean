import Verif.Proofs.Masked
import Verif.Spec.Demo

/-!
# C09: inaccurate evaluations do not disturb the resolution
-/

namespace Nrf

/-- Compare a solve of `m` with a solve of the model that reports inaccurate
evaluations as successes (damping off, any solver whose log is usable).  Both panic
for the same reason, or both return, having made the same calls (with the same
arguments, in the same order) and leaving the same model state.  The results are
equal, except that `FinalEvaluationError` becomes `Ok`. -/
theorem C09_inaccurate_does_not_disturb {F : Type} [Scalar F] {n : Nat} {EI EU S : Type}
    (c : Config F n) (m : UserModel F n EI EU S) (st : Solver F n) (s : S)
    (hdamp : c.params.damping = false)
    (hlog : st.debug = true → st.log.isSome = true ∧ n ≠ 0) :
    (∃ p, solve c (recordedArgs m) st (s, []) = .error p ∧
      solve c (recordedArgs (masked m)) st (s, []) = .error p) ∨
    (∃ st1 st2 s' calls r1 r2,
      solve c (recordedArgs m) st (s, []) = .ok (st1, (s', calls), r1) ∧
      solve c (recordedArgs (masked m)) st (s, []) = .ok (st2, (s', calls), r2) ∧
      st1.iter = st2.iter ∧ st1.jac = st2.jac ∧
      (r1 = r2 ∨ (r1 = .error .finalEvaluation ∧ r2 = .ok ()))) := by
  have hs : Sim MaskedFlag st st :=
    { iter := rfl, jac := rfl, itStep := rfl, resStep := rfl, resCur := rfl,
      safe1 := fun h => (hlog h).1, safe2 := fun h => (hlog h).1,
      debug := fun h => (hlog (h.elim id id)).2, valid := id }
  have := solve_sim (m := recordedArgs m) (V := MaskedFlag) id (masked_sim hdamp) hs (s, [])
  rw [masked_recordedArgs] at this
  revert this
  rcases solve c (recordedArgs m) st (s, []) with p | ⟨st1, ⟨s', calls⟩, r1⟩ <;>
    rcases solve c (recordedArgs (masked m)) st (s, []) with q | ⟨st2, ⟨s2, calls2⟩, r2⟩
  · intro h; exact .inl ⟨p, rfl, by rw [show p = q from h]⟩
  · intro h; exact h.elim
  · intro h; exact h.elim
  · rintro ⟨h1, h2, h3⟩
    cases h2
    refine .inr ⟨st1, st2, s', calls, r1, r2, rfl, rfl, h1.iter, h1.jac, ?_⟩
    rcases h3 with h | ⟨-, h, -, h'⟩ | ⟨h, -, h', -⟩
    · exact .inl h
    · exact .inr ⟨h, h'⟩
    · rw [h1.valid h] at h'; cases h'

/-- `x² = 2`, reported inaccurate below 2 (once evaluated). -/
def Demo.inaccurateBelow2 : UserModel ℚ 1 String Empty (AdapterState ℚ 1) where
  lenProblem _ := 1
  setIteratives s x := { s with inputs := x }
  getIteratives s := s.inputs
  evaluate s := ({ s with left := fun _ => s.inputs 0 * s.inputs 0 - 2 },
    if s.inputs 0 < 2 then .error (.inaccurate "below 2") else .ok ())
  getResiduals s := { left := s.left, right := s.right }
  jacobianProvided _ := true
  getJacobian s := (s, .ok { left := fun _ _ => 2 * s.inputs 0, right := fun _ _ => 0 })
  getMemory _ := []
  setMemory s _ := s
  displayUnusable e := nomatch e

open scoped Exact in
/-- The second alternative occurs with different results. -/
example : Demo.kind (solve (Demo.cfg .NewtonRaphson false 9 (1 / 1000) 3) Demo.inaccurateBelow2 .new
      Demo.start) = .finalEvaluation ∧
    Demo.kind (solve (Demo.cfg .NewtonRaphson false 9 (1 / 1000) 3) (masked Demo.inaccurateBelow2)
      .new Demo.start) = .ok := by
  constructor <;> decide +kernel

end Nrf
