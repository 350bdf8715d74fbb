import Verif.Proofs.Calls
import Verif.Props.C07
import Verif.Spec.Demo

/-!
# C08: unusable evaluations during the iterations (refuted)

`SPECIFICATIONS.md` and `model/error.rs` say that unusable values met during the
iterations are recovered.  The code ends the solve at once.
-/

namespace Nrf

/-- What the code does, for every model, method and history: an evaluation that
reports unusable values is the last call of the solve, and the solve returns that
very error (wrapped according to the phase it occurred in). -/
theorem C08_unusable_always_aborts {F : Type} [Scalar F] {n : Nat} {EI EU S : Type}
    (c : Config F n) (m : UserModel F n EI EU S) (st st' : Solver F n) (s s' : S)
    (calls : List (Call F n EI EU)) (r : Except (SolverError EI EU) Unit) (e : EU)
    (h : solve c (recorded m) st (s, []) = .ok (st', (s', calls), r))
    (he : Call.evaluate (.error (.unusable e)) ∈ calls) :
    (∃ before, calls = before ++ [.evaluate (.error (.unusable e))] ∧
      ∀ e', Call.evaluate (.error (.unusable e')) ∉ before) ∧
    (r = .error (.modelInitialEvaluation (m.displayUnusable e)) ∨
      r = .error (.modelEvaluation (.unusable e)) ∨
      r = .error (.jacobian (.invalidJacobian (.unusable e)))) := by
  -- no unusable evaluation in the calls of completed iterations
  let clean (t : List (Call F n EI EU)) : Prop := ∀ e', Call.evaluate (.error (.unusable e')) ∉ t
  have clean_app : ∀ {a b}, clean a → clean b → clean (a ++ b) := by
    intro a b ha hb e' hm
    rcases List.mem_append.1 hm with h | h
    · exact ha e' h
    · exact hb e' h
  have usable : ∀ {r0 : Except (ModelError EI EU) Unit} {v} {x : Vec F n}, Usable r0 v →
      clean [.setIteratives x, .evaluate r0] := by
    intro r0 v x hu e' hm
    cases hu <;> simp at hm
  have fd : ∀ {mem : List F} {k t}, FdCalls (n := n) (EI := EI) (EU := EU) mem k t → clean t := by
    intro mem k t hf
    induction hf with
    | nil => intro e'; simp
    | cons x r0 v hu _ ih =>
      have := clean_app (usable (x := x) hu) (clean_app (b := _) (a := [.setMemory mem])
        (by intro e'; simp) ih)
      simpa using this
  have stepOk : ∀ {st s seg x}, StepCalls c m st s seg (.ok x) → clean seg := by
    intro st s seg x hs
    generalize hx : (Except.ok x : Except (SolverInternalError EI EU) (Vec F n)) = rx at hs
    cases hs with
    | computed seg rj r hm hj hr =>
      cases hj with
      | analytic r rj hp => intro e'; simp
      | fd seg rj hp hf hr => exact fd hf
      | fdFailed k seg y e hp hk hf =>
        subst hx
        rcases hr with ⟨h, -⟩ | ⟨e, -, h⟩ <;> cases h
    | none r hm hc => intro e'; simp
  -- the calls of any iteration: clean, or one unusable evaluation at the end
  have iter : ∀ {st s s' v seg r0}, IterCalls c m st s s' v seg r0 →
      (clean seg ∧ ∀ a, r0 ≠ .error (.modelEvaluation (.unusable a))) ∨
      (∃ before a, seg = before ++ [.evaluate (.error (.unusable a))] ∧ clean before ∧
        (r0 = .error (.modelEvaluation (.unusable a)) ∨
          r0 = .error (.jacobian (.invalidJacobian (.unusable a))))) := by
    intro st s s' v seg r0 hi
    cases hi with
    | step jc uc s1 x s' v e h1 h2 =>
      refine .inl ⟨clean_app (stepOk h1) ?_, by simp⟩
      cases h2 with
      | plain r he hu e => exact usable hu
      | damped s1 r he hu hd he2 e =>
        exact clean_app (usable hu) (usable (v := true) .ok)
    | evalFailed jc uc s1 x s' v e h1 h2 =>
      cases h2 with
      | unusable a he =>
        exact .inr ⟨jc ++ [.setIteratives x], a, by simp,
          clean_app (stepOk h1) (by intro e'; simp), .inl rfl⟩
    | jacFailed jc s' v e h1 =>
      generalize hx : (Except.error e : Except (SolverInternalError EI EU) (Vec F n)) = rx at h1
      cases h1 with
      | computed seg rj r hm hj hr =>
        cases hj with
        | analytic r rj hp => exact .inl ⟨by intro e'; simp, by simp⟩
        | fd seg rj hp hf hr => exact .inl ⟨fd hf, by simp⟩
        | fdFailed k seg y a hp hk hf =>
          subst hx
          rcases hr with ⟨h, -⟩ | ⟨e', h1, h2⟩
          · cases h
          · cases h1; cases h2
            exact .inr ⟨seg ++ [.setIteratives y], a, by simp,
              clean_app (fd hf) (by intro e'; simp), .inr rfl⟩
      | none r hm hc => exact .inl ⟨by intro e'; simp, by simp⟩
  have run : ∀ {st0 s0 e0 st1 s1 e1}, Run c (recorded m) st0 s0 e0 st1 s1 e1 → clean s0.2 →
      clean s1.2 := by
    intro st0 s0 e0 st1 s1 e1 hr h0
    refine hr.invariant (P := fun _ s _ => clean s.2) ?_ h0
    rintro st1 ⟨s1, t1⟩ e st2 ⟨s2, t2⟩ e2 hcl _ hi
    obtain ⟨seg, rfl, hic⟩ := iterate_calls hi
    rcases iter hic with ⟨hs, -⟩ | ⟨_, _, _, _, h | h⟩
    · exact clean_app hcl hs
    · cases h
    · cases h
  have start : ∀ {s0 : S × List (Call F n EI EU)} {r0 v},
      (recorded m).evaluate ((recorded m).setIteratives (s, []) c.guess) = (s0, r0) →
      Usable r0 v → clean s0.2 := by
    intro s0 r0 v he hu
    obtain ⟨rfl, -⟩ := solve_start he
    exact usable hu
  cases solve_outcome h with
  | initFailed hev =>
    obtain ⟨h1, -⟩ := solve_start hev
    obtain ⟨rfl, rfl⟩ := Prod.mk.inj h1
    rename_i a
    have ha : e = a := by simpa using he
    subst ha
    exact ⟨⟨[.setIteratives c.guess], rfl, by intro e'; simp⟩, .inl rfl⟩
  | finished hev hu hl =>
    cases hl with
    | exit hrun hc => exact absurd he (run hrun (start hev hu) e)
  | failed hev hu hl =>
    cases hl with
    | failed hrun hc hi =>
      rename_i st1 s1 e1
      have hcl := run hrun (start hev hu)
      obtain ⟨s1, t1⟩ := s1
      obtain ⟨seg, rfl, hic⟩ := iterate_calls hi
      rcases iter hic with ⟨hs, -⟩ | ⟨before, a, rfl, hb, hr⟩
      · exact absurd he (clean_app hcl hs e)
      · have hcb := clean_app hcl hb
        have ha : e = a := by
          rw [← List.append_assoc] at he
          rcases List.mem_append.1 he with h | h
          · exact absurd h (hcb e)
          · simpa using h
        subst ha
        refine ⟨⟨t1 ++ before, by simp, hcb⟩, ?_⟩
        rcases hr with h | h
        · cases h; exact .inr (.inl rfl)
        · cases h; exact .inr (.inr rfl)

/-- `x² = 2` on a model that cannot be evaluated above 8. -/
def Demo.below8 : UserModel ℚ 1 Empty String (AdapterState ℚ 1) where
  lenProblem _ := 1
  setIteratives s x := { s with inputs := x }
  getIteratives s := s.inputs
  evaluate s := if 8 < s.inputs 0 then (s, .error (.unusable "above 8"))
    else ({ s with left := fun _ => s.inputs 0 * s.inputs 0 - 2 }, .ok ())
  getResiduals s := { left := s.left, right := s.right }
  jacobianProvided _ := true
  getJacobian s := (s, .ok { left := fun _ _ => 2 * s.inputs 0, right := fun _ _ => 0 })
  getMemory _ := []
  setMemory s _ := s
  displayUnusable e := e

open scoped Exact in
/-- The property fails.  From 1/10 the first Newton step leads to 10.05, where the
model cannot be evaluated.  The solve ends there, damping on or off, although the
damped point 5.075 can be evaluated and a solve from there succeeds. -/
theorem C08_refuted :
    Demo.kind (solve (Demo.cfg .NewtonRaphson true 9 (1 / 1000) (1 / 10)) Demo.below8 .new
      Demo.start) = .evalFailed ∧
    Demo.kind (solve (Demo.cfg .NewtonRaphson false 9 (1 / 1000) (1 / 10)) Demo.below8 .new
      Demo.start) = .evalFailed ∧
    Demo.kind (solve (Demo.cfg .NewtonRaphson true 9 (1 / 1000) (5075 / 1000)) Demo.below8 .new
      Demo.start) = .ok := by
  refine ⟨?_, ?_, ?_⟩ <;> decide +kernel

open scoped Exact in
/-- The hypotheses of `C08_unusable_always_aborts` are met by that run. -/
example : ∃ st' s' calls r e,
    solve (Demo.cfg .NewtonRaphson true 9 (1 / 1000) (1 / 10)) (recorded Demo.below8) .new
      (Demo.start, []) = .ok (st', (s', calls), r) ∧
    Call.evaluate (.error (.unusable e)) ∈ calls := by
  have hk : Demo.kind (solve (Demo.cfg .NewtonRaphson true 9 (1 / 1000) (1 / 10))
      (recorded Demo.below8) .new (Demo.start, [])) = .evalFailed := by decide +kernel
  obtain ⟨a, b, r, h⟩ := Demo.kind_not_panic (by rw [hk]; decide)
  refine ⟨a, b.1, b.2, r, "above 8", h, ?_⟩
  have hl : (match solve (Demo.cfg .NewtonRaphson true 9 (1 / 1000) (1 / 10)) (recorded Demo.below8)
      .new (Demo.start, []) with
      | .ok (_, s', _) => s'.2.any fun
        | .evaluate (.error (.unusable e)) => e == "above 8"
        | _ => false
      | .error _ => false) = true := by decide +kernel
  rw [h] at hl
  obtain ⟨x, hx, hx'⟩ := List.any_eq_true.1 hl
  split at hx'
  · rename_i e
    have : e = "above 8" := by simpa using hx'
    rw [← this]; exact hx
  · cases hx'

end Nrf
