import Verif.Proofs.Calls
import Verif.Spec.Contract
import Verif.Spec.Demo

/-!
# C06: latent variables are up to date on return
-/

namespace Nrf

/-- When `solve` returns `Ok`, non-convergence or a final evaluation error, its last
calls set the iteratives to `x` and evaluate the model, and the returned state is
the result of these two calls, for the `x` reported by `get_iteratives`. -/
theorem C06_latent_variables_up_to_date {F : Type} [Scalar F] {n : Nat} {EI EU S : Type}
    (c : Config F n) (m : UserModel F n EI EU S) (st st' : Solver F n) (s s' : S)
    (calls : List (Call F n EI EU)) (r : Except (SolverError EI EU) Unit)
    (h : solve c (recorded m) st (s, []) = .ok (st', (s', calls), r))
    (hr : r = .ok () ∨ r = .error .nonConvergence ∨ r = .error .finalEvaluation) :
    ∃ s0 x before, calls =
        before ++ [.setIteratives x, .evaluate (m.evaluate (m.setIteratives s0 x)).2] ∧
      s' = (m.evaluate (m.setIteratives s0 x)).1 ∧
      (Spec.GetSet m → m.getIteratives s' = x) := by
  let P : Solver F n → S × List (Call F n EI EU) → F → Prop := fun _ s1 _ =>
    ∃ s0 x before, s1.2 =
        before ++ [.setIteratives x, .evaluate (m.evaluate (m.setIteratives s0 x)).2] ∧
      s1.1 = (m.evaluate (m.setIteratives s0 x)).1
  suffices hP : P st' (s', calls) c.params.tolerance by
    obtain ⟨s0, x, before, h1, h2⟩ := hP
    dsimp only at h1 h2
    exact ⟨s0, x, before, h1, h2, fun hg => by rw [h2, hg.get_evaluate, hg.get_set]⟩
  have upd : ∀ {s1 s2 x v uc e}, UpdateCalls c m x s1 s2 v uc (.ok e) → ∀ t : List (Call F n EI EU),
      P st' (s2, t ++ uc) c.params.tolerance := by
    intro s1 s2 x v uc e hu t
    cases hu with
    | plain r he hv e => exact ⟨s1, x, t, by simp [he], by simp [he]⟩
    | damped s3 r he hv hd he2 e =>
      exact ⟨s3, _, t ++ [.setIteratives x, .evaluate r], by rw [he2]; simp, by rw [he2]⟩
  have h0 : ∀ {s0 : S × List (Call F n EI EU)} {r0},
      (recorded m).evaluate ((recorded m).setIteratives (s, []) c.guess) = (s0, r0) →
      P st' s0 c.params.tolerance := by
    intro s0 r0 he
    obtain ⟨rfl, h2⟩ := solve_start he
    exact ⟨s, c.guess, [], by simp [h2], rfl⟩
  cases solve_outcome h with
  | initFailed he => simp at hr
  | failed he hu hl =>
    exfalso
    cases hl with
    | failed hrun hc hi =>
      cases iterate_outcome hi with
      | evalFailed st1 s1 x st2 s2 e h1 h2 => cases h2; simp at hr
      | jacFailed st1 s1 e h1 => simp at hr
  | finished he hu hl =>
    cases hl with
    | exit hrun hc =>
      refine hrun.invariant (P := P) ?_ (h0 he)
      rintro st1 ⟨s1, t1⟩ e st2 ⟨s2, t2⟩ e2 _ _ hi
      obtain ⟨seg, rfl, hic⟩ := iterate_calls hi
      generalize hv : (Except.ok e2 : Except (SolverError EI EU) F) = r2 at hic
      cases hic with
      | step jc uc s3 x s' v e h1 h2 =>
        rw [← List.append_assoc]
        exact upd h2 _
      | evalFailed => cases hv
      | jacFailed => cases hv

/-- The adapters obey the contract. -/
theorem fromFunction_getSet {F : Type} [Scalar F] {n : Nat} (f : Vec F n → Vec F n) :
    Spec.GetSet (fromFunction f) :=
  ⟨fun _ _ => rfl, fun _ => rfl⟩

open scoped Exact in
/-- A damped solve with finite differences that runs out of iterations. -/
example : ∃ st' s' calls,
    solve (Demo.cfg (.QuasiNewton (.InverseJacobianUpdate .GreenstadtFirst)) true 2 (1 / 1000) (1 / 10))
      (recorded Demo.sqrt2Fd) .new (Demo.start, []) =
      .ok (st', (s', calls), .error .nonConvergence) := by
  obtain ⟨a, b, h⟩ := Demo.kind_nonConvergence (x :=
    solve (Demo.cfg (.QuasiNewton (.InverseJacobianUpdate .GreenstadtFirst)) true 2 (1 / 1000) (1 / 10))
      (recorded Demo.sqrt2Fd) .new (Demo.start, [])) (by decide +kernel)
  exact ⟨a, b.1, b.2, h⟩

end Nrf
