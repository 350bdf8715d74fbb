import Verif.Proofs.Sim
import Verif.Proofs.Recorded
import Verif.Spec.Demo

/-!
# C43: debugging does not change the resolution

True in dimension at least one.  In dimension zero the log of the iteratives
indexes an empty slice and the solve panics.
-/

namespace Nrf

/-- With the log active the solve ends in the same way: same panic, or same model state
and same result. -/
theorem C43_same_resolution_partial {F : Type} [Scalar F] {n : Nat} {EI EU S : Type}
    (c : Config F n) (m : UserModel F n EI EU S) (hn : n ≠ 0) (st : Solver F n)
    (hd : st.debug = false) (s : S) :
    (solve c m st.activateDebug s).map (fun x => x.2) = (solve c m st s).map (fun x => x.2) := by
  have hm : MSim c Eq m m := by
    refine ⟨fun _ _ => rfl, fun _ _ => rfl, fun _ => rfl, fun _ => rfl, fun _ => rfl, ?_,
      fun _ _ => rfl⟩
    intro s
    rcases he : m.evaluate s with ⟨s1, rv⟩
    match rv with
    | .error (.unusable e) => exact .inl ⟨s1, e, rfl, rfl⟩
    | .error (.inaccurate e) =>
      exact .inr ⟨s1, _, _, _, _, rfl, rfl, .inaccurate e, .inaccurate e, rfl⟩
    | .ok () => exact .inr ⟨s1, _, _, _, _, rfl, rfl, .ok, .ok, rfl⟩
  have hs : Sim Eq st.activateDebug st :=
    { iter := rfl, jac := rfl, itStep := rfl, resStep := rfl, resCur := rfl
      safe1 := fun _ => rfl
      safe2 := fun h => by rw [hd] at h; cases h
      debug := fun _ => hn
      valid := rfl }
  have := solve_sim rfl hm hs s
  revert this
  rcases solve c m st.activateDebug s with p | ⟨a, b, r⟩ <;>
    rcases solve c m st s with q | ⟨a', b', r'⟩ <;> intro h
  · cases (h : p = q); rfl
  · exact h.elim
  · exact h.elim
  · obtain ⟨h1, rfl, h2⟩ := h
    rcases h2 with rfl | ⟨g1, -, g2, -⟩ | ⟨g1, -, g2, -⟩
    · rfl
    · have := h1.valid
      rw [g1, g2] at this
      cases this
    · have := h1.valid
      rw [g1, g2] at this
      cases this

/-- The same for the calls made on the model. -/
theorem C43_same_calls_partial {F : Type} [Scalar F] {n : Nat} {EI EU S : Type}
    (c : Config F n) (m : UserModel F n EI EU S) (hn : n ≠ 0) (st : Solver F n)
    (hd : st.debug = false) (s : S) :
    (solve c (recorded m) st.activateDebug (s, [])).map (fun x => x.2) =
      (solve c (recorded m) st (s, [])).map (fun x => x.2) :=
  C43_same_resolution_partial c (recorded m) hn st hd (s, [])

/-- In dimension zero every solve with debugging panics unless the first evaluation is
unusable; without debugging it succeeds when the tolerance is not below zero. -/
theorem C43_refuted_dimension_zero {F : Type} [Scalar F] {EI EU S : Type}
    (c : Config F 0) (m : UserModel F 0 EI EU S) (s : S)
    (ht : Scalar.lt c.params.tolerance (Scalar.abs Scalar.zero) = false)
    (hu : ∀ e, (m.evaluate (m.setIteratives s c.guess)).2 ≠ .error (.unusable e)) :
    solve c m Solver.new.activateDebug s = .error .displayEmptyIteratives ∧
    ∃ s', solve c m Solver.new s = .ok (Solver.new, s', .ok ()) := by
  rcases he : m.evaluate (m.setIteratives s c.guess) with ⟨s1, rv⟩
  have main : ∀ v, Usable rv v → solve c m Solver.new.activateDebug s = .error .displayEmptyIteratives ∧
      ∃ s', solve c m Solver.new s = .ok (Solver.new, s', .ok ()) := by
    intro v hu
    rw [solve_usable he hu, solve_usable he hu, solveFrom_noDebug (st := Solver.new) rfl]
    refine ⟨by simp [solveFrom, Solver.activateDebug, Solver.parametersToLog, bind, Except.bind],
      s1, ?_⟩
    have hc : continues c Solver.new (amax (evaluateErrors c m s1)) = false := by
      have : amax (evaluateErrors c m s1) = Scalar.abs Scalar.zero := rfl
      rw [continues, this, ht]
      rfl
    rw [loop_eq, hc]
    have hf : finalResult (EI := EI) (EU := EU) c Solver.new (amax (evaluateErrors c m s1)) =
        .ok () := by
      have : amax (evaluateErrors c m s1) = Scalar.abs Scalar.zero := rfl
      rw [finalResult, this, ht]
      rfl
    simp [hf]
  match rv, he, main with
  | .error (.unusable e), he, _ => exact absurd (by rw [he]) (hu e)
  | .ok (), _, main => exact main true .ok
  | .error (.inaccurate e), _, main => exact main false (.inaccurate e)

open scoped Exact in
/-- A solve with debugging that iterates. -/
example : Demo.kind (solve (Demo.cfg .NewtonRaphson true 9 (1 / 1000) 2) Demo.sqrt2
    Solver.new.activateDebug Demo.start) = .ok := by
  decide +kernel

open scoped Exact in
/-- The dimension-zero hypotheses are met. -/
example : ∃ c : Config ℚ 0, Scalar.lt c.params.tolerance (Scalar.abs (Scalar.zero : ℚ)) = false ∧
    ∀ s e, ((fromFunction (fun x => x) : UserModel ℚ 0 Empty Empty _).evaluate s).2 ≠
      .error (.unusable e) :=
  ⟨{ params := { problemSize := 0, tolerance := 1, maxIter := 1, method := .NewtonRaphson
                 damping := false }
     guess := fun i => i.elim0, iters := fun i => i.elim0
     res := ⟨fun i => i.elim0, fun i => i.elim0⟩, la := exactLinAlg ℚ 0 },
    by decide +kernel, fun _ e => (nomatch e)⟩

end Nrf
