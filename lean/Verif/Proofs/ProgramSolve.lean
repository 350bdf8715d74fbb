import Verif.Proofs.ProgramSteps

/-!
# The program follows the model: the loop and `solve`
-/

namespace Nrf.Program

section
variable {F : Type} [Scalar F] {n : Nat} {EI EU S : Type} {P : Setup F n EI EU S}
  {log0 : Option String} {files0 : String → Option (List Char)}

/-- The configuration with another budget. -/
def budget (c : Config F n) (k : Nat) : Config F n := { c with params := { c.params with maxIter := k } }

/-- What the loop keeps. -/
def LoopKeeps (st st' : Solver F n) : Prop :=
  st'.debug = st.debug ∧ st'.log.isSome = st.log.isSome ∧ st.log.getD [] <+: st'.log.getD [] ∧
    (st.debug = false → st'.log = st.log)

theorem LoopKeeps.refl (st : Solver F n) : LoopKeeps st st := ⟨rfl, rfl, List.prefix_rfl, fun _ => rfl⟩

theorem LoopKeeps.trans {a b c : Solver F n} (h : LoopKeeps a b) (h' : LoopKeeps b c) : LoopKeeps a c :=
  ⟨h'.1.trans h.1, h'.2.1.trans h.2.1, h.2.2.1.trans h'.2.2.1,
    fun hd => (h'.2.2.2 (h.1.trans hd)).trans (h.2.2.2 hd)⟩

theorem Keeps.loop {a b : Solver F n} (h : Keeps a b) : LoopKeeps a b := h.2

/-- One pass. -/
theorem pass_follows (st : Solver F n) (s : S) (hl : log0.isSome = st.log.isSome) (k : Nat) :
    Holds (pass P) (worldOf P log0 files0 k st s [])
      (fun a w' => ∃ k' st' s', w' = worldOf P log0 files0 k' st' s' [] ∧ st'.iter = st.iter + 1 ∧ LoopKeeps st st' ∧
        iterate P.c P.m st s = .ok (st', s', a))
      (fun x w' => Wreck P log0 files0 { st with iter := st.iter + 1 } x w' ∧
        ∀ y, x = .code y → iterate P.c P.m st s = .error y) := by
  unfold pass
  refine holds_bind ?_
  refine ((sim_pass (P := P) (log0 := log0) (files0 := files0) st s) hl k).mono ?_ ?_
  · rintro a w' ⟨k', st', s', rfl, hkeep, hv⟩
    exact ⟨k', st', s', rfl, hkeep.1, hkeep.2, hv⟩
  · exact fun x w' h => h

/-- The loop: when it panics, some passes have been completed. -/
theorem loop_follows : ∀ (fuel : Nat) (st : Solver F n) (s : S) (e : F) (k : Nat), log0.isSome = st.log.isSome →
    Holds (whileLoop P fuel e) (worldOf P log0 files0 k st s [])
      (fun a w' => ∃ k' st' s', w' = worldOf P log0 files0 k' st' s' [] ∧ LoopKeeps st st' ∧
        loop P.c P.m fuel st s e = .ok (st', s', a))
      (fun x w' => (∃ j st1 s1 e1, loop (budget P.c (st.iter + j)) P.m j st s e = .ok (st1, s1, .ok e1) ∧
          st1.iter = st.iter + j ∧ LoopKeeps st st1 ∧ Scalar.lt P.c.params.tolerance e1 = true ∧
          Wreck P log0 files0 { st1 with iter := st1.iter + 1 } x w') ∧
        ∀ y, x = .code y → loop P.c P.m fuel st s e = .error y)
  | 0, st, s, e, k, hl => ⟨k, st, s, rfl, .refl st, rfl⟩
  | fuel + 1, st, s, e, k, hl => by
    unfold whileLoop
    refine holds_bind ?_
    change Holds (if (Scalar.lt P.c.params.tolerance e && decide (st.iter < P.c.params.maxIter)) = true then _ else _)
      (worldOf P log0 files0 k st s []) _ _
    by_cases hc : (Scalar.lt P.c.params.tolerance e && decide (st.iter < P.c.params.maxIter)) = true
    · rw [if_pos hc]
      have hc' : continues P.c st e = true := hc
      have htol : Scalar.lt P.c.params.tolerance e = true := (Bool.and_eq_true_iff.1 hc).1
      refine holds_bind ((pass_follows st s hl k).mono ?_ ?_)
      · rintro a w' ⟨k', st', s', rfl, hi, hkeep, hv⟩
        cases a with
        | error err =>
          exact ⟨k', st', s', rfl, hkeep, by simp only [loop, hc', if_true, hv]⟩
        | ok e' =>
          refine (loop_follows fuel st' s' e' k' (by rw [hl, hkeep.2.1])).mono ?_ ?_
          · rintro b w'' ⟨k'', st'', s'', rfl, hkeep', hv'⟩
            exact ⟨k'', st'', s'', rfl, hkeep.trans hkeep', by simp only [loop, hc', if_true, hv, hv']⟩
          · rintro x w'' ⟨⟨j, st1, s1, e1, h1, h2, h3, h4, h5⟩, hy⟩
            refine ⟨⟨j + 1, st1, s1, e1, ?_, by rw [h2, hi]; omega, hkeep.trans h3, h4, h5⟩, fun y hx => ?_⟩
            · have hcj : continues (budget P.c (st.iter + (j + 1))) st e = true := by
                change (Scalar.lt P.c.params.tolerance e && decide (st.iter < st.iter + (j + 1))) = true
                rw [htol]
                simp
              have hvj : iterate (budget P.c (st.iter + (j + 1))) P.m st s = .ok (st', s', .ok e') := hv
              rw [hi, show st.iter + 1 + j = st.iter + (j + 1) by omega] at h1
              simp only [loop, hcj, if_true, hvj, h1]
            · simp only [loop, hc', if_true, hv, hy y hx]
      · rintro x w' ⟨hw, hy⟩
        refine ⟨⟨0, st, s, e, rfl, rfl, .refl st, htol, hw⟩, fun y hx => ?_⟩
        simp only [loop, hc', if_true, hy y hx]
    · rw [if_neg hc]
      have hc' : ¬ continues P.c st e = true := hc
      exact ⟨k, st, s, rfl, .refl st, by simp only [loop, hc', if_false]; rfl⟩

/-- What is done before the loop. -/
theorem sim_firstLog (errors : Vec F n) (st : Solver F n) (s : S) :
    Sim P log0 files0 (ifDebug (do parametersToLog P; iterationToLog P errors)) st s (do
      let st ← st.parametersToLog
      let st ← st.logIf (.iteration st.iter (P.m.getIteratives s) (P.m.getResiduals s) errors)
      return (st, s, ())) := by
  refine (sim_ifDebug (v := do
      let st ← st.parametersToLog
      let st ← st.logIf (.iteration st.iter (P.m.getIteratives s) (P.m.getResiduals s) errors)
      return (st, s, ())) fun hd => ?_).of_eq ?_
  · have hp := sim_parametersToLog (P := P) (log0 := log0) (files0 := files0) st s hd
    have hdebug : ∀ st', st.parametersToLog = .ok st' → st'.debug = true := by
      intro st' h
      unfold Solver.parametersToLog Solver.toLog at h
      rw [if_pos hd] at h
      cases hl : st.log with
      | none => rw [hl] at h; cases h
      | some l =>
        rw [hl] at h
        dsimp only at h
        split at h
        · cases h
        · cases h
          exact hd
    cases hpl : st.parametersToLog with
    | error y =>
      rw [hpl] at hp
      exact sim_fails hp
    | ok st1 =>
      rw [hpl] at hp
      refine sim_after hp ((sim_iterationToLog' errors st1 s (hdebug st1 hpl)).of_eq ?_)
      simp only [bind, Except.bind, Solver.logIf, hdebug st1 hpl, if_true]
      cases st1.toLog (.iteration st1.iter (P.m.getIteratives s) (P.m.getResiduals s) errors) <;> rfl
  · cases hd : st.debug
    · simp [Solver.parametersToLog, Solver.logIf, hd, bind, Except.bind]
      rfl
    · simp

/-- The end of a solve after the loop. -/
def conclude (c : Config F n) (v : Except Panic (Solver F n × S × Except (SolverError EI EU) F)) :
    Except Panic (Solver F n × S × Except (SolverError EI EU) Unit) := do
  let (st, s, r) ← v
  match r with
  | .ok maxError => return (st, s, finalResult c st maxError)
  | .error e => return (st, s, .error e)

/-- Everything after the first evaluation. -/
theorem fromFirstEvaluation_follows (st : Solver F n) (s : S) (hl : log0.isSome = st.log.isSome) (k : Nat) :
    Holds (fromFirstEvaluation P) (worldOf P log0 files0 k st s [])
      (fun a w' => ∃ k' st' s', w' = worldOf P log0 files0 k' st' s' [] ∧ LoopKeeps st st' ∧
        solveFrom P.c P.m st s = .ok (st', s', a))
      (fun x w' => (Wreck P log0 files0 st x w' ∨
          ∃ j st1 s1, solveFrom (budget P.c (st.iter + j)) P.m st s = .ok (st1, s1, .error .nonConvergence) ∧
          st1.iter = st.iter + j ∧ LoopKeeps st st1 ∧ Wreck P log0 files0 { st1 with iter := st1.iter + 1 } x w') ∧
        ∀ y, x = .code y → solveFrom P.c P.m st s = .error y) := by
  unfold fromFirstEvaluation
  refine holds_bind ((sim_evaluateErrors st s hl k).mono ?_ ?_)
  rotate_left
  · rintro x w' ⟨hw, hy⟩
    exact ⟨.inl hw, fun y hx => by cases hy y hx⟩
  rintro errors w' ⟨k1, st0, s0, rfl, -, h0⟩
  cases h0
  refine holds_bind ((sim_firstLog (Nrf.evaluateErrors P.c P.m s) st s hl k1).mono ?_ ?_)
  rotate_left
  · rintro x w' ⟨hw, hy⟩
    refine ⟨.inl hw, fun y hx => ?_⟩
    have h := hy y hx
    unfold solveFrom
    simp only [bind, Except.bind] at h ⊢
    cases hp : st.parametersToLog with
    | error z => rw [hp] at h; cases h; rfl
    | ok st1 =>
      rw [hp] at h
      dsimp only at h ⊢
      cases hi : st1.logIf (.iteration st1.iter (P.m.getIteratives s) (P.m.getResiduals s) (Nrf.evaluateErrors P.c P.m s)) with
      | error z => rw [hi] at h; cases h; rfl
      | ok st2 => rw [hi] at h; cases h
  rintro u w' ⟨k2, st2, s2, rfl, hkeep, hv⟩
  have hsolve : ∀ c : Config F n, c.res = P.c.res → s2 = s ∧ solveFrom c P.m st s = conclude c (loop c P.m (c.params.maxIter - st2.iter) st2 s
      (amax (Nrf.evaluateErrors P.c P.m s))) := by
    intro c hc
    have he : Nrf.evaluateErrors c P.m s = Nrf.evaluateErrors P.c P.m s := by unfold Nrf.evaluateErrors; rw [hc]
    unfold solveFrom conclude
    simp only [bind, Except.bind, he] at hv ⊢
    cases hp : st.parametersToLog with
    | error z => rw [hp] at hv; cases hv
    | ok st1 =>
      rw [hp] at hv
      dsimp only at hv ⊢
      cases hi : st1.logIf (.iteration st1.iter (P.m.getIteratives s) (P.m.getResiduals s) (Nrf.evaluateErrors P.c P.m s)) with
      | error z => rw [hi] at hv; cases hv
      | ok st2' =>
        rw [hi] at hv
        cases hv
        exact ⟨rfl, rfl⟩
  obtain ⟨rfl, hsolve0⟩ := hsolve P.c rfl
  refine holds_bind ?_
  change Holds (whileLoop P (P.c.params.maxIter - st2.iter) (amax (Nrf.evaluateErrors P.c P.m s2)) >>= _)
    (worldOf P log0 files0 k2 st2 s2 []) _ _
  refine holds_bind ((loop_follows _ st2 s2 _ k2 (by rw [hl, hkeep.2.2.1])).mono ?_ ?_)
  · rintro a w' ⟨k3, st3, s3, rfl, hkeep', hv'⟩
    rw [hsolve0, hv']
    cases a with
    | error e => exact ⟨k3, st3, s3, rfl, hkeep.loop.trans hkeep', rfl⟩
    | ok e =>
      dsimp only
      by_cases ht : Scalar.lt P.c.params.tolerance e = true
      · rw [if_pos ht]
        refine ⟨k3, st3, s3, rfl, hkeep.loop.trans hkeep', ?_⟩
        simp only [conclude, bind, Except.bind, finalResult, ht, if_true]
        rfl
      · rw [if_neg ht]
        refine holds_bind ?_
        change Holds (if st3.valid = true then _ else _) (worldOf P log0 files0 k3 st3 s3 []) _ _
        by_cases hvalid : st3.valid = true
        · rw [if_pos hvalid]
          refine ⟨k3, st3, s3, rfl, hkeep.loop.trans hkeep', ?_⟩
          simp only [conclude, bind, Except.bind, finalResult, ht, hvalid, if_true]
          rfl
        · rw [if_neg hvalid]
          refine ⟨k3, st3, s3, rfl, hkeep.loop.trans hkeep', ?_⟩
          simp only [conclude, bind, Except.bind, finalResult, ht, hvalid]
          rfl
  · rintro x w' ⟨⟨j, st1, s1, e1, h1, h2, h3, h4, h5⟩, hy⟩
    refine ⟨.inr ⟨j, st1, s1, ?_, by rw [h2, hkeep.1], hkeep.loop.trans h3, h5⟩, fun y hx => ?_⟩
    · rw [(hsolve (budget P.c (st.iter + j)) rfl).2]
      rw [hkeep.1] at h1
      rw [show (budget P.c (st.iter + j)).params.maxIter - st2.iter = j by
        change st.iter + j - st2.iter = j
        rw [hkeep.1]; omega, h1]
      have h4' : Scalar.lt (budget P.c (st.iter + j)).params.tolerance e1 = true := h4
      simp only [conclude, bind, Except.bind, finalResult, h4', if_true]
      rfl
    · rw [hsolve0, hy y hx]
      rfl

/-- The whole solve. -/
theorem solve_follows (st : Solver F n) (s : S) (hl : log0.isSome = st.log.isSome) (k : Nat) :
    Holds (solve P) (worldOf P log0 files0 k st s [])
      (fun a w' => ∃ k' st' s', w' = worldOf P log0 files0 k' st' s' [] ∧ LoopKeeps st st' ∧
        Nrf.solve P.c P.m st s = .ok (st', s', a))
      (fun x w' => (Wreck P log0 files0 st x w' ∨
          ∃ j st1 s1, Nrf.solve (budget P.c (st.iter + j)) P.m st s = .ok (st1, s1, .error .nonConvergence) ∧
          st1.iter = st.iter + j ∧ LoopKeeps st st1 ∧ Wreck P log0 files0 { st1 with iter := st1.iter + 1 } x w') ∧
        ∀ y, x = .code y → Nrf.solve P.c P.m st s = .error y) := by
  unfold solve
  refine holds_bind ((sim_call _ _ st s hl k).mono ?_ ?_)
  rotate_left
  · rintro x w' ⟨hw, hy⟩
    exact ⟨.inl hw, fun y hx => by cases hy y hx⟩
  rintro u w' ⟨k1, st1, s1, rfl, -, h1⟩
  cases h1
  refine holds_bind ((sim_call _ _ st _ hl k1).mono ?_ ?_)
  rotate_left
  · rintro x w' ⟨hw, hy⟩
    exact ⟨.inl hw, fun y hx => by cases hy y hx⟩
  rintro r w' ⟨k2, st2, s2, rfl, -, h2⟩
  obtain ⟨rfl, hs2, hr⟩ : st = st2 ∧ (P.m.evaluate (P.m.setIteratives s P.c.guess)).1 = s2 ∧
      (P.m.evaluate (P.m.setIteratives s P.c.guess)).2 = r := by
    cases h2
    exact ⟨rfl, rfl, rfl⟩
  have hev : P.m.evaluate (P.m.setIteratives s P.c.guess) = (s2, r) := by rw [← hs2, ← hr]
  have hevb : ∀ j, P.m.evaluate (P.m.setIteratives s (budget P.c (st.iter + j)).guess) = (s2, r) := fun _ => hev
  have rest := fromFirstEvaluation_follows (P := P) (log0 := log0) (files0 := files0) st s2 hl k2
  rcases r with (e | e) | u
  · refine rest.mono ?_ ?_
    · rintro a w' ⟨k', st', s', h⟩
      exact ⟨k', st', s', h.1, h.2.1, by unfold Nrf.solve; rw [hev]; exact h.2.2⟩
    · rintro x w' ⟨h, hy⟩
      refine ⟨h.imp id ?_, fun y hx => by unfold Nrf.solve; rw [hev]; exact hy y hx⟩
      rintro ⟨j, st1, s1, h1, h2⟩
      exact ⟨j, st1, s1, by unfold Nrf.solve; rw [hevb]; exact h1, h2⟩
  · exact ⟨k2, st, s2, rfl, .refl st, by unfold Nrf.solve; rw [hev]⟩
  · refine rest.mono ?_ ?_
    · rintro a w' ⟨k', st', s', h⟩
      exact ⟨k', st', s', h.1, h.2.1, by unfold Nrf.solve; rw [hev]; exact h.2.2⟩
    · rintro x w' ⟨h, hy⟩
      refine ⟨h.imp id ?_, fun y hx => by unfold Nrf.solve; rw [hev]; exact hy y hx⟩
      rintro ⟨j, st1, s1, h1, h2⟩
      exact ⟨j, st1, s1, by unfold Nrf.solve; rw [hevb]; exact h1, h2⟩

end
end Nrf.Program
