import Verif.Proofs.Repeated
import Verif.Proofs.NoPanic
import Verif.Model.Benchmarks
import Verif.Spec.Demo

/-!
# C115: every call of a benchmark solves the problem (refuted)

Full statement: the benchmarks time resolutions, that is, each of the calls of `solve` that `criterion` makes on the solver
built before them iterates to a solution.  `solve` does not set the iteration counter back, so all calls together have the
budget of one, and the benchmarks fail or time calls that do nothing.
-/

namespace Nrf
open Benchmarks TestCases

/-- The solver left by a solve. -/
def Demo.used {S EI EU F : Type} {n : Nat} :
    Except Panic (Solver F n × S × Except (SolverError EI EU) Unit) → Solver F n
  | .ok (st, _, _) => st
  | .error _ => .new

/-- All solves ever made on one solver, on whatever models and with whatever outcome, together make at most `max_iter`
iterations; their evaluations and Jacobians are bounded accordingly, whatever the number of solves. -/
theorem C115_budget {F : Type} [Scalar F] {n : Nat} (c : Config F n) (N : Nat) (st st' : Solver F n)
    (k evals jacs : Nat) (h : Spec.Solves c N st k evals jacs st') :
    st.iter ≤ st'.iter ∧ st'.iter - st.iter ≤ c.params.maxIter - st.iter ∧
    evals ≤ k + (st'.iter - st.iter) * (N + 1 + if c.params.damping then 1 else 0) ∧
    jacs ≤ st'.iter - st.iter := by
  induction h with
  | none st => simp
  | more m s s' calls r hN h t ih =>
    rename_i st st1 st2 k evals jacs
    obtain ⟨a1, a2, a3, a4⟩ := solve_work hN h
    obtain ⟨b1, b2, b3, b4⟩ := ih
    have e : st2.iter - st.iter = (st1.iter - st.iter) + (st2.iter - st1.iter) := by omega
    refine ⟨by omega, by omega, ?_, by omega⟩
    rw [e, Nat.add_mul]
    omega

/-- After the budget is used up, a solve sets the guess, evaluates it, and returns: the solver is as before, and the result
is non-convergence unless the guess itself passes the test. -/
theorem C115_exhausted {F : Type} [Scalar F] {n : Nat} {EI EU S : Type} (c : Config F n) (m : UserModel F n EI EU S)
    (st : Solver F n) (s : S) (t : List (Call F n EI EU)) (hb : c.params.maxIter ≤ st.iter) (hd : st.debug = false) :
    let p := m.evaluate (m.setIteratives s c.guess)
    solve c (recorded m) st (s, t) = .ok (st, (p.1, t ++ [.setIteratives c.guess, .evaluate p.2]),
      match p.2 with
      | .error (.unusable e) => .error (.modelInitialEvaluation (m.displayUnusable e))
      | _ =>
        if Scalar.lt c.params.tolerance (amax (evaluateErrors c m p.1)) then .error .nonConvergence
        else if st.valid then .ok () else .error .finalEvaluation) := by
  intro p
  have he : (recorded m).evaluate ((recorded m).setIteratives (s, t) c.guess) =
      ((p.1, t ++ [.setIteratives c.guess, .evaluate p.2]), p.2) := by
    simp [recorded, p]
  have h0 : c.params.maxIter - st.iter = 0 := by omega
  have hr : ∀ s0 : S × List (Call F n EI EU), evaluateErrors c (recorded m) s0 = evaluateErrors c m s0.1 := fun _ => rfl
  have go : ∀ {v}, Usable p.2 v → solve c (recorded m) st (s, t) =
      .ok (st, (p.1, t ++ [.setIteratives c.guess, .evaluate p.2]),
        if Scalar.lt c.params.tolerance (amax (evaluateErrors c m p.1)) then .error .nonConvergence
        else if st.valid then .ok () else .error .finalEvaluation) := by
    intro v hv
    rw [solve_finish hd he hv, h0, hr]
    rfl
  rcases hp : p.2 with (e | e) | u
  · rw [hp] at go; exact go (.inaccurate e)
  · rw [hp] at he; rw [solve_unusable he]; rfl
  · rw [hp] at go; exact go .ok

/-- Called again and again from a guess that is not a solution, every solve after the first `max_iter` ones does nothing
but evaluate the guess and report non-convergence. -/
theorem C115_idle {F : Type} [Scalar F] {n : Nat} {EI EU S : Type} (c : Config F n) (m : UserModel F n EI EU S)
    (inv : S → Prop) (hk : Spec.Keeps m inv) (hg : Spec.GuessUnsolved c m inv) (k : Nat) (hle : c.params.maxIter ≤ k)
    (s s' : S) (hs : inv s) (st' : Solver F n) (l : List (Except (SolverError EI EU) Unit))
    (h : Spec.again c m k .new s = .ok (st', s', l)) :
    let p := m.evaluate (m.setIteratives s' c.guess)
    solve c (recorded m) st' (s', []) =
      .ok (st', (p.1, [.setIteratives c.guess, .evaluate p.2]), .error .nonConvergence) := by
  intro p
  obtain ⟨h1, h2, h3⟩ := again_drained hk hg k hs h
  obtain ⟨g1, g2⟩ := hg s' h2
  have := C115_exhausted c m st' s' [] (by have : (Solver.new : Solver F n).iter = 0 := rfl; omega) h3
  rw [this]
  change ∀ e, p.2 ≠ _ at g1
  change Scalar.lt _ (amax (evaluateErrors c m p.1)) = true at g2
  rcases hp : p.2 with (e | e) | u
  · rw [show Scalar.lt c.params.tolerance (amax (evaluateErrors c m (m.evaluate (m.setIteratives s' c.guess)).1)) = true
      from g2]; rfl
  · exact absurd hp (g1 e)
  · rw [show Scalar.lt c.params.tolerance (amax (evaluateErrors c m (m.evaluate (m.setIteratives s' c.guess)).1)) = true
      from g2]; rfl

/-- The guess of `broyden_case8.rs` is not a solution in binary64. -/
theorem Benchmarks.case8_unsolved (method : ResolutionMethod) :
    Spec.GuessUnsolved (case8Config (F := F64) method) (fromFunction broydenCase8) (fun s => s.right = fun _ => Scalar.zero) := by
  intro s hs
  refine ⟨fun e => nofun, ?_⟩
  have e : evaluateErrors (case8Config (F := F64) method) (fromFunction broydenCase8)
      ((fromFunction broydenCase8).evaluate ((fromFunction broydenCase8).setIteratives s (case8Config method).guess)).1 =
      fun i => Scalar.abs (normalization (broydenCase8 (F := F64) (broydenInit 20) i) Scalar.zero .Abs) := by
    funext i
    change Scalar.abs (normalization _ (s.right i) _) = _
    rw [hs]
    rfl
  rw [e]
  change Scalar.lt (Scalar.dec 1 6 : F64) _ = true
  decide +kernel

/-- The benchmarks of `broyden_case8.rs`, in binary64, all ten methods: however many calls were made, from the 61st on a
call evaluates the function once, at the guess, and returns `Err(NonConvergence)`, which the benchmark discards.  (The
reference times in the file are nearly equal for all methods, as they would be for such calls.) -/
theorem C115_case8_refuted (method : ResolutionMethod) (k : Nat) (hk : 60 ≤ k) (st' : Solver F64 20)
    (s' : AdapterState F64 20) (l : List (Except (SolverError Empty Empty) Unit))
    (h : Spec.again (case8Config method) (fromFunction broydenCase8) k .new .new = .ok (st', s', l)) :
    ∃ s1, solve (case8Config method) (recorded (fromFunction broydenCase8)) st' (s', []) =
      .ok (st', (s1, [.setIteratives (broydenInit 20), .evaluate (.ok ())]), .error .nonConvergence) :=
  ⟨_, C115_idle _ _ _ ⟨fun _ _ h => h, fun _ h => h, fun _ h => h, fun _ _ h => h⟩ (case8_unsolved method) k hk _ _ rfl _ _ h⟩

/-- The guess of `dynamic_types.rs` is not a solution in binary64. -/
theorem Benchmarks.dynamic_unsolved (it : Iterative F64) (method : ResolutionMethod) {m : UserModel F64 1 Empty Empty (AdapterState F64 1)}
    (hm : m = fromFunction square2 ∨ m = fromFunctionAndJacobian square2 dsquare) :
    Spec.GuessUnsolved (dynamicConfig it method) m (fun s => s.right = fun _ => Scalar.zero) := by
  intro s hs
  have e : evaluateErrors (dynamicConfig it method) m (m.evaluate (m.setIteratives s (dynamicConfig it method).guess)).1 =
      fun _ => Scalar.abs (normalization (square2 (F := F64) (fun _ => Scalar.one) 0) Scalar.zero .Abs) := by
    funext i
    rcases hm with rfl | rfl <;>
    · change Scalar.abs (normalization _ (s.right i) _) = _
      rw [hs]
      rfl
  refine ⟨fun e => by rcases hm with rfl | rfl <;> exact nofun, ?_⟩
  rw [e]
  change Scalar.lt (Scalar.dec 1 6 : F64) _ = true
  decide +kernel

/-- The three benchmarks of `dynamic_types.rs` in binary64 (any method, with finite differences or with the derivative): from
the 51st call on a call evaluates the function once, at the guess, and returns `Err(NonConvergence)`, which is discarded. -/
theorem C115_dynamic_refuted (it : Iterative F64) (method : ResolutionMethod) (m : UserModel F64 1 Empty Empty (AdapterState F64 1))
    (hm : m = fromFunction square2 ∨ m = fromFunctionAndJacobian square2 dsquare) (k : Nat) (hk : 50 ≤ k)
    (st' : Solver F64 1) (s' : AdapterState F64 1) (l : List (Except (SolverError Empty Empty) Unit))
    (h : Spec.again (dynamicConfig it method) m k .new .new = .ok (st', s', l)) :
    ∃ s1, solve (dynamicConfig it method) (recorded m) st' (s', []) =
      .ok (st', (s1, [.setIteratives (fun _ => Scalar.one), .evaluate (.ok ())]), .error .nonConvergence) := by
  have hkeep : Spec.Keeps m (fun s => s.right = fun _ => Scalar.zero) := by
    rcases hm with rfl | rfl <;> exact ⟨fun _ _ h => h, fun _ h => h, fun _ h => h, fun _ _ h => h⟩
  have hev : (m.evaluate (m.setIteratives s' (dynamicConfig it method).guess)).2 = .ok () := by
    rcases hm with rfl | rfl <;> rfl
  have := C115_idle _ _ _ hkeep (Benchmarks.dynamic_unsolved it method hm) k hk _ _ rfl _ _ h
  dsimp only at this
  rw [hev] at this
  exact ⟨_, this⟩

/-- What `solve_problem` of `static_types.rs` puts into the model before the call does not matter, contrary to the comment
there: whatever the state of the model, the solve is the same, because `solve` starts with the guess. -/
theorem C115_reset {F : Type} [Scalar F] (c : Config F 1) (st : Solver F 1) (s s' : UserModelState F) :
    solve c userModel st s = solve c userModel st s' := rfl

set_option maxRecDepth 1000000 in
/-- The benchmark `static_types.rs` in binary64: twelve calls return `Ok`, and the `unwrap` of the thirteenth panics. -/
theorem C115_static_refuted :
    solveProblems 12 (Solver.new : Solver F64 1) = true ∧ ∀ k, 13 ≤ k → solveProblems k (Solver.new : Solver F64 1) = false := by
  have mono : ∀ (k : Nat) (st : Solver F64 1), solveProblems k st = false → solveProblems (k + 1) st = false := by
    intro k
    induction k with
    | zero => intro st h; cases h
    | succ k ih =>
      intro st h
      rw [solveProblems] at h ⊢
      split at h
      · exact ih _ h
      · rfl
  refine ⟨by decide +kernel, fun k hk => ?_⟩
  obtain ⟨j, rfl⟩ := Nat.exists_eq_add_of_le hk
  induction j with
  | zero => decide +kernel
  | succ j ih => exact mono _ _ (ih (by omega))

open scoped Exact in
/-- Two solves on one solver, of different models: hypotheses of `C115_budget`. -/
example : ∃ evals jacs st', Spec.Solves (Demo.cfg .NewtonRaphson false 5 (1 / 1000) 2) 1 .new 2 evals jacs st' := by
  obtain ⟨a, b, r, h⟩ := Demo.kind_not_panic (x := solve (Demo.cfg .NewtonRaphson false 5 (1 / 1000) 2)
    (recorded Demo.sqrt2) .new (Demo.start, [])) (by decide +kernel)
  obtain ⟨a2, b2, r2, h2⟩ := Demo.kind_not_panic (x := solve (Demo.cfg .NewtonRaphson false 5 (1 / 1000) 2)
    (recorded Demo.sqrt2Fd) (Demo.used (solve (Demo.cfg .NewtonRaphson false 5 (1 / 1000) 2)
      (recorded Demo.sqrt2) .new (Demo.start, []))) (Demo.start, [])) (by decide +kernel)
  have e : Demo.used (solve (Demo.cfg .NewtonRaphson false 5 (1 / 1000) 2) (recorded Demo.sqrt2) .new
    (Demo.start, [])) = a := by rw [h]; rfl
  rw [e] at h2
  exact ⟨_, _, _, .more _ _ b.1 b.2 r (fun _ h => by cases h) h (.more _ _ b2.1 b2.2 r2 (fun _ _ => le_refl _) h2 (.none _))⟩

open scoped Exact in
/-- A used-up solver: hypotheses of `C115_exhausted`. -/
example : ∃ st : Solver ℚ 1, (Demo.cfg .NewtonRaphson false 5 (1 / 1000) 2).params.maxIter ≤ st.iter ∧ st.debug = false :=
  ⟨{ (Solver.new : Solver ℚ 1) with iter := 5 }, le_refl _, rfl⟩

/-- The benchmark with Newton-Raphson, any number of calls: hypotheses of `C115_case8_refuted`. -/
example (k : Nat) : ∃ st' s' l, Spec.again (case8Config (F := F64) .NewtonRaphson) (fromFunction broydenCase8) k .new .new =
    .ok (st', s', l) := by
  have hw : Spec.WellBehaved (case8Config (F := F64) .NewtonRaphson) (fromFunction broydenCase8) :=
    ⟨nofun, fun _ _ => ⟨le_refl _, fun _ => rfl⟩, fun _ _ => nofun⟩
  have : ∀ (k : Nat) (st : Solver F64 20) (s : AdapterState F64 20), Ready .NewtonRaphson st → st.debug = false →
      ∃ st' s' l, Spec.again (case8Config (F := F64) .NewtonRaphson) (fromFunction broydenCase8) k st s =
        .ok (st', s', l) := by
    intro k
    induction k with
    | zero => exact fun st s _ _ => ⟨_, _, _, rfl⟩
    | succ k ih =>
      intro st s hr hd
      obtain ⟨st1, s1, r, h1, h2, h3⟩ := solve_progress hw s (st := st) hr (by rw [hd]; nofun)
      obtain ⟨st2, s2, l, h4⟩ := ih st1 s1 (h3 (.inr (.inl rfl))) (h2.trans hd)
      exact ⟨st2, s2, r :: l, by rw [Spec.again, h1]; simp only [h4]; rfl⟩
  exact this k _ _ (Ready.new _) rfl

/-- The benchmark with the derivative, any number of calls: hypotheses of `C115_dynamic_refuted`. -/
example (k : Nat) : ∃ st' s' l, Spec.again (dynamicConfig (F := F64) IterativeParams.default.toIterative .NewtonRaphson)
    (fromFunctionAndJacobian square2 dsquare) k .new .new = .ok (st', s', l) := by
  have hw : Spec.WellBehaved (dynamicConfig (F := F64) IterativeParams.default.toIterative .NewtonRaphson)
      (fromFunctionAndJacobian square2 dsquare) := ⟨fun _ _ _ => nofun, nofun, nofun⟩
  have : ∀ (k : Nat) (st : Solver F64 1) (s : AdapterState F64 1), Ready .NewtonRaphson st → st.debug = false →
      ∃ st' s' l, Spec.again (dynamicConfig (F := F64) IterativeParams.default.toIterative .NewtonRaphson)
        (fromFunctionAndJacobian square2 dsquare) k st s = .ok (st', s', l) := by
    intro k
    induction k with
    | zero => exact fun st s _ _ => ⟨_, _, _, rfl⟩
    | succ k ih =>
      intro st s hr hd
      obtain ⟨st1, s1, r, h1, h2, h3⟩ := solve_progress hw s (st := st) hr (by rw [hd]; nofun)
      obtain ⟨st2, s2, l, h4⟩ := ih st1 s1 (h3 (.inr (.inl rfl))) (h2.trans hd)
      exact ⟨st2, s2, r :: l, by rw [Spec.again, h1]; simp only [h4]; rfl⟩
  exact this k _ _ (Ready.new _) rfl

open scoped Exact in
/-- Four solves of `x² = 2` with a budget of three iterations: hypotheses of `C115_idle`. -/
example : ∃ st' s' l, Spec.again (Demo.cfg .NewtonRaphson false 3 (1 / 1000) 2) Demo.sqrt2 4 .new Demo.start =
      .ok (st', s', l) ∧
    Spec.GuessUnsolved (Demo.cfg .NewtonRaphson false 3 (1 / 1000) 2) Demo.sqrt2 (fun s => s.right = fun _ => 0) := by
  have h : (Spec.again (Demo.cfg .NewtonRaphson false 3 (1 / 1000) 2) Demo.sqrt2 4 .new Demo.start).isOk = true := by
    decide +kernel
  rcases h' : Spec.again (Demo.cfg .NewtonRaphson false 3 (1 / 1000) 2) Demo.sqrt2 4 .new Demo.start with p | ⟨a, b, l⟩
  · rw [h'] at h; cases h
  refine ⟨_, _, _, rfl, fun s hs => ⟨fun e => nofun, ?_⟩⟩
  have e : evaluateErrors (Demo.cfg .NewtonRaphson false 3 (1 / 1000) 2) Demo.sqrt2
      (Demo.sqrt2.evaluate (Demo.sqrt2.setIteratives s (fun _ => 2))).1 = fun _ => 2 := by
    funext i
    change Scalar.abs (normalization ((2 : ℚ) * 2 - 2) (s.right i) .Abs) = _
    rw [hs]
    change Scalar.abs (normalization ((2 : ℚ) * 2 - 2) 0 .Abs) = 2
    decide +kernel
  change Scalar.lt _ (amax (evaluateErrors _ _ (Demo.sqrt2.evaluate (Demo.sqrt2.setIteratives s (fun _ => 2))).1)) = true
  rw [e]
  decide +kernel

end Nrf
