import Verif.Proofs.Budget
import Verif.Spec.Demo

/-!
# C17: the first iteration is a Newton-Raphson step for every method

The first iteration is observed by solving with a budget of one iteration; by C58 a
solve with a larger budget starts with exactly the same calls.
-/

namespace Nrf

/-- The configuration `c` with another method and a budget of one iteration. -/
def Spec.firstIteration {F : Type} {n : Nat} (c : Config F n) (meth : ResolutionMethod) :
    Config F n :=
  { c with params := { c.params with method := meth, maxIter := 1 } }

/-- With a new solver and damping off, all methods make the same first iteration: same
result, same model state.  As the model is arbitrary it may be a recorded one, so
the calls are the same too. -/
theorem C17_first_iteration {F : Type} [Scalar F] {n : Nat} {EI EU S : Type}
    (c : Config F n) (m : UserModel F n EI EU S) (s : S) (hd : c.params.damping = false)
    (meth : ResolutionMethod) :
    (solve (Spec.firstIteration c meth) m .new s).map (fun x => x.2) =
      (solve (Spec.firstIteration c .NewtonRaphson) m .new s).map (fun x => x.2) := by
  set c1 := Spec.firstIteration c meth with hc1
  set c2 := Spec.firstIteration c .NewtonRaphson with hc2
  -- the step computation is the same
  have hstep : ∀ st : Solver F n, st.jac.computeNext = true → ∀ s,
      computeStep c1 m st s = computeStep c2 m st s := by
    intro st hst s
    have e2 : computeStep c2 m st s = newtonRaphsonStep c2 m st s := rfl
    have e3 : newtonRaphsonStep c2 m st s = newtonRaphsonStep c1 m st s := rfl
    rw [e2, e3]
    unfold computeStep
    have hm : c1.params.method = meth := rfl
    rw [hm]
    match meth with
    | .NewtonRaphson => rfl
    | .QuasiNewton q =>
      simp only [quasiNewtonStep, quasiNewtonJacobian, newtonRaphsonStep, bind, Except.bind, pure,
        Except.pure, hst, if_true]
      rcases computeJac c1 m st.jac s with p | ⟨j, s1, r⟩
      · rfl
      · dsimp only
        rcases ({ st with jac := j } : Solver F n).logIf (.jacobian j) with p | st1
        · rfl
        · match r with
          | .ok () => rfl
          | .error e => rfl
  -- one pass of the loop
  have hiter : ∀ s, (iterate c1 m .new s).map (fun x => (x.1.valid, x.2)) =
      (iterate c2 m .new s).map (fun x => (x.1.valid, x.2)) := by
    intro s
    simp only [iterate, bind, Except.bind, pure, Except.pure]
    rw [hstep _ rfl]
    rcases hcs : computeStep c2 m { (Solver.new : Solver F n) with iter := (Solver.new : Solver F n).iter + 1 } s
      with p | ⟨st1, s1, r⟩
    · rfl
    · match r with
      | .error e => rfl
      | .ok x =>
        dsimp only
        have hdb : st1.debug = false := by
          have := computeStep_outcome hcs
          cases this <;> rfl
        have fin : ∀ (cc : Config F n) (er cu : Vec F n) (v : Bool) (s2 : S),
            cc.params.damping = false →
            finishUpdate cc m er cu x { st1 with valid := v } s2 = .ok
              (storeSteps cc.params.method { st1 with valid := v } (m.getIteratives s2) cu
                (evaluateErrors cc m s2) er, s2, evaluateErrors cc m s2) := by
          intro cc er cu v s2 hcc
          simp only [finishUpdate, Solver.logIf, hdb, hcc, bind, Except.bind, pure, Except.pure,
            Bool.false_eq_true, if_false]
        have h1 : c1.params.damping = false := hd
        have h2 : c2.params.damping = false := hd
        rcases he : m.evaluate (m.setIteratives s1 x) with ⟨s2, rv⟩
        match rv, he with
        | .error (.unusable e), he =>
          rw [updateModel_unusable he, updateModel_unusable he]
        | .ok (), he =>
          rw [updateModel_usable he .ok, updateModel_usable he .ok, fin c1 _ _ _ _ h1,
            fin c2 _ _ _ _ h2]
          simp only [Except.map, (storeSteps_fields ..).2.2.2.1]
          rfl
        | .error (.inaccurate e), he =>
          rw [updateModel_usable he (.inaccurate e), updateModel_usable he (.inaccurate e),
            fin c1 _ _ _ _ h1, fin c2 _ _ _ _ h2]
          simp only [Except.map, (storeSteps_fields ..).2.2.2.1]
          rfl
  have main : ∀ s0, (solveFrom c1 m .new s0).map (fun x => x.2) =
      (solveFrom c2 m .new s0).map (fun x => x.2) := by
    intro s0
    rw [solveFrom_noDebug rfl, solveFrom_noDebug rfl]
    have hl : ∀ cc : Config F n, cc.params.maxIter = 1 → ∀ e,
        loop cc m (cc.params.maxIter - (Solver.new : Solver F n).iter) .new s0 e =
        if continues cc .new e then iterate cc m .new s0 else .ok (.new, s0, .ok e) := by
      intro cc h e
      rw [h]
      change loop cc m 1 .new s0 e = _
      unfold loop
      split
      · rcases iterate cc m .new s0 with p | ⟨a, b, e1 | e1⟩ <;> rfl
      · rfl
    rw [hl c1 rfl, hl c2 rfl]
    have hc : continues c1 .new (amax (evaluateErrors c1 m s0)) =
        continues c2 .new (amax (evaluateErrors c2 m s0)) := rfl
    rw [hc]
    rcases Bool.eq_false_or_eq_true (continues c2 .new (amax (evaluateErrors c2 m s0))) with
      hcc | hcc
    · rw [hcc, if_pos rfl, if_pos rfl]
      have := hiter s0
      revert this
      rcases iterate c1 m .new s0 with p | ⟨a, b, r⟩ <;>
        rcases iterate c2 m .new s0 with p' | ⟨a', b', r'⟩ <;> intro h
      · cases h; rfl
      · cases h
      · cases h
      · simp only [Except.map, Except.ok.injEq, Prod.mk.injEq] at h
        obtain ⟨h1, rfl, rfl⟩ := h
        match r with
        | .error e => rfl
        | .ok e =>
          simp only [Except.map, finalResult, h1]
          rfl
    · rw [hcc]
      rfl
  rcases he : m.evaluate (m.setIteratives s c.guess) with ⟨s1, rv⟩
  match rv, he with
  | .error (.unusable e), he =>
    rw [solve_unusable (c := c1) he, solve_unusable (c := c2) he]
  | .ok (), he => rw [solve_usable (c := c1) he .ok, solve_usable (c := c2) he .ok]; exact main s1
  | .error (.inaccurate e), he =>
    rw [solve_usable (c := c1) he (.inaccurate e), solve_usable (c := c2) he (.inaccurate e)]
    exact main s1

open scoped Exact in
/-- The first iteration moves: Broyden's method goes from 2 to 3/2 on `x² = 2`. -/
example : (match solve (Spec.firstIteration (Demo.cfg (.QuasiNewton (.JacobianUpdate .BroydenFirst))
      false 9 (1 / 1000) 2) (.QuasiNewton (.JacobianUpdate .BroydenFirst))) Demo.sqrt2 .new
      Demo.start with
    | .ok (_, s', _) => decide (s'.inputs 0 = 3 / 2)
    | _ => false) = true := by
  decide +kernel

end Nrf
