import Verif.Model.RootFinder

/-!
# Solves commute with homomorphisms of user models
-/

set_option linter.unusedSectionVars false

namespace Nrf

/-- `π` maps states of `m'` to states of `m` and every method commutes with it. -/
structure Hom {F : Type} {n : Nat} {EI EU S' S : Type} (m' : UserModel F n EI EU S')
    (m : UserModel F n EI EU S) (π : S' → S) : Prop where
  lenProblem : ∀ s, m.lenProblem (π s) = m'.lenProblem s
  setIteratives : ∀ s x, m.setIteratives (π s) x = π (m'.setIteratives s x)
  getIteratives : ∀ s, m.getIteratives (π s) = m'.getIteratives s
  evaluate : ∀ s, m.evaluate (π s) = (π (m'.evaluate s).1, (m'.evaluate s).2)
  getResiduals : ∀ s, m.getResiduals (π s) = m'.getResiduals s
  jacobianProvided : ∀ s, m.jacobianProvided (π s) = m'.jacobianProvided s
  getJacobian : ∀ s, m.getJacobian (π s) = (π (m'.getJacobian s).1, (m'.getJacobian s).2)
  getMemory : ∀ s, m.getMemory (π s) = m'.getMemory s
  setMemory : ∀ s l, m.setMemory (π s) l = π (m'.setMemory s l)
  displayUnusable : ∀ e, m.displayUnusable e = m'.displayUnusable e

section
variable {F : Type} [Scalar F] {n : Nat} {EI EU S S' : Type}
variable {c : Config F n} {m' : UserModel F n EI EU S'} {m : UserModel F n EI EU S} {π : S' → S}

/-- Apply `π` to the model part of a result. -/
def mapMid {ε A B : Type} (π : S' → S) : Except ε (A × S' × B) → Except ε (A × S × B)
  | .error p => .error p
  | .ok (a, s, b) => .ok (a, π s, b)

theorem mapMid_bind {ε A B A' B' : Type} (x : Except ε (A × S' × B))
    (f : A × S' × B → Except ε (A' × S' × B')) (g : A × S × B → Except ε (A' × S × B'))
    (h : ∀ a s b, g (a, π s, b) = mapMid π (f (a, s, b))) :
    (mapMid π x >>= g) = mapMid π (x >>= f) := by
  match x with
  | .error p => rfl
  | .ok (a, s, b) => exact h a s b

variable (H : Hom m' m π)
include H

theorem analyticJacobian_hom (j : JacobianMatrix F n) (s : S') :
    analyticJacobian c.la c.res m j (π s) =
      ((analyticJacobian c.la c.res m' j s).1, π (analyticJacobian c.la c.res m' j s).2.1,
        (analyticJacobian c.la c.res m' j s).2.2) := by
  unfold analyticJacobian
  simp only [H.getJacobian, H.getResiduals]
  rcases m'.getJacobian s with ⟨s', r⟩
  match r with
  | .error e => rfl
  | .ok v =>
    dsimp only
    rcases j.updateExact c.la (v.normalize (m'.getResiduals s) c.res.upd) with ⟨j', b⟩
    cases b <;> rfl

theorem fdLoop_hom (pert : Vec F n) (mem : List F) (x r : Vec F n) :
    ∀ (k i : Nat) (J : Mat F n) (s : S'),
      fdLoop c.res m pert mem x r k i J (π s) =
        (match fdLoop c.res m' pert mem x r k i J s with
        | .error p => .error p
        | .ok (s', v) => .ok (π s', v)) := by
  intro k
  induction k with
  | zero => intro i J s; rfl
  | succ k ih =>
    intro i J s
    unfold fdLoop
    by_cases hi : i < n
    · simp only [hi, dite_true, H.setIteratives, H.evaluate]
      rcases m'.evaluate (m'.setIteratives s _) with ⟨s', v⟩
      match v with
      | .error (.unusable e) => rfl
      | .error (.inaccurate e) => simp only [H.getResiduals, H.setMemory, ih]
      | .ok () => simp only [H.getResiduals, H.setMemory, ih]
    · simp [hi]

theorem fdJacobian_hom (j : JacobianMatrix F n) (s : S') :
    fdJacobian c.la c.res c.iters m j (π s) =
      mapMid π (fdJacobian c.la c.res c.iters m' j s) := by
  unfold fdJacobian fdCompute
  simp only [H.getIteratives, H.getMemory, H.getResiduals, H.lenProblem, fdLoop_hom H]
  split
  · rfl
  · rename_i pert hp
    rcases fdLoop c.res m' pert _ _ _ _ _ _ s with p | ⟨s', v⟩
    · rfl
    · match v with
      | .error e => rfl
      | .ok J =>
        dsimp only
        rcases j.updateExact c.la J with ⟨j', b⟩
        cases b <;> rfl

theorem computeJac_hom (j : JacobianMatrix F n) (s : S') :
    computeJac c m j (π s) = mapMid π (computeJac c m' j s) := by
  unfold computeJac
  simp only [H.jacobianProvided, analyticJacobian_hom H, fdJacobian_hom H]
  by_cases hp : m'.jacobianProvided s = true
  · simp only [hp, if_true]
    rcases analyticJacobian c.la c.res m' j s with ⟨j', s', r⟩
    match r with
    | .ok () => rfl
    | .error (.invalidJacobian (.inaccurate e)) => rfl
    | .error (.invalidJacobian (.unusable e)) => rfl
    | .error .invalidJacobianInverse => rfl
  · simp only [hp]
    rcases fdJacobian c.la c.res c.iters m' j s with p | ⟨j', s', r⟩
    · rfl
    match r with
    | .ok () => rfl
    | .error (.invalidJacobian (.inaccurate e)) => rfl
    | .error (.invalidJacobian (.unusable e)) => rfl
    | .error .invalidJacobianInverse => rfl

theorem computeNext_hom (st : Solver F n) (s : S') :
    computeNext c m st (π s) = computeNext c m' st s := by
  unfold computeNext
  simp only [H.getResiduals, H.getIteratives]

theorem evaluateErrors_hom (s : S') : evaluateErrors c m (π s) = evaluateErrors c m' s := by
  unfold evaluateErrors
  rw [H.getResiduals]

theorem newtonRaphsonStep_hom (st : Solver F n) (s : S') :
    newtonRaphsonStep c m st (π s) = mapMid π (newtonRaphsonStep c m' st s) := by
  unfold newtonRaphsonStep
  rw [computeJac_hom H]
  refine mapMid_bind _ _ _ ?_
  intro j s r
  simp only [bind, Except.bind, pure, Except.pure, computeNext_hom H]
  split
  · rfl
  · match r with
    | .ok () =>
      dsimp only
      split <;> rfl
    | .error e => rfl

theorem quasiNewtonJacobian_hom (q : QuasiNewtonMethod) (st : Solver F n) (s : S') :
    quasiNewtonJacobian c m q st (π s) = mapMid π (quasiNewtonJacobian c m' q st s) := by
  unfold quasiNewtonJacobian
  split
  · rw [computeJac_hom H]
    refine mapMid_bind _ _ _ ?_
    intro j s r
    simp only [bind, Except.bind, pure, Except.pure]
    split <;> rfl
  · simp only [bind, Except.bind, pure, Except.pure]
    split
    · split <;> rfl
    · split
      · split
        · rfl
        · split
          · split <;> rfl
          · rfl
      · rfl
    · split
      · split
        · rfl
        · split <;> rfl
      · rfl

theorem quasiNewtonStep_hom (q : QuasiNewtonMethod) (st : Solver F n) (s : S') :
    quasiNewtonStep c m q st (π s) = mapMid π (quasiNewtonStep c m' q st s) := by
  unfold quasiNewtonStep
  rw [quasiNewtonJacobian_hom H]
  refine mapMid_bind _ _ _ ?_
  intro j s r
  simp only [bind, Except.bind, pure, Except.pure, computeNext_hom H]
  match r with
  | .ok () =>
    dsimp only
    split <;> rfl
  | .error e => rfl

theorem computeStep_hom (st : Solver F n) (s : S') :
    computeStep c m st (π s) = mapMid π (computeStep c m' st s) := by
  unfold computeStep
  split
  · exact newtonRaphsonStep_hom H _ _
  · exact quasiNewtonStep_hom H _ _ _

theorem dampingStep_hom (maxError : F) (cur x e : Vec F n) (st : Solver F n) (s : S') :
    dampingStep c m maxError cur x e st (π s) = mapMid π (dampingStep c m' maxError cur x e st s) := by
  unfold dampingStep
  simp only [bind, Except.bind, pure, Except.pure, H.setIteratives, H.evaluate]
  split
  · split
    · split <;> rfl
    · rcases m'.evaluate _ with ⟨s', v⟩
      match v with
      | .error e => rfl
      | .ok () =>
        simp only [evaluateErrors_hom H, H.getIteratives, H.getResiduals]
        split <;> rfl
  · rfl

theorem finishUpdate_hom (errors cur x : Vec F n) (st : Solver F n) (s : S') :
    finishUpdate c m errors cur x st (π s) = mapMid π (finishUpdate c m' errors cur x st s) := by
  unfold finishUpdate
  simp only [evaluateErrors_hom H, H.getIteratives, H.getResiduals]
  cases st.logIf (.iteration st.iter (m'.getIteratives s) (m'.getResiduals s)
    (evaluateErrors c m' s)) with
  | error p => rfl
  | ok st1 =>
    simp only [bind, Except.bind, pure, Except.pure]
    by_cases hd : c.params.damping = true
    · simp only [hd, if_true, dampingStep_hom H]
      rcases dampingStep c m' (amax errors) cur x (evaluateErrors c m' s) st1 s with p | ⟨a, b, d⟩
      · rfl
      · simp [mapMid, H.getIteratives]
    · simp [hd, mapMid, H.getIteratives]

theorem updateModel_hom (x : Vec F n) (st : Solver F n) (s : S') :
    updateModel c m x st (π s) = mapMid π (updateModel c m' x st s) := by
  unfold updateModel
  simp only [H.setIteratives, H.evaluate, evaluateErrors_hom H, H.getIteratives]
  rcases m'.evaluate (m'.setIteratives s x) with ⟨s', v⟩
  match v with
  | .error (.unusable e) => rfl
  | .error (.inaccurate e) =>
    dsimp only
    rw [finishUpdate_hom H]
    exact mapMid_bind _ _ _ (fun _ _ _ => rfl)
  | .ok () =>
    dsimp only
    rw [finishUpdate_hom H]
    exact mapMid_bind _ _ _ (fun _ _ _ => rfl)

theorem iterate_hom (st : Solver F n) (s : S') :
    iterate c m st (π s) = mapMid π (iterate c m' st s) := by
  unfold iterate
  rw [computeStep_hom H]
  refine mapMid_bind _ _ _ ?_
  intro st s r
  match r with
  | .error e => rfl
  | .ok x =>
    dsimp only
    rw [updateModel_hom H]
    refine mapMid_bind _ _ _ ?_
    intro st s r
    cases r <;> rfl

theorem loop_hom : ∀ (fuel : Nat) (st : Solver F n) (s : S') (e : F),
    loop c m fuel st (π s) e = mapMid π (loop c m' fuel st s e) := by
  intro fuel
  induction fuel with
  | zero => intro st s e; rfl
  | succ k ih =>
    intro st s e
    unfold loop
    split
    · rw [iterate_hom H]
      rcases iterate c m' st s with p | ⟨a, b, r⟩
      · rfl
      · cases r with
        | error e => rfl
        | ok e => exact ih _ _ _
    · rfl

theorem solveFrom_hom (st : Solver F n) (s : S') :
    solveFrom c m st (π s) = mapMid π (solveFrom c m' st s) := by
  unfold solveFrom
  simp only [bind, Except.bind, pure, Except.pure, evaluateErrors_hom H, H.getIteratives,
    H.getResiduals, loop_hom H]
  split
  · rfl
  · split
    · rfl
    · rename_i st2 _
      rcases loop c m' (c.params.maxIter - st2.iter) st2 s (amax (evaluateErrors c m' s))
        with p | ⟨a, b, r⟩
      · rfl
      · cases r <;> rfl

/-- A solve on the image of a state is the image of the solve. -/
theorem solve_hom (st : Solver F n) (s : S') :
    solve c m st (π s) = mapMid π (solve c m' st s) := by
  unfold solve
  simp only [H.setIteratives, H.evaluate, H.displayUnusable]
  rcases m'.evaluate (m'.setIteratives s c.guess) with ⟨s', v⟩
  match v with
  | .error (.unusable e) => rfl
  | .error (.inaccurate e) => exact solveFrom_hom H _ _
  | .ok () => exact solveFrom_hom H _ _

end
end Nrf
