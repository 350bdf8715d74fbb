import Verif.Spec.Rescale
import Verif.Proofs.Sim
import Verif.Proofs.JacOutcome
import Verif.Proofs.ExactMat

/-!
# Newton-Raphson on rewritten equations
-/

set_option linter.unusedSectionVars false

namespace Nrf
open Spec
open scoped Exact
open Matrix

section
variable {K : Type} [Field K] [LinearOrder K] [IsStrictOrderedRing K] {n : Nat} {EI EU S : Type}
variable {c : Config K n} {m : UserModel K n EI EU S}
variable {ψ : ResidualsValues K n → ResidualsValues K n} {φ : JacobianValues K n → JacobianValues K n}

/-- Rewriting multiplies the update residuals and the rows of the matrix by `d`. -/
structure Rescales (c : Config K n) (ψ : ResidualsValues K n → ResidualsValues K n)
    (φ : JacobianValues K n → JacobianValues K n) (d : Vec K n) : Prop where
  ne : ∀ i, d i ≠ 0
  upd : ∀ v, c.res.evaluateUpdate (ψ v) = Matrix.diagonal d *ᵥ c.res.evaluateUpdate v
  jac : ∀ J v, (φ J).normalize (ψ v) c.res.upd = Matrix.diagonal d * J.normalize v c.res.upd

theorem det_diag {d : Vec K n} (hd : ∀ i, d i ≠ 0) : (Matrix.diagonal d).det ≠ 0 := by
  rw [Matrix.det_diagonal]
  exact Finset.prod_ne_zero_iff.2 fun i _ => hd i

/-- The inverses are either both missing or related by the scaling. -/
def InvRel (d : Vec K n) (a b : Option (Mat K n)) : Prop :=
  (a = none ∧ b = none) ∨ ∃ H, a = some H ∧ b = some (H * (Matrix.diagonal d)⁻¹)

theorem updateExact_rescaled (hL : c.la.IsExact) {d : Vec K n} (hd : ∀ i, d i ≠ 0)
    (j j' : JacobianMatrix K n) (J : Mat K n) :
    (j'.updateExact c.la (Matrix.diagonal d * J)).2 = (j.updateExact c.la J).2 ∧
    InvRel d (j.updateExact c.la J).1.inverse (j'.updateExact c.la (Matrix.diagonal d * J)).1.inverse := by
  have hD := det_diag hd
  unfold JacobianMatrix.updateExact JacobianMatrix.update
  by_cases h : J.det = 0
  · have h' : (Matrix.diagonal d * J).det = 0 := by rw [Matrix.det_mul, h, mul_zero]
    rw [hL.inv_none _ h, hL.inv_none _ h']
    exact ⟨rfl, .inl ⟨rfl, rfl⟩⟩
  · have h' : (Matrix.diagonal d * J).det ≠ 0 := by rw [Matrix.det_mul]; exact mul_ne_zero hD h
    rw [hL.inv_some _ h, hL.inv_some _ h']
    exact ⟨rfl, .inr ⟨_, rfl, by rw [Matrix.mul_inv_rev]⟩⟩

theorem fdLoop_rescaled {d : Vec K n} (h : Rescales c ψ φ d) (pert : Vec K n) (mem : List K) (x r : Vec K n) :
    ∀ (k i : Nat) (J : Mat K n) (s : S),
    fdLoop c.res (rewritten ψ φ m) pert mem x (Matrix.diagonal d *ᵥ r) k i (Matrix.diagonal d * J) s =
      match fdLoop c.res m pert mem x r k i J s with
      | .error p => .error p
      | .ok (s', .ok J') => .ok (s', .ok (Matrix.diagonal d * J'))
      | .ok (s', .error e) => .ok (s', .error e) := by
  intro k
  induction k with
  | zero => intro i J s; rfl
  | succ k ih =>
    intro i J s
    unfold fdLoop
    split
    · rename_i hi
      have hcol : ∀ s' : S, setColumn (Matrix.diagonal d * J) ⟨i, hi⟩
          (vdiv (vsub (c.res.evaluateUpdate ((rewritten ψ φ m).getResiduals s')) (Matrix.diagonal d *ᵥ r))
            (pert ⟨i, hi⟩)) =
          Matrix.diagonal d * setColumn J ⟨i, hi⟩
            (vdiv (vsub (c.res.evaluateUpdate (m.getResiduals s')) r) (pert ⟨i, hi⟩)) := by
        intro s'
        have hu : c.res.evaluateUpdate ((rewritten ψ φ m).getResiduals s') =
          Matrix.diagonal d *ᵥ c.res.evaluateUpdate (m.getResiduals s') := h.upd _
        funext a b
        rw [Matrix.diagonal_mul, hu, ex_vsub, ex_vsub, ← Matrix.mulVec_sub, ex_vdiv, ex_vdiv,
          ← Matrix.mulVec_smul]
        unfold setColumn
        split
        · rw [Matrix.mulVec_diagonal]
        · rw [Matrix.diagonal_mul]
      have hev : ∀ x, (rewritten ψ φ m).evaluate ((rewritten ψ φ m).setIteratives s x) =
        m.evaluate (m.setIteratives s x) := fun _ => rfl
      simp only [hev, hcol]
      generalize m.evaluate (m.setIteratives s _) = w
      rcases w with ⟨s', (e | e) | _⟩
      · exact ih _ _ _
      · rfl
      · exact ih _ _ _
    · rfl

theorem computeJac_rescaled (hL : c.la.IsExact) {d : Vec K n} (h : Rescales c ψ φ d)
    (j j' : JacobianMatrix K n) (s : S) :
    (∃ p, computeJac c m j s = .error p ∧ computeJac c (rewritten ψ φ m) j' s = .error p) ∨
    ∃ j1 j1' s1 r, computeJac c m j s = .ok (j1, s1, r) ∧
      computeJac c (rewritten ψ φ m) j' s = .ok (j1', s1, r) ∧
      (r = .ok () → InvRel d j1.inverse j1'.inverse) := by
  by_cases hp : m.jacobianProvided s = true
  · have hp' : (rewritten ψ φ m).jacobianProvided s = true := hp
    right
    simp only [computeJac, hp, hp', if_true, analyticJacobian]
    have hg : (rewritten ψ φ m).getJacobian s = ((m.getJacobian s).1, (m.getJacobian s).2.map φ) := rfl
    have hr : (rewritten ψ φ m).getResiduals s = ψ (m.getResiduals s) := rfl
    rw [hg, hr]
    rcases m.getJacobian s with ⟨s1, e | J⟩
    · cases e <;> simp only [Except.map]
      · exact ⟨_, _, s1, _, rfl, rfl, fun _ => .inl ⟨rfl, rfl⟩⟩
      · exact ⟨_, _, s1, _, rfl, rfl, fun h => by cases h⟩
    · simp only [Except.map]
      have hu := updateExact_rescaled hL h.ne j j' (J.normalize (m.getResiduals s) c.res.upd)
      rw [← h.jac] at hu
      generalize j.updateExact c.la (J.normalize (m.getResiduals s) c.res.upd) = w at hu ⊢
      generalize j'.updateExact c.la ((φ J).normalize (ψ (m.getResiduals s)) c.res.upd) = w' at hu ⊢
      rcases w with ⟨j1, b⟩
      rcases w' with ⟨j1', b'⟩
      obtain ⟨rfl, hinv⟩ : b' = b ∧ _ := hu
      cases b'
      · exact ⟨_, _, s1, _, rfl, rfl, fun h => by cases h⟩
      · exact ⟨_, _, s1, _, rfl, rfl, fun _ => hinv⟩
  · have hp0 : m.jacobianProvided s = false := by simpa using hp
    have hp' : (rewritten ψ φ m).jacobianProvided s = false := hp0
    simp only [computeJac, hp0, hp', Bool.false_eq_true, if_false, fdJacobian]
    have hget : (rewritten ψ φ m).getIteratives s = m.getIteratives s := rfl
    rw [hget]
    rcases computePerturbations c.iters (m.getIteratives s) with _ | pert
    · exact .inl ⟨_, rfl, rfl⟩
    have hfd : fdCompute c.res (rewritten ψ φ m) pert s =
        match fdCompute c.res m pert s with
        | .error p => .error p
        | .ok (s', .ok J') => .ok (s', .ok (Matrix.diagonal d * J'))
        | .ok (s', .error e) => .ok (s', .error e) := by
      have := fdLoop_rescaled (m := m) h pert (m.getMemory s) (m.getIteratives s)
        (c.res.evaluateUpdate (m.getResiduals s)) (m.lenProblem s) 0 mzero s
      rw [ex_mzero, mul_zero, ← h.upd] at this
      exact this
    simp only [hfd]
    rcases hw : fdCompute c.res m pert s with p | ⟨s1, e | J⟩
    · exact .inl ⟨p, rfl, rfl⟩
    · right
      cases e
      · obtain ⟨e', he⟩ := fdLoop_error pert _ _ _ _ _ _ _ hw
        cases he
      · exact ⟨_, _, s1, _, rfl, rfl, fun h => by cases h⟩
    · right
      have hu := updateExact_rescaled hL h.ne j j' J
      simp only
      generalize j.updateExact c.la J = w at hu ⊢
      generalize j'.updateExact c.la (Matrix.diagonal d * J) = w' at hu ⊢
      rcases w with ⟨j1, b⟩
      rcases w' with ⟨j1', b'⟩
      obtain ⟨rfl, hinv⟩ : b' = b ∧ _ := hu
      cases b'
      · exact ⟨_, _, s1, _, rfl, rfl, fun h => by cases h⟩
      · exact ⟨_, _, s1, _, rfl, rfl, fun _ => hinv⟩

theorem computeNext_rescaled (hL : c.la.IsExact) {d : Vec K n} (h : Rescales c ψ φ d)
    {st st' : Solver K n} (hi : InvRel d st.jac.inverse st'.jac.inverse) (s : S) :
    computeNext c (rewritten ψ φ m) st' s = computeNext c m st s := by
  have hr : (rewritten ψ φ m).getResiduals s = ψ (m.getResiduals s) := rfl
  have hget : (rewritten ψ φ m).getIteratives s = m.getIteratives s := rfl
  simp only [computeNext, hr, hget, h.upd]
  rcases hi with ⟨h1, h2⟩ | ⟨H, h1, h2⟩
  · rw [h1, h2]
  · rw [h1, h2]
    have hD := det_diag h.ne
    simp only
    congr 2
    rw [ex_mulVec hL, ex_mulVec hL, ex_mneg, ex_mneg, ← Matrix.neg_mul, Matrix.mulVec_mulVec,
      Matrix.mul_assoc, ex_inv_mul hD, Matrix.mul_one]

/-- Solvers that agree up to the Jacobian, without debugging. -/
structure Alike (a b : Solver K n) : Prop where
  debug : a.debug = false
  eq : b = { a with jac := b.jac }

theorem newtonRaphsonStep_rescaled (hL : c.la.IsExact) {d : Vec K n} (h : Rescales c ψ φ d)
    {a b : Solver K n} (hab : Alike a b) (s : S) :
    (∃ p, newtonRaphsonStep c m a s = .error p ∧ newtonRaphsonStep c (rewritten ψ φ m) b s = .error p) ∨
    ∃ a' b' s' r, newtonRaphsonStep c m a s = .ok (a', s', r) ∧
      newtonRaphsonStep c (rewritten ψ φ m) b s = .ok (b', s', r) ∧ Alike a' b' := by
  obtain ⟨da, ia, la, ja, xa, ya, za, va⟩ := a
  have hd : da = false := hab.debug
  subst hd
  obtain ⟨db, ib, lb, jb, xb, yb, zb, vb⟩ := b
  have he := hab.eq
  simp only [Solver.mk.injEq] at he
  obtain ⟨rfl, rfl, rfl, -, rfl, rfl, rfl, rfl⟩ := he
  simp only [newtonRaphsonStep, bind, Except.bind, pure, Except.pure, Solver.logIf, Bool.false_eq_true, if_false]
  rcases computeJac_rescaled (m := m) hL h ja jb s with ⟨p, h1, h2⟩ | ⟨j1, j1', s1, r, h1, h2, h3⟩
  · rw [h1, h2]; exact .inl ⟨p, rfl, rfl⟩
  · rw [h1, h2]
    rcases r with e | _
    · exact .inr ⟨_, _, s1, _, rfl, rfl, ⟨rfl, rfl⟩⟩
    · simp only
      rw [computeNext_rescaled (m := m) hL h (st := ⟨false, ib, lb, j1, xb, yb, zb, vb⟩)
        (st' := ⟨false, ib, lb, j1', xb, yb, zb, vb⟩) (h3 rfl) s1]
      rcases computeNext c m ⟨false, ib, lb, j1, xb, yb, zb, vb⟩ s1 with p | x
      · exact .inl ⟨p, rfl, rfl⟩
      · exact .inr ⟨_, _, s1, _, rfl, rfl, ⟨rfl, rfl⟩⟩

/-- Rewriting does not change the stopping residuals. -/
def KeepsErrors (c : Config K n) (ψ : ResidualsValues K n → ResidualsValues K n) : Prop :=
  ∀ v, c.res.evaluateStopping (ψ v) = c.res.evaluateStopping v

theorem updateModel_rescaled (hnr : c.params.method = .NewtonRaphson)
    (hk : c.params.damping = false ∨ KeepsErrors c ψ) {a b : Solver K n} (hab : Alike a b) (s : S) (x : Vec K n) :
    (∃ p, updateModel c m x a s = .error p ∧ updateModel c (rewritten ψ φ m) x b s = .error p) ∨
    ∃ a' b' s', Alike a' b' ∧
      ((∃ e, updateModel c m x a s = .ok (a', s', .error e) ∧
          updateModel c (rewritten ψ φ m) x b s = .ok (b', s', .error e)) ∨
       (updateModel c m x a s = .ok (a', s', .ok (evaluateErrors c m s')) ∧
          updateModel c (rewritten ψ φ m) x b s =
            .ok (b', s', .ok (evaluateErrors c (rewritten ψ φ m) s')))) := by
  obtain ⟨da, ia, la, ja, xa, ya, za, va⟩ := a
  have hd : da = false := hab.debug
  subst hd
  obtain ⟨db, ib, lb, jb, xb, yb, zb, vb⟩ := b
  have he := hab.eq
  simp only [Solver.mk.injEq] at he
  obtain ⟨rfl, rfl, rfl, -, rfl, rfl, rfl, rfl⟩ := he
  have hev : ∀ s x, (rewritten ψ φ m).evaluate ((rewritten ψ φ m).setIteratives s x) =
        m.evaluate (m.setIteratives s x) := fun _ _ => rfl
  have hget : ∀ s, (rewritten ψ φ m).getIteratives s = m.getIteratives s := fun _ => rfl
  have key : ∀ v s1, (∃ p, finishUpdate c m (evaluateErrors c m s) (m.getIteratives s) x
          ⟨false, ib, lb, ja, xb, yb, zb, v⟩ s1 = .error p ∧
        finishUpdate c (rewritten ψ φ m) (evaluateErrors c (rewritten ψ φ m) s) (m.getIteratives s) x
          ⟨false, ib, lb, jb, xb, yb, zb, v⟩ s1 = .error p) ∨
      ∃ a' b' s', Alike a' b' ∧ finishUpdate c m (evaluateErrors c m s) (m.getIteratives s) x
          ⟨false, ib, lb, ja, xb, yb, zb, v⟩ s1 = .ok (a', s', evaluateErrors c m s') ∧
        finishUpdate c (rewritten ψ φ m) (evaluateErrors c (rewritten ψ φ m) s) (m.getIteratives s) x
          ⟨false, ib, lb, jb, xb, yb, zb, v⟩ s1 = .ok (b', s', evaluateErrors c (rewritten ψ φ m) s') := by
    intro v s1
    simp only [finishUpdate, bind, Except.bind, pure, Except.pure, Solver.logIf, Bool.false_eq_true, if_false,
      hnr, storeSteps]
    rcases hk with hk | hk
    · simp only [hk, Bool.false_eq_true, if_false]
      exact .inr ⟨_, _, s1, ⟨rfl, rfl⟩, rfl, rfl⟩
    · have herr : ∀ s, evaluateErrors c (rewritten ψ φ m) s = evaluateErrors c m s := fun s => hk _
      simp only [herr, dampingStep, hnr, ne_eq, not_true, false_and, if_false, hev, Solver.logIf, bind,
        Except.bind, pure, Except.pure, Bool.false_eq_true]
      by_cases hdm : c.params.damping = true
      · simp only [hdm, if_true]
        by_cases hlt : Scalar.lt (amax (evaluateErrors c m s)) (amax (evaluateErrors c m s1)) = true
        · simp only [hlt, if_true]
          rcases m.evaluate (m.setIteratives s1 _) with ⟨s2, e | _⟩
          · exact .inl ⟨_, rfl, rfl⟩
          · exact .inr ⟨_, _, s2, ⟨rfl, rfl⟩, rfl, rfl⟩
        · simp only [hlt, Bool.false_eq_true, if_false]
          exact .inr ⟨_, _, s1, ⟨rfl, rfl⟩, rfl, rfl⟩
      · simp only [hdm, Bool.false_eq_true, if_false]
        exact .inr ⟨_, _, s1, ⟨rfl, rfl⟩, rfl, rfl⟩
  simp only [updateModel, hev, hget, bind, Except.bind, pure, Except.pure]
  rcases m.evaluate (m.setIteratives s x) with ⟨s1, (e | e) | _⟩
  · rcases key false s1 with ⟨p, h1, h2⟩ | ⟨a', b', s', h0, h1, h2⟩
    · simp only [h1, h2]; exact .inl ⟨p, rfl, rfl⟩
    · simp only [h1, h2]; exact .inr ⟨a', b', s', h0, .inr ⟨rfl, rfl⟩⟩
  · exact .inr ⟨_, _, s1, ⟨rfl, rfl⟩, .inl ⟨_, rfl, rfl⟩⟩
  · rcases key true s1 with ⟨p, h1, h2⟩ | ⟨a', b', s', h0, h1, h2⟩
    · simp only [h1, h2]; exact .inl ⟨p, rfl, rfl⟩
    · simp only [h1, h2]; exact .inr ⟨a', b', s', h0, .inr ⟨rfl, rfl⟩⟩

theorem iterate_rescaled (hL : c.la.IsExact) {d : Vec K n} (h : Rescales c ψ φ d)
    (hnr : c.params.method = .NewtonRaphson) (hk : c.params.damping = false ∨ KeepsErrors c ψ)
    {a b : Solver K n} (hab : Alike a b) (s : S) :
    (∃ p, iterate c m a s = .error p ∧ iterate c (rewritten ψ φ m) b s = .error p) ∨
    ∃ a' b' s', Alike a' b' ∧
      ((∃ e, iterate c m a s = .ok (a', s', .error e) ∧
          iterate c (rewritten ψ φ m) b s = .ok (b', s', .error e)) ∨
       (iterate c m a s = .ok (a', s', .ok (amax (evaluateErrors c m s'))) ∧
          iterate c (rewritten ψ φ m) b s =
            .ok (b', s', .ok (amax (evaluateErrors c (rewritten ψ φ m) s'))))) := by
  have hab' : Alike { a with iter := a.iter + 1 } { b with iter := b.iter + 1 } := by
    refine ⟨hab.debug, ?_⟩
    have h1 : b.iter = a.iter := by
      have := congrArg Solver.iter hab.eq
      exact this
    have h2 := congrArg (fun z : Solver K n => { z with iter := a.iter + 1 }) hab.eq
    rw [h1]
    exact h2
  simp only [iterate, bind, Except.bind, pure, Except.pure, computeStep, hnr]
  rcases newtonRaphsonStep_rescaled (m := m) hL h hab' s with ⟨p, h1, h2⟩ | ⟨a1, b1, s1, r, h1, h2, h3⟩
  · simp only [h1, h2]; exact .inl ⟨p, rfl, rfl⟩
  · simp only [h1, h2]
    rcases r with e | x
    · exact .inr ⟨a1, b1, s1, h3, .inl ⟨_, rfl, rfl⟩⟩
    · rcases updateModel_rescaled (m := m) (φ := φ) hnr hk h3 s1 x with
        ⟨p, h4, h5⟩ | ⟨a2, b2, s2, h6, ⟨e, h4, h5⟩ | ⟨h4, h5⟩⟩
      · simp only [h4, h5]; exact .inl ⟨p, rfl, rfl⟩
      · simp only [h4, h5]; exact .inr ⟨a2, b2, s2, h6, .inl ⟨_, rfl, rfl⟩⟩
      · simp only [h4, h5]; exact .inr ⟨a2, b2, s2, h6, .inr ⟨rfl, rfl⟩⟩

theorem Alike.iter {a b : Solver K n} (h : Alike a b) : b.iter = a.iter := by
  have := congrArg Solver.iter h.eq
  exact this
theorem Alike.valid {a b : Solver K n} (h : Alike a b) : b.valid = a.valid := by
  have := congrArg Solver.valid h.eq
  exact this

/-- Unchanged stopping residuals: the loops do the same passes. -/
theorem loop_rescaled (hL : c.la.IsExact) {d : Vec K n} (h : Rescales c ψ φ d)
    (hnr : c.params.method = .NewtonRaphson) (hk : KeepsErrors c ψ) :
    ∀ (fuel : Nat) (a b : Solver K n) (s : S) (e : K), Alike a b →
    SameUpToJacobian (loop c m fuel a s e) (loop c (rewritten ψ φ m) fuel b s e) := by
  intro fuel
  induction fuel with
  | zero => intro a b s e hab; exact ⟨rfl, rfl, hab.eq⟩
  | succ fuel ih =>
    intro a b s e hab
    rw [loop.eq_2, loop.eq_2]
    have hc : continues c b e = continues c a e := by unfold continues; rw [hab.iter]
    rw [hc]
    split
    · rcases iterate_rescaled (m := m) hL h hnr (.inr hk) hab s with
        ⟨p, h1, h2⟩ | ⟨a', b', s', h3, ⟨e, h1, h2⟩ | ⟨h1, h2⟩⟩
      · rw [h1, h2]; rfl
      · rw [h1, h2]; exact ⟨rfl, rfl, h3.eq⟩
      · have herr : evaluateErrors c (rewritten ψ φ m) s' = evaluateErrors c m s' := hk _
        rw [h1, h2, herr]
        exact ih a' b' s' _ h3
    · exact ⟨rfl, rfl, hab.eq⟩

theorem solve_rescaled (hL : c.la.IsExact) {d : Vec K n} (h : Rescales c ψ φ d)
    (hnr : c.params.method = .NewtonRaphson) (hk : KeepsErrors c ψ) (st : Solver K n)
    (hd : st.debug = false) (s : S) :
    SameUpToJacobian (solve c m st s) (solve c (rewritten ψ φ m) st s) := by
  have hev : ∀ s x, (rewritten ψ φ m).evaluate ((rewritten ψ φ m).setIteratives s x) =
        m.evaluate (m.setIteratives s x) := fun _ _ => rfl
  have hfrom : ∀ s, SameUpToJacobian (solveFrom c m st s) (solveFrom c (rewritten ψ φ m) st s) := by
    intro s
    have herr : evaluateErrors c (rewritten ψ φ m) s = evaluateErrors c m s := hk _
    rw [solveFrom_noDebug hd, solveFrom_noDebug hd, herr]
    have hl := loop_rescaled (m := m) hL h hnr hk (c.params.maxIter - st.iter) st st s
      (amax (evaluateErrors c m s)) ⟨hd, rfl⟩
    revert hl
    generalize loop c m (c.params.maxIter - st.iter) st s (amax (evaluateErrors c m s)) = w
    generalize loop c (rewritten ψ φ m) (c.params.maxIter - st.iter) st s (amax (evaluateErrors c m s)) = w'
    intro hl
    match w, w', hl with
    | .error p, .error q, hl => exact hl
    | .ok (a, s1, .ok e), .ok (b, s2, r), ⟨h1, h2, h3⟩ =>
      subst h2
      refine ⟨h1, ?_, h3⟩
      have hv : b.valid = a.valid := by
        have := congrArg Solver.valid h3
        exact this
      unfold finalResult
      rw [hv]
    | .ok (a, s1, .error e), .ok (b, s2, r), ⟨h1, h2, h3⟩ =>
      subst h2
      exact ⟨h1, rfl, h3⟩
  unfold solve
  rw [hev]
  rcases m.evaluate (m.setIteratives s c.guess) with ⟨s1, (e | e) | _⟩
  · exact hfrom s1
  · exact ⟨rfl, rfl, rfl⟩
  · exact hfrom s1

/-- Iterations do not depend on the tolerance and the iteration bound. -/
theorem iterate_rebounded (tol : K) (k : Nat) (st : Solver K n) (s : S) :
    iterate { c with params := { c.params with tolerance := tol, maxIter := k } } m st s = iterate c m st s :=
  rfl

theorem loop_iter_le : ∀ (fuel : Nat) {a a' : Solver K n} {s s' : S} {e r},
    loop c m fuel a s e = .ok (a', s', r) → a.iter ≤ a'.iter := by
  intro fuel
  induction fuel with
  | zero => intro a a' s s' e r h; cases h; exact le_refl _
  | succ fuel ih =>
    intro a a' s s' e r h
    rw [loop.eq_2] at h
    split at h
    · rcases hi : iterate c m a s with p | ⟨a1, s1, e1 | e1⟩
      · rw [hi] at h; cases h
      · rw [hi] at h; cases h
        have := iterate_iter hi
        omega
      · rw [hi] at h
        have := iterate_iter hi
        have := ih h
        omega
    · cases h; exact le_refl _

/-- Loops with different bounds that do the same number of passes end at the same place. -/
theorem loop_rescaled_count (hL : c.la.IsExact) {d : Vec K n} (h : Rescales c ψ φ d)
    (hnr : c.params.method = .NewtonRaphson) (hk : c.params.damping = false) (tol : K) (k : Nat) :
    ∀ (fuel fuel' : Nat) (a b : Solver K n) (s : S) (e e' : K) {a' b' s1 s2 r r'}, Alike a b →
    loop c m fuel a s e = .ok (a', s1, r) →
    loop { c with params := { c.params with tolerance := tol, maxIter := k } } (rewritten ψ φ m) fuel' b s e' =
      .ok (b', s2, r') → b'.iter = a'.iter → s1 = s2 ∧ Alike a' b' := by
  intro fuel
  induction fuel with
  | zero =>
    intro fuel' a b s e e' a' b' s1 s2 r r' hab h1 h2 hit
    cases h1
    cases fuel' with
    | zero => cases h2; exact ⟨rfl, hab⟩
    | succ fuel' =>
      rw [loop.eq_2] at h2
      split at h2
      · rcases hi : iterate c (rewritten ψ φ m) b s with p | ⟨b1, s3, e1 | e1⟩
        · rw [iterate_rebounded, hi] at h2; cases h2
        · rw [iterate_rebounded, hi] at h2; cases h2
          have := iterate_iter hi
          have := hab.iter
          omega
        · rw [iterate_rebounded, hi] at h2
          have := iterate_iter hi
          have := hab.iter
          have := loop_iter_le _ h2
          omega
      · cases h2; exact ⟨rfl, hab⟩
  | succ fuel ih =>
    intro fuel' a b s e e' a' b' s1 s2 r r' hab h1 h2 hit
    have hiter := hab.iter
    have stop1 : loop c m (fuel + 1) a s e = .ok (a, s, .ok e) ∨
        ∃ w, iterate c m a s = w ∧ loop c m (fuel + 1) a s e = match w with
          | .error p => .error p
          | .ok (st, s, .ok e) => loop c m fuel st s e
          | .ok (st, s, .error err) => .ok (st, s, .error err) := by
      rw [loop.eq_2]
      split
      · exact .inr ⟨_, rfl, rfl⟩
      · exact .inl rfl
    have stop2 : loop { c with params := { c.params with tolerance := tol, maxIter := k } } (rewritten ψ φ m)
          fuel' b s e' = .ok (b, s, .ok e') ∨
        ∃ g w, iterate c (rewritten ψ φ m) b s = w ∧
          loop { c with params := { c.params with tolerance := tol, maxIter := k } } (rewritten ψ φ m)
            fuel' b s e' = match w with
          | .error p => .error p
          | .ok (st, s, .ok e) => loop { c with params := { c.params with tolerance := tol, maxIter := k } }
              (rewritten ψ φ m) g st s e
          | .ok (st, s, .error err) => .ok (st, s, .error err) := by
      cases fuel' with
      | zero => exact .inl rfl
      | succ g =>
        rw [loop.eq_2]
        split
        · exact .inr ⟨g, _, rfl, rfl⟩
        · exact .inl rfl
    rcases stop1 with hs1 | ⟨w, hw, hs1⟩
    · rw [hs1] at h1
      cases h1
      rcases stop2 with hs2 | ⟨g, w', hw', hs2⟩
      · rw [hs2] at h2; cases h2; exact ⟨rfl, hab⟩
      · exfalso
        rw [hs2] at h2
        rcases w' with p | ⟨b1, s3, e1 | e1⟩
        · cases h2
        · have := iterate_iter hw'; cases h2; omega
        · have := iterate_iter hw'
          have := loop_iter_le _ h2
          omega
    · rw [hs1] at h1
      rcases stop2 with hs2 | ⟨g, w', hw', hs2⟩
      · exfalso
        rw [hs2] at h2
        cases h2
        rcases w with p | ⟨b1, s3, e1 | e1⟩
        · cases h1
        · have := iterate_iter hw; cases h1; omega
        · have := iterate_iter hw
          have := loop_iter_le _ h1
          omega
      · rw [hs2] at h2
        rcases iterate_rescaled (m := m) hL h hnr (.inl hk) hab s with
          ⟨p, h3, h4⟩ | ⟨a1, b1, s3, h5, ⟨e, h3, h4⟩ | ⟨h3, h4⟩⟩
        · rw [h3] at hw; subst hw; cases h1
        · rw [h3] at hw; subst hw; cases h1
          rw [h4] at hw'; subst hw'; cases h2
          exact ⟨rfl, h5⟩
        · rw [h3] at hw; subst hw
          rw [h4] at hw'; subst hw'
          exact ih g a1 b1 s3 _ _ h5 h1 h2 hit

theorem solve_rescaled_count (hL : c.la.IsExact) {d : Vec K n} (h : Rescales c ψ φ d)
    (hnr : c.params.method = .NewtonRaphson) (hk : c.params.damping = false) (tol : K) (k : Nat)
    {st a b : Solver K n} (hd : st.debug = false) {s s1 s2 : S} {r r'}
    (h1 : solve c m st s = .ok (a, s1, r))
    (h2 : solve { c with params := { c.params with tolerance := tol, maxIter := k } } (rewritten ψ φ m) st s =
      .ok (b, s2, r')) (hit : b.iter = a.iter) : s1 = s2 ∧ Alike a b := by
  have hfrom : ∀ s, solveFrom c m st s = .ok (a, s1, r) →
      solveFrom { c with params := { c.params with tolerance := tol, maxIter := k } } (rewritten ψ φ m) st s =
        .ok (b, s2, r') → s1 = s2 ∧ Alike a b := by
    intro s h1 h2
    rw [solveFrom_noDebug hd] at h1 h2
    rcases hl : loop c m (c.params.maxIter - st.iter) st s (amax (evaluateErrors c m s)) with
      p | ⟨a', s1', e | e⟩ <;> rw [hl] at h1 <;> cases h1 <;>
    rcases hl' : loop { c with params := { c.params with tolerance := tol, maxIter := k } } (rewritten ψ φ m)
      (k - st.iter) st s (amax (evaluateErrors { c with params := { c.params with tolerance := tol, maxIter := k } }
        (rewritten ψ φ m) s)) with p | ⟨b', s2', e' | e'⟩ <;> rw [hl'] at h2 <;> cases h2 <;>
    exact loop_rescaled_count hL h hnr hk tol k _ _ st st s _ _ ⟨hd, rfl⟩ hl hl' hit
  have hev : ∀ s x, (rewritten ψ φ m).evaluate ((rewritten ψ φ m).setIteratives s x) =
        m.evaluate (m.setIteratives s x) := fun _ _ => rfl
  unfold solve at h1 h2
  rw [hev] at h2
  rcases hw : m.evaluate (m.setIteratives s c.guess) with ⟨s3, (e | e) | _⟩ <;> rw [hw] at h1 h2
  · exact hfrom s3 h1 h2
  · cases h1; cases h2; exact ⟨rfl, ⟨hd, rfl⟩⟩
  · exact hfrom s3 h1 h2

end
end Nrf
