import Verif.Proofs.QuasiNewton
import Verif.Proofs.Sim
import Verif.Proofs.Reuse

/-!
# Lockstep of the Jacobian form and the inverse form
-/

set_option linter.unusedSectionVars false

namespace Nrf

section
variable {F : Type} [Scalar F] {n : Nat} {EI EU S : Type}

/-- Replace the stored matrix, keeping the stored inverse. -/
def Solver.setMatrix (a : Solver F n) (M : Option (Mat F n)) : Solver F n :=
  { a with jac := { a.jac with matrix := M } }

/-- Apply a function to the solver of a result. -/
def mapSolver {α : Type} (f : Solver F n → Solver F n) :
    Except Panic (Solver F n × S × α) → Except Panic (Solver F n × S × α)
  | .error p => .error p
  | .ok (a, s, r) => .ok (f a, s, r)

variable {c : Config F n} {m : UserModel F n EI EU S} {u : UpdateMethod}

theorem dampingStep_matrix {a : Solver F n} (hd : a.debug = false) (M : Option (Mat F n)) (s : S)
    (e : F) (cur prop en : Vec F n) :
    dampingStep (c.withMethod (.QuasiNewton (.InverseJacobianUpdate u))) m e cur prop en
        (a.setMatrix M) s =
      mapSolver (·.setMatrix M)
        (dampingStep (c.withMethod (.QuasiNewton (.JacobianUpdate u))) m e cur prop en a s) := by
  obtain ⟨db, ia, la, ⟨mm, mi, mc, ma⟩, xa, ya, za, va⟩ := a
  obtain rfl : db = false := hd
  unfold dampingStep
  simp only [bind, Except.bind, pure, Except.pure, Config.withMethod, Solver.setMatrix, ne_eq,
    reduceCtorEq, not_false_eq_true, true_and, Solver.logIf, Bool.false_eq_true, if_false]
  split
  · split
    · rfl
    · rcases m.evaluate (m.setIteratives s (dampedGuess cur prop)) with ⟨s', e | _⟩
      · rfl
      · rfl
  · rfl

theorem finishUpdate_matrix {a : Solver F n} (hd : a.debug = false) (M : Option (Mat F n)) (s : S)
    (errors cur prop : Vec F n) :
    finishUpdate (c.withMethod (.QuasiNewton (.InverseJacobianUpdate u))) m errors cur prop
        (a.setMatrix M) s =
      mapSolver (·.setMatrix M)
        (finishUpdate (c.withMethod (.QuasiNewton (.JacobianUpdate u))) m errors cur prop a s) := by
  have hd' : (a.setMatrix M).debug = false := hd
  simp only [finishUpdate, bind, Except.bind, pure, Except.pure]
  rw [logIf_off hd, logIf_off hd']
  dsimp only
  by_cases hdm : c.params.damping = true
  · have h1 : ∀ q, (c.withMethod q).params.damping = true := fun _ => hdm
    simp only [h1, if_true]
    rw [show evaluateErrors (c.withMethod (.QuasiNewton (.InverseJacobianUpdate u))) m s =
      evaluateErrors (c.withMethod (.QuasiNewton (.JacobianUpdate u))) m s from rfl,
      dampingStep_matrix hd]
    rcases dampingStep _ m (amax errors) cur prop _ a s with p | ⟨a', s', e'⟩ <;> rfl
  · have h1 : ∀ q, (c.withMethod q).params.damping = false := fun _ => (Bool.not_eq_true _).mp hdm
    simp only [h1, if_false, Bool.false_eq_true]
    rfl

theorem updateModel_matrix {a : Solver F n} (hd : a.debug = false) (M : Option (Mat F n)) (s : S)
    (x : Vec F n) :
    updateModel (c.withMethod (.QuasiNewton (.InverseJacobianUpdate u))) m x (a.setMatrix M) s =
      mapSolver (·.setMatrix M)
        (updateModel (c.withMethod (.QuasiNewton (.JacobianUpdate u))) m x a s) := by
  rcases he : m.evaluate (m.setIteratives s x) with ⟨s1, r⟩
  have usable : ∀ v, Usable r v →
      updateModel (c.withMethod (.QuasiNewton (.InverseJacobianUpdate u))) m x (a.setMatrix M) s =
      mapSolver (·.setMatrix M)
        (updateModel (c.withMethod (.QuasiNewton (.JacobianUpdate u))) m x a s) := by
    intro v hu
    rw [updateModel_usable he hu, updateModel_usable he hu]
    rw [show ({ a.setMatrix M with valid := v } : Solver F n) =
      ({ a with valid := v } : Solver F n).setMatrix M from rfl,
      show evaluateErrors (c.withMethod (.QuasiNewton (.InverseJacobianUpdate u))) m s =
      evaluateErrors (c.withMethod (.QuasiNewton (.JacobianUpdate u))) m s from rfl,
      finishUpdate_matrix (a := { a with valid := v }) hd]
    rcases finishUpdate _ m _ (m.getIteratives s) x { a with valid := v } s1 with p | ⟨a', s', e'⟩ <;> rfl
  match r, he, usable with
  | .ok (), he, usable => exact usable _ .ok
  | .error (.inaccurate e), he, usable => exact usable _ (.inaccurate e)
  | .error (.unusable e), he, _ => rw [updateModel_unusable he, updateModel_unusable he]; rfl

theorem updateExact_matrix (L : LinAlg F n) (j : JacobianMatrix F n) (N : Option (Mat F n))
    (M : Mat F n) : ∃ N', ({ j with matrix := N } : JacobianMatrix F n).updateExact L M =
      ({ (j.updateExact L M).1 with matrix := N' }, (j.updateExact L M).2) := by
  unfold JacobianMatrix.updateExact JacobianMatrix.update
  rcases L.inv M with _ | inv
  · exact ⟨none, rfl⟩
  · exact ⟨some M, rfl⟩

/-- The Jacobian computation reads nothing of the stored matrix. -/
theorem computeJac_matrix (j : JacobianMatrix F n) (N : Option (Mat F n)) (s : S) :
    (∃ p, computeJac c m j s = .error p ∧ computeJac c m { j with matrix := N } s = .error p) ∨
    (∃ j' s' r N', computeJac c m j s = .ok (j', s', r) ∧
      computeJac c m { j with matrix := N } s = .ok ({ j' with matrix := N' }, s', r)) := by
  unfold computeJac
  by_cases hp : m.jacobianProvided s = true
  · simp only [hp, if_true]
    unfold analyticJacobian
    rcases m.getJacobian s with ⟨s', g⟩
    match g with
    | .error (.inaccurate e) => exact .inr ⟨_, _, _, _, rfl, rfl⟩
    | .error (.unusable e) => exact .inr ⟨_, _, _, _, rfl, rfl⟩
    | .ok v =>
      dsimp only
      obtain ⟨N', h⟩ := updateExact_matrix c.la j N (v.normalize (m.getResiduals s) c.res.upd)
      rw [h]
      rcases j.updateExact c.la (v.normalize (m.getResiduals s) c.res.upd) with ⟨a1, b1⟩
      cases b1
      · exact .inr ⟨_, _, _, N', rfl, rfl⟩
      · exact .inr ⟨_, _, _, N', rfl, rfl⟩
  · simp only [hp, if_false, Bool.false_eq_true]
    unfold fdJacobian
    rcases computePerturbations c.iters (m.getIteratives s) with _ | pert
    · exact .inl ⟨_, rfl, rfl⟩
    · dsimp only
      rcases hf : fdCompute c.res m pert s with p | ⟨s', e | M⟩
      · exact .inl ⟨_, rfl, rfl⟩
      · match e with
        | .inaccurate e => exact .inr ⟨_, _, _, N, rfl, rfl⟩
        | .unusable e => exact .inr ⟨_, _, _, N, rfl, rfl⟩
      · dsimp only
        obtain ⟨N', h⟩ := updateExact_matrix c.la j N M
        rw [h]
        rcases j.updateExact c.la M with ⟨a1, b1⟩
        cases b1
        · exact .inr ⟨_, _, _, N', rfl, rfl⟩
        · exact .inr ⟨_, _, _, N', rfl, rfl⟩

/-- Two results that agree up to the stored matrix. -/
def MatrixSim {α : Type} (x y : Except Panic (Solver F n × S × α)) : Prop :=
  (∃ p, x = .error p ∧ y = .error p) ∨
  ∃ a s r N, x = .ok (a, s, r) ∧ y = .ok (a.setMatrix N, s, r)

/-- Computing the step of both forms from a pending Jacobian. -/
theorem computeStep_pending {a : Solver F n} (hd : a.debug = false)
    (hc : a.jac.computeNext = true) (N : Option (Mat F n)) (s : S) :
    MatrixSim (computeStep (c.withMethod (.QuasiNewton (.JacobianUpdate u))) m a s)
      (computeStep (c.withMethod (.QuasiNewton (.InverseJacobianUpdate u))) m (a.setMatrix N) s) := by
  have hd' : (a.setMatrix N).debug = false := hd
  have hc' : (a.setMatrix N).jac.computeNext = true := hc
  simp only [computeStep, quasiNewtonStep, quasiNewtonJacobian, bind, Except.bind, pure, Except.pure,
    Config.withMethod, hc, hc', if_true]
  rcases computeJac_matrix (c := c) (m := m) a.jac N s with ⟨p, h1, h2⟩ | ⟨j', s', r, N', h1, h2⟩
  · have h1' : computeJac (c.withMethod (.QuasiNewton (.JacobianUpdate u))) m a.jac s = _ := h1
    have h2' : computeJac (c.withMethod (.QuasiNewton (.InverseJacobianUpdate u))) m (a.setMatrix N).jac s = _ := h2
    unfold Config.withMethod at h1' h2'
    rw [h1', h2']
    exact .inl ⟨p, rfl, rfl⟩
  · have h1' : computeJac (c.withMethod (.QuasiNewton (.JacobianUpdate u))) m a.jac s = _ := h1
    have h2' : computeJac (c.withMethod (.QuasiNewton (.InverseJacobianUpdate u))) m (a.setMatrix N).jac s = _ := h2
    unfold Config.withMethod at h1' h2'
    rw [h1', h2']
    dsimp only
    rw [logIf_off (st := { a with jac := j' }) hd,
      logIf_off (st := { a.setMatrix N with jac := { j' with matrix := N' } }) hd']
    dsimp only
    rcases r with e | _
    · exact .inr ⟨_, _, _, N', rfl, rfl⟩
    · obtain ⟨jm, ji, jc, ja⟩ := j'
      dsimp only [computeNext]
      rcases ji with _ | inv
      · exact .inl ⟨_, rfl, rfl⟩
      · exact .inr ⟨_, _, _, N', rfl, rfl⟩

end

section
open scoped Exact
variable {K : Type} [Field K] [LinearOrder K] {n : Nat} {EI EU S : Type}
variable {c : Config K n} {m : UserModel K n EI EU S} {u : UpdateMethod}

/-- The denominators of the update made from this solver state are not zero. -/
def Solver.Nondegenerate (u : UpdateMethod) (a : Solver K n) : Prop :=
  a.jac.computeNext = false → ∀ J H ds dy cur, a.jac.matrix = some J → a.jac.inverse = some H →
    a.itStep = some ds → a.resStep = some dy → a.resCur = some cur →
    Spec.denomJac u J H ds dy cur ≠ 0 ∧ Spec.denomInv u H ds dy cur ≠ 0

/-- The stored matrix and inverse belong together. -/
def Solver.Consistent (a : Solver K n) : Prop :=
  a.jac.computeNext = false → ∃ J H, a.jac.matrix = some J ∧ a.jac.inverse = some H ∧ J * H = 1

theorem computeStep_forms (hL : c.la.IsExact) {a : Solver K n} (hd : a.debug = false)
    (hok : a.Consistent) (hnd : a.Nondegenerate u) (N : Option (Mat K n)) (s : S) :
    MatrixSim (computeStep (c.withMethod (.QuasiNewton (.JacobianUpdate u))) m a s)
      (computeStep (c.withMethod (.QuasiNewton (.InverseJacobianUpdate u))) m (a.setMatrix N) s) := by
  by_cases hc : a.jac.computeNext = true
  · exact computeStep_pending hd hc N s
  have hc : a.jac.computeNext = false := by simpa using hc
  obtain ⟨db, ia, la, ⟨mm, mi, mc, ma⟩, xa, ya, za, va⟩ := a
  obtain rfl : db = false := hd
  obtain rfl : mc = false := hc
  obtain ⟨J, H, hJ, hH, hJH⟩ := hok rfl
  dsimp only at hJ hH
  subst hJ hH
  have hnd := hnd rfl J H
  simp only [computeStep, quasiNewtonStep, quasiNewtonJacobian, bind, Except.bind, pure, Except.pure,
    Config.withMethod, Solver.setMatrix, Bool.false_eq_true, if_false]
  match xa, ya, za with
  | none, _, _ => exact .inl ⟨_, rfl, rfl⟩
  | some _, none, _ => exact .inl ⟨_, rfl, rfl⟩
  | some _, some _, none => exact .inl ⟨_, rfl, rfl⟩
  | some ds, some dy, some cur =>
    obtain ⟨h1, h2⟩ := hnd ds dy cur rfl rfl rfl rfl rfl
    obtain ⟨J', H', hJH', e1, -⟩ := updates_agree (j := ⟨some J, some H, false, ma⟩) hL rfl rfl hJH u
      ds dy cur h1 h2
    have e2 := ex_approximateInvJacobian (j := ⟨N, some H, false, ma⟩) hL rfl u ds dy cur
    obtain ⟨J2, H2, hJH2, f1, f2⟩ := updates_agree (j := ⟨some J, some H, false, ma⟩) hL rfl rfl hJH u
      ds dy cur h1 h2
    have e3 := ex_approximateInvJacobian (j := ⟨some J, some H, false, ma⟩) hL rfl u ds dy cur
    rw [f2] at e3
    have e4 : approximateInvJacobian c.la ⟨N, some H, false, ma⟩ u ds dy cur =
        .ok ⟨none, some H2, false, true⟩ := by
      rw [e2]; rw [e3]; rfl
    dsimp only
    rw [f1, e4]
    exact .inr ⟨_, _, _, none, rfl, rfl⟩

theorem MatrixSim.bind {α β : Type} {x y : Except Panic (Solver K n × S × α)}
    {f g : Solver K n × S × α → Except Panic (Solver K n × S × β)} (h : MatrixSim x y)
    (hfg : ∀ a s r N, x = .ok (a, s, r) → MatrixSim (f (a, s, r)) (g (a.setMatrix N, s, r))) :
    MatrixSim (x >>= f) (y >>= g) := by
  rcases h with ⟨p, rfl, rfl⟩ | ⟨a, s, r, N, rfl, rfl⟩
  · exact .inl ⟨p, rfl, rfl⟩
  · exact hfg a s r N rfl

theorem iterate_forms (hL : c.la.IsExact) {a : Solver K n} (hd : a.debug = false)
    (hok : a.Consistent) (hnd : a.Nondegenerate u) (N : Option (Mat K n)) (s : S) :
    MatrixSim (iterate (c.withMethod (.QuasiNewton (.JacobianUpdate u))) m a s)
      (iterate (c.withMethod (.QuasiNewton (.InverseJacobianUpdate u))) m (a.setMatrix N) s) := by
  unfold iterate
  refine MatrixSim.bind (computeStep_forms (a := { a with iter := a.iter + 1 }) hL hd hok hnd N s) ?_
  intro a' s' r N' hx
  have hd' : a'.debug = false := by
    cases computeStep_outcome hx <;> exact hd
  rcases r with e | x
  · exact .inr ⟨_, _, _, N', rfl, rfl⟩
  · refine MatrixSim.bind ?_ ?_
    · rw [updateModel_matrix hd']
      rcases updateModel _ m x a' s' with p | ⟨a2, s2, r2⟩
      · exact .inl ⟨p, rfl, rfl⟩
      · exact .inr ⟨a2, s2, r2, N', rfl, rfl⟩
    · intro a2 s2 r2 N2 _
      rcases r2 with e | x
      · exact .inr ⟨_, _, _, N2, rfl, rfl⟩
      · exact .inr ⟨_, _, _, N2, rfl, rfl⟩

theorem iterate_consistent {a a' : Solver K n} {s s' : S} {e} (hL : c.la.IsExact)
    (h : iterate (c.withMethod (.QuasiNewton (.JacobianUpdate u))) m a s = .ok (a', s', .ok e)) :
    a'.Consistent ∧ a'.debug = a.debug := by
  cases iterate_outcome h with
  | step st1 s1 x st2 s2 e h1 h2 =>
    have hd1 : st1.debug = a.debug := by cases h1 <;> rfl
    have hs1 : st1.Consistent := by
      intro _
      have inv : ∀ {M inv : Mat K n}, c.la.inv M = some inv → M * inv = 1 := by
        intro M inv h
        obtain ⟨hdet, rfl⟩ := ex_inv hL h
        exact ex_mul_inv hdet
      cases h1 with
      | computed j l _ _ _ hj hx =>
        obtain ⟨M, i, -, hi, rfl⟩ := computed_success hj hx
        exact ⟨M, i, rfl, rfl, inv hi⟩
      | kept l _ hm => cases hm
      | updated u' ds dy cur j l _ hm hc g1 g2 g3 hj hx =>
        rcases approximateJacobian_ok hj with ⟨-, M, i, hi, rfl⟩ | ⟨h, -⟩
        · exact ⟨M, i, rfl, rfl, inv hi⟩
        · cases h
      | invUpdated u' ds dy cur j l _ hm => cases hm
    cases h2 with
    | plain s1 r v l he hu hd =>
      refine ⟨?_, ?_⟩
      · unfold Solver.Consistent
        rw [(storeSteps_fields ..).2.2.1]
        exact hs1
      · rw [(storeSteps_fields ..).2.2.2.2]
        exact hd1
    | refused s1 r v l he hu hd =>
      refine ⟨?_, ?_⟩
      · unfold Solver.Consistent
        rw [(storeSteps_fields ..).2.2.1]
        intro h; cases h
      · rw [(storeSteps_fields ..).2.2.2.2]
        exact hd1
    | damped s1 r v l s2 he hu hd =>
      refine ⟨?_, ?_⟩
      · unfold Solver.Consistent
        rw [(storeSteps_fields ..).2.2.1]
        exact hs1
      · rw [(storeSteps_fields ..).2.2.2.2]
        exact hd1

theorem loop_forms (hL : c.la.IsExact) : ∀ (fuel : Nat) {a : Solver K n} (s : S) (e : K)
    (N : Option (Mat K n)), a.debug = false → a.Consistent →
    (∀ a' s' e', Run (c.withMethod (.QuasiNewton (.JacobianUpdate u))) m a s e a' s' e' →
      a'.Nondegenerate u) →
    MatrixSim (loop (c.withMethod (.QuasiNewton (.JacobianUpdate u))) m fuel a s e)
      (loop (c.withMethod (.QuasiNewton (.InverseJacobianUpdate u))) m fuel (a.setMatrix N) s e) := by
  intro fuel
  induction fuel with
  | zero => intro a s e N hd hok hnd; exact .inr ⟨_, _, _, N, rfl, rfl⟩
  | succ fuel ih =>
    intro a s e N hd hok hnd
    unfold loop
    have hc : continues (c.withMethod (.QuasiNewton (.InverseJacobianUpdate u))) (a.setMatrix N) e =
      continues (c.withMethod (.QuasiNewton (.JacobianUpdate u))) a e := rfl
    rw [hc]
    split
    · rename_i hcont
      rcases hx : iterate_forms (m := m) hL hd hok (hnd _ _ _ (.done _ _ _)) N s with
        ⟨p, h1, h2⟩ | ⟨a', s', r, N', h1, h2⟩
      · rw [h1, h2]; exact .inl ⟨p, rfl, rfl⟩
      · rw [h1, h2]
        match r, h1 with
        | .error e, h1 => exact .inr ⟨_, _, _, N', rfl, rfl⟩
        | .ok e1, h1 =>
          obtain ⟨g1, g2⟩ := iterate_consistent hL h1
          exact ih s' e1 N' (g2.trans hd) g1 fun a2 s2 e2 hr => hnd _ _ _ (.pass hcont h1 hr)
    · exact .inr ⟨_, _, _, N, rfl, rfl⟩

end
end Nrf
