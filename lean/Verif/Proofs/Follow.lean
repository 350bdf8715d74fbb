import Verif.Proofs.Sim
import Verif.Proofs.FiniteDiff
import Verif.Spec.Function

/-!
# Following a solve of a model that computes a function
-/

set_option linter.unusedSectionVars false

namespace Nrf
open Spec

section
variable {F : Type} [Scalar F] {n : Nat} {EI EU S : Type}
variable {c : Config F n} {m : UserModel F n EI EU S}
variable {inv : S → Prop} {D : Vec F n → Prop} {f : Vec F n → ResidualsValues F n}

/-- If every pass entered in a state of `P k` ends in a state of `P (k + 1)`, the loop ends in a
state of `P k` after `k` passes. -/
theorem loop_follow (P : Nat → Solver F n → S → Prop)
    (hstep : ∀ k st s, P k st s → continues c st (amax (evaluateErrors c m s)) = true →
      ∃ st' s', iterate c m st s = .ok (st', s', .ok (amax (evaluateErrors c m s'))) ∧
        P (k + 1) st' s') :
    ∀ (fuel k : Nat) (st : Solver F n) (s : S), c.params.maxIter - st.iter = fuel → P k st s →
    ∃ j st' s', loop c m fuel st s (amax (evaluateErrors c m s)) =
        .ok (st', s', .ok (amax (evaluateErrors c m s'))) ∧ P (k + j) st' s' ∧
      continues c st' (amax (evaluateErrors c m s')) = false ∧ st'.iter = st.iter + j := by
  intro fuel
  induction fuel with
  | zero =>
    intro k st s hf hP
    refine ⟨0, st, s, rfl, hP, ?_, rfl⟩
    have : ¬ st.iter < c.params.maxIter := by omega
    simp [continues, this]
  | succ fuel ih =>
    intro k st s hf hP
    rw [loop.eq_2]
    by_cases hc : continues c st (amax (evaluateErrors c m s)) = true
    · rw [if_pos hc]
      obtain ⟨st1, s1, hi, hP1⟩ := hstep k st s hP hc
      have hit := iterate_iter hi
      obtain ⟨j, st', s', h1, h2, h3, h4⟩ := ih (k + 1) st1 s1 (by omega) hP1
      refine ⟨j + 1, st', s', ?_, ?_, h3, by omega⟩
      · rw [hi]; exact h1
      · rw [show k + (j + 1) = k + 1 + j by omega]; exact h2
    · rw [if_neg hc]
      exact ⟨0, st, s, rfl, hP, by simpa using hc, rfl⟩

/-- The same for the whole solve of a new solver. -/
theorem solve_follow (hf : Computes m inv D f) (P : Nat → Solver F n → S → Prop)
    (hstep : ∀ k st s, P k st s → continues c st (amax (evaluateErrors c m s)) = true →
      ∃ st' s', iterate c m st s = .ok (st', s', .ok (amax (evaluateErrors c m s'))) ∧
        P (k + 1) st' s')
    {s : S} (hs : inv s) (hg : D c.guess)
    (h0 : ∀ s0, At m inv f s0 c.guess → P 0 .new s0) :
    ∃ k st' s', solve c m .new s =
        .ok (st', s', finalResult c st' (amax (evaluateErrors c m s'))) ∧ P k st' s' ∧
      continues c st' (amax (evaluateErrors c m s')) = false ∧ st'.iter = k := by
  rcases he : m.evaluate (m.setIteratives s c.guess) with ⟨s0, r⟩
  have hok := hf.ok s _ hs hg
  rw [he] at hok
  have hok : r = .ok () := hok
  subst hok
  have hat : At m inv f s0 c.guess := by
    have h1 := hf.keeps s _ hs hg
    have h2 := hf.iteratives s _ hs hg
    have h3 := hf.residuals s _ hs hg
    rw [he] at h1 h2 h3
    exact ⟨h1, h2, h3⟩
  obtain ⟨j, st', s', h1, h2, h3, h4⟩ := loop_follow P hstep _ 0 .new s0 rfl (h0 s0 hat)
  refine ⟨j, st', s', ?_, by simpa using h2, h3, by simpa [Solver.new] using h4⟩
  rw [solve_finish rfl he .ok, h1]
  rfl

/-- As `loop_follow`, when a pass may also end the loop with an error described by `Q`. -/
theorem loop_follow_or (P : Nat → Solver F n → S → Prop)
    (Q : Nat → Solver F n → S → SolverError EI EU → Prop)
    (hstep : ∀ k st s, P k st s → continues c st (amax (evaluateErrors c m s)) = true →
      (∃ st' s', iterate c m st s = .ok (st', s', .ok (amax (evaluateErrors c m s'))) ∧
        P (k + 1) st' s') ∨
      ∃ st' s' e, iterate c m st s = .ok (st', s', .error e) ∧ Q k st' s' e) :
    ∀ (fuel k : Nat) (st : Solver F n) (s : S), c.params.maxIter - st.iter = fuel → P k st s →
    (∃ j st' s', loop c m fuel st s (amax (evaluateErrors c m s)) =
        .ok (st', s', .ok (amax (evaluateErrors c m s'))) ∧ P (k + j) st' s' ∧
      continues c st' (amax (evaluateErrors c m s')) = false ∧ st'.iter = st.iter + j) ∨
    ∃ j st' s' e, loop c m fuel st s (amax (evaluateErrors c m s)) = .ok (st', s', .error e) ∧
      Q (k + j) st' s' e := by
  intro fuel
  induction fuel with
  | zero =>
    intro k st s hf hP
    refine .inl ⟨0, st, s, rfl, hP, ?_, rfl⟩
    have : ¬ st.iter < c.params.maxIter := by omega
    simp [continues, this]
  | succ fuel ih =>
    intro k st s hf hP
    rw [loop.eq_2]
    by_cases hc : continues c st (amax (evaluateErrors c m s)) = true
    · rw [if_pos hc]
      rcases hstep k st s hP hc with ⟨st1, s1, hi, hP1⟩ | ⟨st1, s1, e, hi, hQ⟩
      · have hit := iterate_iter hi
        rcases ih (k + 1) st1 s1 (by omega) hP1 with ⟨j, st', s', h1, h2, h3, h4⟩ | ⟨j, st', s', e, h1, h2⟩
        · refine .inl ⟨j + 1, st', s', ?_, ?_, h3, by omega⟩
          · rw [hi]; exact h1
          · rw [show k + (j + 1) = k + 1 + j by omega]; exact h2
        · refine .inr ⟨j + 1, st', s', e, ?_, ?_⟩
          · rw [hi]; exact h1
          · rw [show k + (j + 1) = k + 1 + j by omega]; exact h2
      · exact .inr ⟨0, st1, s1, e, by rw [hi], hQ⟩
    · rw [if_neg hc]
      exact .inl ⟨0, st, s, rfl, hP, by simpa using hc, rfl⟩

theorem solve_follow_or (hf : Computes m inv D f) (P : Nat → Solver F n → S → Prop)
    (Q : Nat → Solver F n → S → SolverError EI EU → Prop)
    (hstep : ∀ k st s, P k st s → continues c st (amax (evaluateErrors c m s)) = true →
      (∃ st' s', iterate c m st s = .ok (st', s', .ok (amax (evaluateErrors c m s'))) ∧
        P (k + 1) st' s') ∨
      ∃ st' s' e, iterate c m st s = .ok (st', s', .error e) ∧ Q k st' s' e)
    {s : S} (hs : inv s) (hg : D c.guess)
    (h0 : ∀ s0, At m inv f s0 c.guess → P 0 .new s0) :
    (∃ k st' s', solve c m .new s =
        .ok (st', s', finalResult c st' (amax (evaluateErrors c m s'))) ∧ P k st' s' ∧
      continues c st' (amax (evaluateErrors c m s')) = false ∧ st'.iter = k) ∨
    ∃ k st' s' e, solve c m .new s = .ok (st', s', .error e) ∧ Q k st' s' e := by
  obtain ⟨s0, he, hat⟩ : ∃ s0, m.evaluate (m.setIteratives s c.guess) = (s0, .ok ()) ∧
      At m inv f s0 c.guess :=
    ⟨_, Prod.ext rfl (hf.ok s _ hs hg), ⟨hf.keeps s _ hs hg, hf.iteratives s _ hs hg, hf.residuals s _ hs hg⟩⟩
  rcases loop_follow_or P Q hstep _ 0 .new s0 rfl (h0 s0 hat) with
    ⟨j, st', s', h1, h2, h3, h4⟩ | ⟨j, st', s', e, h1, h2⟩
  · refine .inl ⟨j, st', s', ?_, by simpa using h2, h3, by simpa [Solver.new] using h4⟩
    rw [solve_finish rfl he .ok, h1]
    rfl
  · refine .inr ⟨j, st', s', e, ?_, by simpa using h2⟩
    rw [solve_finish rfl he .ok, h1]
    rfl

/-- The stopping errors at a point. -/
def errorsAt (c : Config F n) (f : Vec F n → ResidualsValues F n) (x : Vec F n) : Vec F n :=
  c.res.evaluateStopping (f x)

/-- The update residuals at a point. -/
def updateAt (c : Config F n) (f : Vec F n → ResidualsValues F n) (x : Vec F n) : Vec F n :=
  c.res.evaluateUpdate (f x)

theorem Spec.At.errors {s : S} {x : Vec F n} (h : At m inv f s x) :
    evaluateErrors c m s = errorsAt c f x := by
  unfold evaluateErrors errorsAt; rw [h.residuals]

theorem Spec.At.update {s : S} {x : Vec F n} (h : At m inv f s x) :
    c.res.evaluateUpdate (m.getResiduals s) = updateAt c f x := by
  unfold updateAt; rw [h.residuals]

theorem computes_at (hf : Computes m inv D f) {s : S} {x : Vec F n} (hs : inv s) (hx : D x) :
    ∃ s', m.evaluate (m.setIteratives s x) = (s', .ok ()) ∧ At m inv f s' x := by
  refine ⟨_, Prod.ext rfl (hf.ok s x hs hx), ⟨hf.keeps s x hs hx, hf.iteratives s x hs hx,
    hf.residuals s x hs hx⟩⟩

/-- Moving the model without damping taking place. -/
theorem updateModel_at (hf : Computes m inv D f) {st : Solver F n} (hd : st.debug = false) {s : S}
    {z x : Vec F n} (hs : At m inv f s z) (hx : D x)
    (hdamp : c.params.damping = true →
      Scalar.lt (amax (errorsAt c f z)) (amax (errorsAt c f x)) = false) :
    ∃ s', At m inv f s' x ∧ updateModel c m x st s =
      .ok (storeSteps c.params.method { st with valid := true } x z (errorsAt c f x) (errorsAt c f z),
        s', .ok (errorsAt c f x)) := by
  obtain ⟨s', he, hs'⟩ := computes_at hf hs.good hx
  refine ⟨s', hs', ?_⟩
  rw [updateModel_usable he .ok, hs.errors, hs.iteratives]
  have hfin : finishUpdate c m (errorsAt c f z) z x { st with valid := true } s' =
      .ok (storeSteps c.params.method { st with valid := true } x z (errorsAt c f x)
        (errorsAt c f z), s', errorsAt c f x) := by
    simp only [finishUpdate, Solver.logIf, hd, bind, Except.bind, pure, Except.pure, hs'.errors,
      Bool.false_eq_true, if_false, hs'.iteratives]
    by_cases hdm : c.params.damping = true
    · simp only [hdm, if_true, dampingStep, hdamp hdm, Bool.false_eq_true, if_false, hs'.iteratives]
    · simp only [hdm, Bool.false_eq_true, if_false, hs'.iteratives]
  rw [hfin]

/-- The analytic matrix of the update residuals. -/
def analyticAt (c : Config F n) (f : Vec F n → ResidualsValues F n) (g : Vec F n → JacobianValues F n)
    (x : Vec F n) : Mat F n := (g x).normalize (f x) c.res.upd

theorem computeJac_analytic {g : Vec F n → JacobianValues F n} (hg : Differentiates m inv f g)
    {s : S} {x : Vec F n} (hs : At m inv f s x) (j : JacobianMatrix F n) {H : Mat F n}
    (hH : c.la.inv (analyticAt c f g x) = some H) :
    ∃ s', At m inv f s' x ∧ computeJac c m j s =
      .ok (⟨some (analyticAt c f g x), some H, false, false⟩, s', .ok ()) := by
  have h2 := hg.ok s x hs
  have h3 := hg.stays s x hs
  rcases he : m.getJacobian s with ⟨s', r⟩
  rw [he] at h2 h3
  have h2 : r = .ok (g x) := h2
  subst h2
  refine ⟨s', h3, ?_⟩
  have hH' : c.la.inv ((g x).normalize (f x) c.res.upd) = some H := hH
  simp only [computeJac, hg.provided s hs.good, if_true, analyticJacobian, he, hs.residuals,
    JacobianMatrix.updateExact, JacobianMatrix.update, hH']
  rfl

theorem computeJac_analytic_singular {g : Vec F n → JacobianValues F n}
    (hg : Differentiates m inv f g) {s : S} {x : Vec F n} (hs : At m inv f s x)
    (j : JacobianMatrix F n) (hH : c.la.inv (analyticAt c f g x) = none) :
    ∃ j' s', At m inv f s' x ∧ computeJac c m j s = .ok (j', s', .error .invalidJacobianInverse) := by
  have h2 := hg.ok s x hs
  have h3 := hg.stays s x hs
  rcases he : m.getJacobian s with ⟨s', r⟩
  rw [he] at h2 h3
  have h2 : r = .ok (g x) := h2
  subst h2
  refine ⟨({ j with approximated := false } : JacobianMatrix F n).invalidate, s', h3, ?_⟩
  have hH' : c.la.inv ((g x).normalize (f x) c.res.upd) = none := hH
  simp only [computeJac, hg.provided s hs.good, if_true, analyticJacobian, he, hs.residuals,
    JacobianMatrix.updateExact, JacobianMatrix.update, hH']

/-- The finite-difference matrix of the update residuals. -/
def differencesAt (c : Config F n) (f : Vec F n → ResidualsValues F n) (pert : Vec F n)
    (x : Vec F n) : Mat F n :=
  fun row col => (updateAt c f (moved x col (pert col)) row -ᶠ updateAt c f x row) /ᶠ pert col

theorem fdLoop_at (hf : Computes m inv D f) (hu : Underived m inv f) (pert x : Vec F n)
    (mem : List F) (hD : ∀ i, D (moved x i (pert i))) :
    ∀ (k i : Nat) (J : Mat F n) (s : S), i + k = n → inv s →
      ∃ s' J', fdLoop c.res m pert mem x (updateAt c f x) k i J s = .ok (s', .ok J') ∧
        (∀ row col, J' row col = if i ≤ col.1 then differencesAt c f pert x row col else J row col) ∧
        (k = 0 → s' = s) ∧
        (k ≠ 0 → ∃ last : Fin n, last.1 + 1 = n ∧ At m inv f s' (moved x last (pert last))) := by
  intro k
  induction k with
  | zero =>
    intro i J s hik _
    refine ⟨s, J, rfl, fun row col => ?_, fun _ => rfl, fun h => absurd rfl h⟩
    rw [if_neg (by omega)]
  | succ k ih =>
    intro i J s hik hs
    have hi : i < n := by omega
    obtain ⟨s1, he, hs1⟩ := computes_at hf hs (hD ⟨i, hi⟩)
    have hs2 := hu.stays s1 _ mem hs1
    obtain ⟨s', J', h1, h2, h3, h4⟩ := ih (i + 1)
      (setColumn J ⟨i, hi⟩ (vdiv (vsub (updateAt c f (moved x ⟨i, hi⟩ (pert ⟨i, hi⟩)))
        (updateAt c f x)) (pert ⟨i, hi⟩))) (m.setMemory s1 mem) (by omega) hs2.good
    refine ⟨s', J', ?_, fun row col => ?_, fun h => absurd h (by omega), fun _ => ?_⟩
    · unfold fdLoop
      rw [dif_pos hi]
      have e : (fun l => if l = (⟨i, hi⟩ : Fin n) then x ⟨i, hi⟩ +ᶠ pert ⟨i, hi⟩ else x l) =
          moved x ⟨i, hi⟩ (pert ⟨i, hi⟩) := rfl
      dsimp only
      rw [e, he]
      dsimp only
      rw [hs1.update]
      exact h1
    · rw [h2]
      by_cases hcol : col.1 = i
      · have : col = ⟨i, hi⟩ := Fin.ext hcol
        subst this
        rw [if_neg (by simp), if_pos (by simp)]
        simp only [setColumn, if_true]
        rfl
      · have hne : col ≠ ⟨i, hi⟩ := fun h => hcol (congrArg Fin.val h)
        by_cases hin : i + 1 ≤ col.1
        · rw [if_pos hin, if_pos (by omega)]
        · rw [if_neg hin, if_neg (by omega)]
          simp [setColumn, hne]
    · by_cases hk : k = 0
      · subst hk
        refine ⟨⟨i, hi⟩, by simpa using hik, ?_⟩
        rw [h3 rfl]; exact hs2
      · exact h4 hk

theorem computeJac_fd (hf : Computes m inv D f) (hu : Underived m inv f) {s : S} {x pert : Vec F n}
    (hs : At m inv f s x) (hp : computePerturbations c.iters x = some pert)
    (hD : ∀ i, D (moved x i (pert i))) (j : JacobianMatrix F n) {H : Mat F n}
    (hH : c.la.inv (differencesAt c f pert x) = some H) :
    ∃ s' z, At m inv f s' z ∧
      (z = x ∧ n = 0 ∨ ∃ last : Fin n, last.1 + 1 = n ∧ z = moved x last (pert last)) ∧
      computeJac c m j s =
        .ok (⟨some (differencesAt c f pert x), some H, false, false⟩, s', .ok ()) := by
  obtain ⟨s', J', h1, h2, h3, h4⟩ := fdLoop_at (c := c) hf hu pert x (m.getMemory s) hD n 0 mzero s
    (by omega) hs.good
  have hJ : J' = differencesAt c f pert x := by
    ext row col; rw [h2, if_pos (by omega)]
  subst hJ
  have hfd : fdCompute c.res m pert s = .ok (s', .ok (differencesAt c f pert x)) := by
    unfold fdCompute
    rw [hu.len s hs.good, hs.iteratives, hs.update]
    exact h1
  have hjac : computeJac c m j s =
      .ok (⟨some (differencesAt c f pert x), some H, false, false⟩, s', .ok ()) := by
    simp only [computeJac, hu.provided s hs.good, Bool.false_eq_true, if_false, fdJacobian,
      hs.iteratives, hp, hfd, JacobianMatrix.updateExact, JacobianMatrix.update, hH]
  by_cases hn : n = 0
  · exact ⟨s', x, by rw [h3 hn]; exact hs, .inl ⟨rfl, hn⟩, hjac⟩
  · obtain ⟨last, hl, hat⟩ := h4 hn
    exact ⟨s', _, hat, .inr ⟨last, hl, rfl⟩, hjac⟩

theorem computeJac_fd_singular (hf : Computes m inv D f) (hu : Underived m inv f) {s : S}
    {x pert : Vec F n}
    (hs : At m inv f s x) (hp : computePerturbations c.iters x = some pert)
    (hD : ∀ i, D (moved x i (pert i))) (j : JacobianMatrix F n)
    (hH : c.la.inv (differencesAt c f pert x) = none) :
    ∃ j' s', inv s' ∧ computeJac c m j s = .ok (j', s', .error .invalidJacobianInverse) := by
  obtain ⟨s', J', h1, h2, h3, h4⟩ := fdLoop_at (c := c) hf hu pert x (m.getMemory s) hD n 0 mzero s
    (by omega) hs.good
  have hJ : J' = differencesAt c f pert x := by
    ext row col; rw [h2, if_pos (by omega)]
  subst hJ
  have hfd : fdCompute c.res m pert s = .ok (s', .ok (differencesAt c f pert x)) := by
    unfold fdCompute
    rw [hu.len s hs.good, hs.iteratives, hs.update]
    exact h1
  have hjac : computeJac c m j s =
      .ok (({ j with approximated := false } : JacobianMatrix F n).invalidate, s',
        .error .invalidJacobianInverse) := by
    simp only [computeJac, hu.provided s hs.good, Bool.false_eq_true, if_false, fdJacobian,
      hs.iteratives, hp, hfd, JacobianMatrix.updateExact, JacobianMatrix.update, hH]
  refine ⟨_, s', ?_, hjac⟩
  by_cases hn : n = 0
  · rw [h3 hn]; exact hs.good
  · exact (h4 hn).choose_spec.2.good

/-- A step whose Jacobian is computed. -/
theorem computeStep_computed {st : Solver F n} (hd : st.debug = false)
    (hm : c.params.method = .NewtonRaphson ∨ st.jac.computeNext = true) {s s' : S} {z : Vec F n}
    (hs' : At m inv f s' z) {J H : Mat F n}
    (hj : computeJac c m st.jac s = .ok (⟨some J, some H, false, false⟩, s', .ok ())) :
    computeStep c m st s = .ok ({ st with jac := ⟨some J, some H, false, false⟩ }, s',
      .ok (stepLimitations c.iters z (mulVec c.la (mneg H) (updateAt c f z)))) := by
  obtain ⟨debug, iter, log, jac, itStep, resStep, resCur, valid⟩ := st
  have hd : debug = false := hd
  subst hd
  have hnext : computeNext c m ⟨false, iter, log, ⟨some J, some H, false, false⟩, itStep, resStep, resCur, valid⟩ s' =
      .ok (stepLimitations c.iters z (mulVec c.la (mneg H) (updateAt c f z))) := by
    simp only [computeNext, hs'.update, hs'.iteratives]
  unfold computeStep
  split
  · simp only [newtonRaphsonStep, bind, Except.bind, pure, Except.pure, hj, Solver.logIf,
      Bool.false_eq_true, if_false, hnext]
  · rename_i q hq
    have hcn : jac.computeNext = true := by
      rcases hm with h | h
      · rw [hq] at h; cases h
      · exact h
    simp only [quasiNewtonStep, quasiNewtonJacobian, hcn, if_true, bind, Except.bind, pure,
      Except.pure, hj, Solver.logIf, Bool.false_eq_true, if_false, hnext]

/-- A step whose Jacobian is singular. -/
theorem computeStep_singular {st : Solver F n} (hd : st.debug = false)
    (hm : c.params.method = .NewtonRaphson ∨ st.jac.computeNext = true) {s s' : S} {j e}
    (hj : computeJac c m st.jac s = .ok (j, s', .error e)) :
    computeStep c m st s = .ok ({ st with jac := j }, s', .error e) := by
  obtain ⟨debug, iter, log, jac, itStep, resStep, resCur, valid⟩ := st
  have hd : debug = false := hd
  subst hd
  unfold computeStep
  split
  · simp only [newtonRaphsonStep, bind, Except.bind, pure, Except.pure, hj, Solver.logIf,
      Bool.false_eq_true, if_false]
  · rename_i q hq
    have hcn : jac.computeNext = true := by
      rcases hm with h | h
      · rw [hq] at h; cases h
      · exact h
    simp only [quasiNewtonStep, quasiNewtonJacobian, hcn, if_true, bind, Except.bind, pure,
      Except.pure, hj, Solver.logIf, Bool.false_eq_true, if_false]

/-- A step of stationary Newton with the kept Jacobian. -/
theorem computeStep_kept {st : Solver F n} (hd : st.debug = false)
    (hm : c.params.method = .QuasiNewton .StationaryNewton) (hcn : st.jac.computeNext = false)
    {s : S} {x : Vec F n} (hs : At m inv f s x) {H : Mat F n} (hH : st.jac.inverse = some H) :
    computeStep c m st s = .ok (st, s,
      .ok (stepLimitations c.iters x (mulVec c.la (mneg H) (updateAt c f x)))) := by
  obtain ⟨debug, iter, log, jac, itStep, resStep, resCur, valid⟩ := st
  have hd : debug = false := hd
  subst hd
  have hnext : computeNext c m ⟨false, iter, log, jac, itStep, resStep, resCur, valid⟩ s =
      .ok (stepLimitations c.iters x (mulVec c.la (mneg H) (updateAt c f x))) := by
    simp only [computeNext, hs.update, hs.iteratives, show jac.inverse = some H from hH]
  unfold computeStep
  rw [hm]
  simp only [quasiNewtonStep, quasiNewtonJacobian, show jac.computeNext = false from hcn, Bool.false_eq_true, if_false, bind,
    Except.bind, pure, Except.pure, Solver.logIf, hnext]

/-- A step after an update of the Jacobian. -/
theorem computeStep_updated {st : Solver F n} (hd : st.debug = false) {u : UpdateMethod}
    (hm : c.params.method = .QuasiNewton (.JacobianUpdate u)) (hcn : st.jac.computeNext = false)
    {s : S} {x : Vec F n} (hs : At m inv f s x) {ds dy cur : Vec F n} (h1 : st.itStep = some ds)
    (h2 : st.resStep = some dy) (h3 : st.resCur = some cur) {j : JacobianMatrix F n}
    (hj : approximateJacobian c.la st.jac u ds dy cur = .ok (j, true)) {H : Mat F n}
    (hH : j.inverse = some H) :
    computeStep c m st s = .ok ({ st with jac := j }, s,
      .ok (stepLimitations c.iters x (mulVec c.la (mneg H) (updateAt c f x)))) := by
  obtain ⟨debug, iter, log, jac, itStep, resStep, resCur, valid⟩ := st
  have hd : debug = false := hd
  subst hd
  have h1 : itStep = some ds := h1
  have h2 : resStep = some dy := h2
  have h3 : resCur = some cur := h3
  subst h1 h2 h3
  have hj : approximateJacobian c.la jac u ds dy cur = .ok (j, true) := hj
  have hnext : computeNext c m ⟨false, iter, log, j, some ds, some dy, some cur, valid⟩ s =
      .ok (stepLimitations c.iters x (mulVec c.la (mneg H) (updateAt c f x))) := by
    simp only [computeNext, hs.update, hs.iteratives, hH]
  unfold computeStep
  rw [hm]
  simp only [quasiNewtonStep, quasiNewtonJacobian, show jac.computeNext = false from hcn,
    Bool.false_eq_true, if_false, bind, Except.bind, pure, Except.pure, hj, if_true, Solver.logIf, hnext]

/-- A step after an update of the inverse. -/
theorem computeStep_invUpdated {st : Solver F n} (hd : st.debug = false) {u : UpdateMethod}
    (hm : c.params.method = .QuasiNewton (.InverseJacobianUpdate u)) (hcn : st.jac.computeNext = false)
    {s : S} {x : Vec F n} (hs : At m inv f s x) {ds dy cur : Vec F n} (h1 : st.itStep = some ds)
    (h2 : st.resStep = some dy) (h3 : st.resCur = some cur) {j : JacobianMatrix F n}
    (hj : approximateInvJacobian c.la st.jac u ds dy cur = .ok j) {H : Mat F n}
    (hH : j.inverse = some H) :
    computeStep c m st s = .ok ({ st with jac := j }, s,
      .ok (stepLimitations c.iters x (mulVec c.la (mneg H) (updateAt c f x)))) := by
  obtain ⟨debug, iter, log, jac, itStep, resStep, resCur, valid⟩ := st
  have hd : debug = false := hd
  subst hd
  have h1 : itStep = some ds := h1
  have h2 : resStep = some dy := h2
  have h3 : resCur = some cur := h3
  subst h1 h2 h3
  have hj : approximateInvJacobian c.la jac u ds dy cur = .ok j := hj
  have hnext : computeNext c m ⟨false, iter, log, j, some ds, some dy, some cur, valid⟩ s =
      .ok (stepLimitations c.iters x (mulVec c.la (mneg H) (updateAt c f x))) := by
    simp only [computeNext, hs.update, hs.iteratives, hH]
  unfold computeStep
  rw [hm]
  simp only [quasiNewtonStep, quasiNewtonJacobian, show jac.computeNext = false from hcn,
    Bool.false_eq_true, if_false, bind, Except.bind, pure, Except.pure, hj, Solver.logIf, hnext]

/-- A pass made of a computed step and an undamped move. -/
theorem iterate_at (hf : Computes m inv D f) {st st1 : Solver F n} {s s1 : S} {z x : Vec F n}
    (hstep : computeStep c m { st with iter := st.iter + 1 } s = .ok (st1, s1, .ok x))
    (hd : st1.debug = false) (hs1 : At m inv f s1 z) (hx : D x)
    (hdamp : c.params.damping = true →
      Scalar.lt (amax (errorsAt c f z)) (amax (errorsAt c f x)) = false) :
    ∃ s', At m inv f s' x ∧ iterate c m st s =
      .ok (storeSteps c.params.method { st1 with valid := true } x z (errorsAt c f x) (errorsAt c f z),
        s', .ok (amax (errorsAt c f x))) := by
  obtain ⟨s', hs', hu⟩ := updateModel_at hf hd hs1 hx hdamp
  refine ⟨s', hs', ?_⟩
  simp only [iterate, bind, Except.bind, pure, Except.pure, hstep, hu]

/-- A pass whose Jacobian is singular. -/
theorem iterate_singular {st st1 : Solver F n} {s s1 : S} {e}
    (hstep : computeStep c m { st with iter := st.iter + 1 } s = .ok (st1, s1, .error e)) :
    iterate c m st s = .ok (st1, s1, .error (.jacobian e)) := by
  simp only [iterate, bind, Except.bind, pure, Except.pure, hstep]

end
end Nrf
