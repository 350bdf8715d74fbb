import Verif.Proofs.FollowExact
import Verif.Props.C75
import Verif.Props.C80
import Verif.Spec.Demo
import Verif.Model.Binary64
import Verif.Proofs.Float
import Verif.Proofs.FloatArith

/-!
# C91: a singular Jacobian is reported
-/

set_option linter.unusedSectionVars false

namespace Nrf
open Spec

section
variable {F : Type} [Scalar F] {n : Nat} {EI EU S : Type}
variable {c : Config F n} {m : UserModel F n EI EU S}

/-- The loop goes through every run of passes. -/
theorem loop_run {st st1 : Solver F n} {s s1 : S} {e e1 : F} (hr : Run c m st s e st1 s1 e1) :
    loop c m (c.params.maxIter - st.iter) st s e = loop c m (c.params.maxIter - st1.iter) st1 s1 e1 := by
  induction hr with
  | done => rfl
  | pass hc hi _ ih => rw [loop_eq, if_pos hc, hi]; exact ih

/-- A pass that fails ends the solve. -/
theorem solve_run_failed {st st1 st2 : Solver F n} {s s0 s1 s2 : S} {r v} {e1 : F} {err}
    (hd : st.debug = false) (he : m.evaluate (m.setIteratives s c.guess) = (s0, r)) (hu : Usable r v)
    (hr : Run c m st s0 (amax (evaluateErrors c m s0)) st1 s1 e1) (hc : continues c st1 e1 = true)
    (hi : iterate c m st1 s1 = .ok (st2, s2, .error err)) :
    solve c m st s = .ok (st2, s2, .error err) := by
  rw [solve_usable he hu, solveFrom_noDebug hd, loop_run hr, loop_eq, if_pos hc, hi]

theorem computeJac_singular {s s' : S} {M : Mat F n} (hM : Computed c m s s' M) (hi : c.la.inv M = none)
    (j : JacobianMatrix F n) : ∃ j', computeJac c m j s = .ok (j', s', .error .invalidJacobianInverse) := by
  refine ⟨({ j with approximated := false } : JacobianMatrix F n).invalidate, ?_⟩
  cases hM with
  | analytic v hp hg hM =>
    subst hM
    simp only [computeJac, hp, if_true, analyticJacobian, hg, JacobianMatrix.updateExact, JacobianMatrix.update, hi]
  | fd pert hp hpert hM =>
    simp only [computeJac, hp, Bool.false_eq_true, if_false, fdJacobian, hpert, hM, JacobianMatrix.updateExact,
      JacobianMatrix.update, hi]

end

/-- `A` sends a vector other than zero to zero. -/
def Spec.Singular {K : Type} [Field K] {n : Nat} (A : Matrix (Fin n) (Fin n) K) : Prop :=
  ∃ v, v ≠ 0 ∧ A.mulVec v = 0

section
variable {K : Type} [Field K] [LinearOrder K] [IsStrictOrderedRing K] {n : Nat} {EI EU S : Type}
open scoped Exact

theorem exact_inv_none {L : LinAlg K n} (hL : L.IsExact) (A : Mat K n) : L.inv A = none ↔ Spec.Singular A := by
  unfold Spec.Singular
  rw [Matrix.exists_mulVec_eq_zero_iff]
  constructor
  · intro h
    by_contra hd
    rw [hL.inv_some A hd] at h
    cases h
  · exact hL.inv_none A

theorem run_debug {c : Config K n} {m : UserModel K n EI EU S} {st st' : Solver K n} {s s' : S} {e e' : K}
    (hr : Run c m st s e st' s' e') : st'.debug = st.debug := by
  refine hr.invariant (P := fun st1 _ _ => st1.debug = st.debug) ?_ rfl
  intro st1 s1 e1 st2 s2 e2 h _ hi
  rw [← h]
  cases iterate_outcome hi with
  | step st3 s3 x st4 s4 e h1 h2 =>
    have a : st2.debug = st3.debug := by cases h2 <;> simp [(storeSteps_fields ..).2.2.2.2]
    have b : st3.debug = st1.debug := by cases h1 <;> rfl
    rw [a, b]

/-- Exact arithmetic: when a pass of the loop computes a matrix that is singular, the solve ends there with the error of a
Jacobian that is not invertible.  This holds for every model, every pass of Newton-Raphson, and every pass of the other methods
at which the Jacobian is computed. -/
theorem C91_detected_partial (c : Config K n) (m : UserModel K n EI EU S) (hL : c.la.IsExact) (st st1 : Solver K n)
    (s s0 s1 s2 : S) (r : Except (ModelError EI EU) Unit) (v : Bool) (e1 : K) (M : Mat K n) (hd : st.debug = false)
    (he : m.evaluate (m.setIteratives s c.guess) = (s0, r)) (hu : Usable r v)
    (hr : Run c m st s0 (amax (evaluateErrors c m s0)) st1 s1 e1)
    (hc : c.params.tolerance < e1 ∧ st1.iter < c.params.maxIter)
    (hm : c.params.method = .NewtonRaphson ∨ st1.jac.computeNext = true)
    (hM : Computed c m s1 s2 M) (hs : Spec.Singular M) :
    ∃ st2, solve c m st s = .ok (st2, s2, .error (.jacobian .invalidJacobianInverse)) := by
  obtain ⟨j', hj⟩ := computeJac_singular hM ((exact_inv_none hL M).2 hs) st1.jac
  refine ⟨{ ({ st1 with iter := st1.iter + 1 } : Solver K n) with jac := j' }, ?_⟩
  refine solve_run_failed hd he hu hr ?_ (iterate_singular (computeStep_singular (st := { st1 with iter := st1.iter + 1 })
    ((run_debug hr).trans hd) hm hj))
  simp only [continues, Bool.and_eq_true, decide_eq_true_eq]
  exact ⟨(ex_lt _ _).2 hc.1, hc.2⟩

theorem update_failed {L : LinAlg K n} {j j' : JacobianMatrix K n} {M : Mat K n}
    (h : j.updateApproximated L M = (j', false)) : L.inv M = none := by
  unfold JacobianMatrix.updateApproximated JacobianMatrix.update at h
  split at h
  · cases h
  · assumption

/-- A pass that ends with the error of a Jacobian that is not invertible. -/
theorem iterate_singular_reason {c : Config K n} {m : UserModel K n EI EU S} (hL : c.la.IsExact) {st1 st2 : Solver K n}
    {s1 s2 : S} (hi : iterate c m st1 s1 = .ok (st2, s2, .error (.jacobian .invalidJacobianInverse))) :
    ∃ M : Mat K n, Spec.Singular M ∧
      ((c.params.method = .NewtonRaphson ∨ st1.jac.computeNext = true) ∧ Computed c m s1 s2 M ∨
        s2 = s1 ∧ ∃ (u : UpdateMethod) (J : Mat K n) (a b : Vec K n),
          c.params.method = .QuasiNewton (.JacobianUpdate u) ∧ st1.jac.matrix = some J ∧
          M = J + Matrix.vecMulVec a b) := by
  have hi' := iterate_outcome hi
  clear hi
  generalize hr : (Except.error (SolverError.jacobian .invalidJacobianInverse) : Except (SolverError EI EU) K) = r at hi'
  cases hi' with
  | step => cases hr
  | evalFailed st3 s3 x st4 s4 e h1 h2 =>
    cases h2
    cases hr
  | jacFailed st3 s3 e h1 =>
    cases hr
    cases h1 with
    | computeFailed j l s' e hm hj =>
      cases computeJac_outcome hj with
      | singular s' M hM hi => exact ⟨M, (exact_inv_none hL M).1 hi, .inl ⟨hm, hM⟩⟩
    | updateFailed u ds dy cur j hm hc h1 h2 h3 hj =>
      suffices ∃ (J M : Mat K n) (a b : Vec K n), st1.jac.matrix = some J ∧ M = J + Matrix.vecMulVec a b ∧
          st1.jac.updateApproximated c.la M = (j, false) by
        obtain ⟨J, M, a, b, hJ, hM, hup⟩ := this
        exact ⟨M, (exact_inv_none hL M).1 (update_failed hup), .inr ⟨rfl, u, J, a, b, hm, hJ, hM⟩⟩
      unfold approximateJacobian at hj
      have rk : ∀ (J : Mat K n) (k : K) (a b : Vec K n),
          J - k⁻¹ • Matrix.vecMulVec a b = J + Matrix.vecMulVec (-k⁻¹ • a) b := by
        intro J k a b
        ext i j
        simp [Matrix.vecMulVec_apply]
        ring
      have rm : ∀ (a b : Vec K n) (J : Mat K n), Matrix.vecMulVec a b * J = Matrix.vecMulVec a (Matrix.vecMul b J) := by
        intro a b J
        ext i j
        simp [Matrix.mul_apply, Matrix.vecMulVec_apply, Matrix.vecMul, dotProduct, Finset.mul_sum, mul_assoc]
      cases u <;> dsimp only at hj
      · split at hj
        · cases hj
        · rename_i J hJ
          refine ⟨J, _, ?_, ?_, hJ, ?_, Except.ok.inj hj⟩
          pick_goal 3
          unfold broydenFirstJac
          rw [ex_msub, ex_mdiv, ex_outer]
          exact rk _ _ _ _
      · split at hj
        · cases hj
        · rename_i J hJ
          refine ⟨J, _, ?_, ?_, hJ, ?_, Except.ok.inj hj⟩
          pick_goal 3
          unfold broydenSecondJac
          rw [ex_msub, ex_mdiv, ex_outer, ex_matMul hL, rm]
          exact rk _ _ _ _
      · split at hj
        · cases hj
        · rename_i J hJ
          refine ⟨J, _, ?_, ?_, hJ, ?_, Except.ok.inj hj⟩
          pick_goal 3
          unfold quasiJac
          rw [ex_msub, ex_mdiv, ex_outer, ex_matMul hL, rm]
          exact rk _ _ _ _
      · split at hj
        · cases hj
        · split at hj
          · cases hj
          · rename_i J hJ
            refine ⟨J, _, ?_, ?_, hJ, ?_, Except.ok.inj hj⟩
            pick_goal 3
            unfold greenstadtSecondJac
            rw [ex_msub, ex_mdiv, ex_outer]
            exact rk _ _ _ _

/-- Exact arithmetic: a solve ends with the error of a Jacobian that is not invertible only when the passes lead to a point
where the loop goes on and where the matrix computed from the model or (for the methods that update the Jacobian) the kept
matrix plus a matrix of rank one is singular. -/
theorem C91_reported_partial (c : Config K n) (m : UserModel K n EI EU S) (hL : c.la.IsExact) (st st' : Solver K n)
    (s s' : S) (h : solve c m st s = .ok (st', s', .error (.jacobian .invalidJacobianInverse))) :
    ∃ (s0 : S) (r : Except (ModelError EI EU) Unit) (v : Bool) (l : Option (List (LogEntry K n))) (st1 : Solver K n) (s1 : S)
      (e1 : K) (M : Mat K n),
      m.evaluate (m.setIteratives s c.guess) = (s0, r) ∧ Usable r v ∧
      Run c m { st with log := l } s0 (amax (evaluateErrors c m s0)) st1 s1 e1 ∧
      c.params.tolerance < e1 ∧ st1.iter < c.params.maxIter ∧ Spec.Singular M ∧
      ((c.params.method = .NewtonRaphson ∨ st1.jac.computeNext = true) ∧ Computed c m s1 s' M ∨
        s' = s1 ∧ ∃ (u : UpdateMethod) (J : Mat K n) (a b : Vec K n),
          c.params.method = .QuasiNewton (.JacobianUpdate u) ∧ st1.jac.matrix = some J ∧
          M = J + Matrix.vecMulVec a b) := by
  have hs := solve_outcome h
  generalize hr : (Except.error (SolverError.jacobian .invalidJacobianInverse) : Except (SolverError EI EU) Unit) = r at hs
  cases hs with
  | initFailed he => cases hr
  | finished he hu hl =>
    unfold finalResult at hr
    split_ifs at hr <;> cases hr
  | failed he hu hl =>
    cases hr
    cases hl with
    | failed hr hc hi =>
      obtain ⟨M, h1, h2⟩ := iterate_singular_reason hL hi
      simp only [continues, Bool.and_eq_true, decide_eq_true_eq] at hc
      exact ⟨_, _, _, _, _, _, _, M, he, hu, hr, (ex_lt _ _).1 hc.1, hc.2, h1, h2⟩

/-- Exact arithmetic: equations whose Jacobian is singular at the guess, for example linear equations with a singular matrix.
With every method, limits and damping, a new solver returns the error of a Jacobian that is not invertible, unless the guess is
within the tolerance or no iteration is allowed. -/
theorem C91_guess_partial (f : Vec K n → Vec K n) (jac : Vec K n → Mat K n) (c : Config K n) (hL : c.la.IsExact)
    (hupd : ∀ i, c.res.upd i = .Abs) (s : AdapterState K n) (i : Fin n)
    (hi : c.params.tolerance < |Spec.residual (c.res.stop i) (f c.guess i) (s.right i)|) (hmax : 1 ≤ c.params.maxIter)
    (hs : Spec.Singular (jac c.guess)) :
    ∃ st' s', solve c (fromFunctionAndJacobian f jac) .new s =
      .ok (st', s', .error (.jacobian .invalidJacobianInverse)) ∧ s'.inputs = c.guess := by
  have hcomp : Computed c (fromFunctionAndJacobian f jac) { s with inputs := c.guess, left := f c.guess }
      { s with inputs := c.guess, left := f c.guess } (jac c.guess) := by
    refine .analytic ⟨jac c.guess, mzero⟩ rfl rfl ?_
    ext a b
    change jac c.guess a b = derivNormalization _ _ (jac c.guess a b) ((mzero : Mat K n) a b) (c.res.upd a)
    rw [hupd, ex_mzero]
    change _ = jac c.guess a b - 0
    rw [sub_zero]
  have hlt : c.params.tolerance <
      amax (evaluateErrors c (fromFunctionAndJacobian f jac) { s with inputs := c.guess, left := f c.guess }) := by
    refine lt_of_lt_of_le hi (le_trans (le_of_eq ?_) (abs_le_amax _ i))
    rw [← abs_abs]
    exact congrArg abs (evaluateStopping_exact c.res ⟨f c.guess, s.right⟩ i).symm
  obtain ⟨st', h⟩ := C91_detected_partial c (fromFunctionAndJacobian f jac) hL .new .new s
    { s with inputs := c.guess, left := f c.guess } _ _ (.ok ()) true _ (jac c.guess) rfl rfl .ok (.done _ _ _)
    ⟨hlt, hmax⟩ (.inr rfl) hcomp hs
  exact ⟨st', _, h, rfl⟩

end

theorem fl_isZero {K : Type} [Field K] [LinearOrder K] [IsStrictOrderedRing K] [Rounding K] (x : Fl K) :
    isZero x = true ↔ ∃ b, x = .zero b := by
  change (Fl.leb x (.zero false) && Fl.leb (.zero false) x) = true ↔ _
  rcases x with _ | b | b | ⟨x, hx⟩
  · simp [Fl.leb]
  · cases b <;> simp [Fl.leb]
  · simp [Fl.leb]
  · simp only [Fl.leb, Bool.and_eq_true, decide_eq_true_eq, reduceCtorEq, exists_false, iff_false]
    rintro ⟨h1, h2⟩
    exact lt_asymm h1 h2

/-- Binary64: a 1x1 matrix is reported as singular exactly when it is zero. -/
theorem C91_scalar (M : Mat F64 1) : (nalgebraLinAlg F64 1).inv M = none ↔ ∃ b, M 0 0 = .zero b := by
  rw [← fl_isZero]
  change luInverse M = none ↔ _
  have h1 : (lu M).1 0 0 = M 0 0 := by
    simp only [lu, List.finRange_succ, List.finRange_zero, List.map_nil, List.foldl_cons, List.foldl_nil, luStep]
    split_ifs
    · rfl
    · have hp : pivotRow M 0 = 0 := Subsingleton.elim _ _
      rw [hp]
      simp [gaussStep, swapRows]
  unfold luInverse
  dsimp only
  split_ifs with h
  · have := h 0
    simp only [solveUpper, List.finRange_succ, List.finRange_zero, List.map_nil, List.reverse_cons, List.reverse_nil,
      List.nil_append, List.foldl_cons, List.foldl_nil, upperStep, Option.bind_some, h1] at this
    split_ifs at this with hz
    · simp at this
    · simp [hz]
  · simp only [true_iff]
    by_contra hz
    apply h
    intro j
    simp [solveUpper, List.finRange_succ, List.finRange_zero, upperStep, h1, hz]

namespace Demo91

/-- The binary64 number of a natural number. -/
def q (k : ℕ) : F64 := Scalar.dec k 0

/-- A Jacobian with twice the same row. -/
def twice : Mat F64 2 := !![q 49, q 49; q 49, q 49]

/-- `49 (x + y) = 98` and `49 (x + y) = 49`. -/
def contradiction (x : Vec F64 2) : Vec F64 2 :=
  ![(q 49 *ᶠ x 0 +ᶠ q 49 *ᶠ x 1) -ᶠ q 98, (q 49 *ᶠ x 0 +ᶠ q 49 *ᶠ x 1) -ᶠ q 49]

/-- A regular Jacobian; the last entry is the binary64 quotient `1 / 3`, which is less than a third. -/
def third : Mat F64 2 := !![q 3, q 1; q 1, q 1 /ᶠ q 3]

/-- `3 x + y = 3` and `x + (1 / 3) y = 1`, with the solution `(1, 0)`. -/
def regular (x : Vec F64 2) : Vec F64 2 :=
  ![(q 3 *ᶠ x 0 +ᶠ q 1 *ᶠ x 1) -ᶠ q 3, (q 1 *ᶠ x 0 +ᶠ (q 1 /ᶠ q 3) *ᶠ x 1) -ᶠ q 1]

/-- The configuration of the test suite: tolerance `1e-6`, 50 iterations, Newton-Raphson from the guess `(0, 0)`. -/
def cfg (guess : Vec F64 2) : Config F64 2 where
  params := { problemSize := 2, tolerance := Scalar.dec 1 6, maxIter := 50, method := .NewtonRaphson, damping := false }
  guess := guess
  iters := fun _ => IterativeParams.default.toIterative
  res := ⟨fun _ => .Abs, fun _ => .Abs⟩
  la := nalgebraLinAlg F64 2

open scoped Exact in
/-- The same in exact arithmetic. -/
def exactCfg (method : ResolutionMethod) (damping : Bool) : Config ℚ 2 where
  params := { problemSize := 2, tolerance := 1 / 10 ^ 6, maxIter := 50, method, damping }
  guess := 0
  iters := fun _ => Demo.wide.toIterative
  res := ⟨fun _ => .Abs, fun _ => .Abs⟩
  la := nalgebraLinAlg ℚ 2

end Demo91

set_option maxRecDepth 100000

/-- Binary64: linear equations that contradict each other, given with their singular Jacobian (twice the same row), end with a
failure to converge after all iterations, where the error of a Jacobian that is not invertible is due. -/
theorem C91_accepted_refuted : ∃ (A : Mat F64 2) (f : Vec F64 2 → Vec F64 2) (c : Config F64 2),
    A 0 = A 1 ∧ (∀ i j, (A i j).IsFinite) ∧ Spec.Singular (Matrix.of fun i j => (A i j).val) ∧
    (∀ x, f x = fun i => ((A i 0 *ᶠ x 0 +ᶠ A i 1 *ᶠ x 1) -ᶠ (![Demo91.q 98, Demo91.q 49] : Vec F64 2) i)) ∧
    c.la = nalgebraLinAlg F64 2 ∧
    ∃ st' s', solve c (fromFunctionAndJacobian f fun _ => A) .new .new = .ok (st', s', .error .nonConvergence) ∧
      st'.iter = 50 := by
  refine ⟨Demo91.twice, Demo91.contradiction, Demo91.cfg fun _ => Scalar.zero, rfl, ?_, ?_, ?_, rfl, ?_⟩
  · intro i j; fin_cases i <;> fin_cases j <;> decide +kernel
  · refine ⟨(![1, -1] : Fin 2 → ℚ), by decide +kernel, by decide +kernel⟩
  · intro x
    funext i
    fin_cases i <;> rfl
  · have h : (match solve (Demo91.cfg fun _ => Scalar.zero)
        (fromFunctionAndJacobian Demo91.contradiction fun _ => Demo91.twice) .new .new with
      | .ok (st, _, .error .nonConvergence) => st.iter == 50
      | _ => false) = true := by decide +kernel
    split at h
    · rename_i st' s' he
      exact ⟨st', s', he, by simpa using h⟩
    · cases h

/-- Binary64: linear equations with a regular Jacobian and a solution end with the error of a Jacobian that is not invertible in the
first iteration. -/
theorem C91_rejected_refuted : ∃ (A : Mat F64 2) (f : Vec F64 2 → Vec F64 2) (c : Config F64 2),
    (∀ i j, (A i j).IsFinite) ∧ ¬ Spec.Singular (Matrix.of fun i j => (A i j).val) ∧
    (∀ x, f x = fun i => ((A i 0 *ᶠ x 0 +ᶠ A i 1 *ᶠ x 1) -ᶠ (![Demo91.q 3, Demo91.q 1] : Vec F64 2) i)) ∧
    (∀ i, (f ![Demo91.q 1, Demo91.q 0] i).val = 0) ∧ c.la = nalgebraLinAlg F64 2 ∧
    ∃ st' s', solve c (fromFunctionAndJacobian f fun _ => A) .new .new =
      .ok (st', s', .error (.jacobian .invalidJacobianInverse)) ∧ st'.iter = 1 := by
  refine ⟨Demo91.third, Demo91.regular, Demo91.cfg fun _ => Scalar.zero, ?_, ?_, ?_, ?_, rfl, ?_⟩
  · intro i j; fin_cases i <;> fin_cases j <;> decide +kernel
  · unfold Spec.Singular
    rw [Matrix.exists_mulVec_eq_zero_iff]
    decide +kernel
  · intro x
    funext i
    fin_cases i <;> rfl
  · decide +kernel
  · have h : (match solve (Demo91.cfg fun _ => Scalar.zero)
        (fromFunctionAndJacobian Demo91.regular fun _ => Demo91.third) .new .new with
      | .ok (st, _, .error (.jacobian .invalidJacobianInverse)) => st.iter == 1
      | _ => false) = true := by decide +kernel
    split at h
    · rename_i st' s' he
      exact ⟨st', s', he, by simpa using h⟩
    · cases h

open scoped Exact in
/-- Hypotheses of `C91_guess_partial`: the equations of `C91_accepted_refuted` in exact arithmetic. -/
example : ∃ st' s', solve (Demo91.exactCfg .NewtonRaphson false)
    (fromFunctionAndJacobian (fun x => ![49 * x 0 + 49 * x 1 - 98, 49 * x 0 + 49 * x 1 - 49]) fun _ => !![49, 49; 49, 49])
    .new ⟨0, 0, 0⟩ = .ok (st', s', .error (.jacobian .invalidJacobianInverse)) ∧ s'.inputs = 0 := by
  refine C91_guess_partial _ _ _ C75_exact (fun _ => rfl) _ 0 ?_ (by decide) ?_
  · change (1 / 10 ^ 6 : ℚ) < |(49 * 0 + 49 * 0 - 98) - 0|
    norm_num
  · exact ⟨![1, -1], by decide +kernel, by decide +kernel⟩

open scoped Exact in
/-- Hypotheses of `C91_reported_partial`: the same with another method that ends with this error. -/
example : ∃ st' s', solve (Demo91.exactCfg (.QuasiNewton (.JacobianUpdate .BroydenFirst)) true)
    (fromFunctionAndJacobian (fun x => ![x 0 * x 0 - 2, x 1 * x 1 - 3]) fun x => !![2 * x 0, 0; 0, 2 * x 1])
    .new ⟨0, 0, 0⟩ = .ok (st', s', .error (.jacobian .invalidJacobianInverse)) ∧ s'.inputs = 0 := by
  refine C91_guess_partial _ _ _ C75_exact (fun _ => rfl) _ 0 ?_ (by decide) ?_
  · change (1 / 10 ^ 6 : ℚ) < |(0 * 0 - 2) - 0|
    norm_num
  · exact ⟨![1, 0], by decide +kernel, by decide +kernel⟩

end Nrf
