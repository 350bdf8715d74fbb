import Verif.Proofs.Mismatch
import Verif.Proofs.DynamicLog
import Verif.Props.C01
import Verif.Props.C75

/-!
# C94: models whose vectors do not have the configured dimension

`RootFinder::new` compares `problem_size` with the guess, the residual configuration and the iteratives
(`rootfinder.rs` L69-89).  Nothing compares it with the model, although `model_definition.rs` L49-51 asks for one
consistent length.  With `D = Dyn` the lengths meet at run time.
-/

namespace Nrf

section
variable {F : Type} [Scalar F] {n : Nat} {EI EU S S' : Type}

/-- A dynamic model all of whose vectors have length `problem_size` is solved exactly as the model on vectors of fixed
dimension: same result, same panics, same final state, same log.  All the properties of `solve` carry over. -/
theorem C94_consistent {la : (k : Nat) → LinAlg F k} {c : Config F n} (hla : c.la = la n)
    {m' : UserModel F n EI EU S'} {m : Dyn.Model F EI EU S} {π : S' → S} (H : Spec.Shaped m' m π)
    (st : Solver F n) (s : S') :
    Dyn.solve la c m (Dyn.liftS st) (π s) =
      match solve c m' st s with
      | .error p => .error (Dyn.liftPanic p)
      | .ok (st', s', r) => .ok (Dyn.liftS st', π s', r) := by
  have h := Dyn.solve_same hla H st s
  rcases hr : solve c m' st s with p | ⟨st', s', r⟩
  · rw [hr] at h; exact h
  · rw [hr] at h; exact h

/-- The state of an adapter with the lengths recorded. -/
def Spec.sized (s : AdapterState F n) : Dyn.AdapterState F := ⟨n, ⟨n, s.inputs⟩, ⟨n, s.left⟩, ⟨n, s.right⟩⟩

/-- The adapter of a function that maps vectors of length `n` to vectors of length `n` is consistent. -/
theorem C94_function {f : Dyn.DVec F → Dyn.DVec F} {g : Vec F n → Vec F n} (hf : ∀ x, f ⟨n, x⟩ = ⟨n, g x⟩) :
    Spec.Shaped (fromFunction g) (Dyn.fromFunction f) Spec.sized where
  lenProblem _ := rfl
  setIteratives _ _ := rfl
  getIteratives _ := rfl
  evaluate s := by
    change (({ Spec.sized s with left := f ⟨n, s.inputs⟩ } : Dyn.AdapterState F), _) = _
    rw [hf]; rfl
  getResiduals s := by
    change Dyn.Values.new (⟨n, s.left⟩ : Dyn.DVec F) ⟨n, s.right⟩ = _
    simp [Dyn.Values.new, fromFunction]
  jacobianProvided _ := rfl
  getJacobian _ := rfl
  getMemory _ := rfl
  setMemory _ _ := rfl
  displayUnusable e := nomatch e

/-- The same for the adapter with a Jacobian, when the Jacobian is `n × n`. -/
theorem C94_jacobian {f : Dyn.DVec F → Dyn.DVec F} {g : Vec F n → Vec F n} (hf : ∀ x, f ⟨n, x⟩ = ⟨n, g x⟩)
    {jac : Dyn.DVec F → Dyn.Rect F} {J : Vec F n → Mat F n} (hj : ∀ x, jac ⟨n, x⟩ = ⟨n, n, J x⟩) :
    Spec.Shaped (fromFunctionAndJacobian g J) (Dyn.fromFunctionAndJacobian f jac) Spec.sized where
  lenProblem _ := rfl
  setIteratives _ _ := rfl
  getIteratives _ := rfl
  evaluate s := by
    change (({ Spec.sized s with left := f ⟨n, s.inputs⟩ } : Dyn.AdapterState F), _) = _
    rw [hf]; rfl
  getResiduals s := by
    change Dyn.Values.new (⟨n, s.left⟩ : Dyn.DVec F) ⟨n, s.right⟩ = _
    simp [Dyn.Values.new, fromFunctionAndJacobian]
  jacobianProvided _ := rfl
  getJacobian s := by
    have h : (Dyn.fromFunctionAndJacobian f jac).getJacobian (Spec.sized s) =
        (match Dyn.Jacobians.ofLeft (jac ⟨n, s.inputs⟩) n with
        | .error p => .error p
        | .ok j => .ok (Spec.sized s, .ok j)) := rfl
    rw [h, hj]
    simp only [Dyn.Jacobians.ofLeft, and_self, dite_true]
    rfl
  getMemory _ := rfl
  setMemory _ _ := rfl
  displayUnusable e := nomatch e

/-- A freshly built adapter with dynamic vectors is the freshly built adapter of that dimension. -/
theorem C94_new [HasSpecials F] :
    Dyn.AdapterState.new n = Spec.sized (AdapterState.new : AdapterState F n) := rfl

/-- Fewer equations than configured: the solve panics on the first reading of the residuals. -/
theorem C94_missing (la : (k : Nat) → LinAlg F k) (c : Config F n) (m : Dyn.Model F EI EU S) (st : Dyn.Solver F)
    {s s1 : S} {r : Except (ModelError EI EU) Unit} {v : Dyn.Values F}
    (he : m.evaluate (m.setIteratives s ⟨n, c.guess⟩) = (s1, r)) (hr : ∀ e, r ≠ .error (.unusable e))
    (hv : m.getResiduals s1 = .ok v) (hlen : v.len < n) :
    Dyn.solve la c m st s = .error .index := by
  have hfrom : Dyn.solveFrom la c m st s1 = .error .index := by
    unfold Dyn.solveFrom Dyn.evaluateErrors
    rw [hv]
    have : ¬ n ≤ v.len := by omega
    simp only [bind, Except.bind, Dyn.evaluateStopping, this, dite_false]
  unfold Dyn.solve
  rw [he]
  match r with
  | .ok () => exact hfrom
  | .error (.inaccurate e) => exact hfrom
  | .error (.unusable e) => exact absurd rfl (hr e)

/-- A function adapter built with a size other than `problem_size`, for a function that returns vectors of that size:
every solve panics, except that a solve whose configured equations already pass at the guess ends there, without
looking at the others.  It holds for `f64` as for exact numbers. -/
theorem C94_adapter_size (la : (k : Nat) → LinAlg F k) (c : Config F n) (f : Dyn.DVec F → Dyn.DVec F)
    (jac : Option (Dyn.DVec F → Dyn.Rect F)) {s : Dyn.AdapterState F} (hs : s.size ≠ n)
    (hright : s.right.len = s.size) (hf : (f ⟨n, c.guess⟩).len = s.size) :
    let m := match jac with
      | none => Dyn.fromFunction f
      | some j => Dyn.fromFunctionAndJacobian f j
    (∃ p, Dyn.solve la c m .new s = .error p) ∨
      n < s.size ∧ ∃ r, Dyn.solve la c m .new s =
        .ok (.new, { s with inputs := ⟨n, c.guess⟩, left := f ⟨n, c.guess⟩ }, r) := by
  intro m
  set s1 : Dyn.AdapterState F := { s with inputs := ⟨n, c.guess⟩, left := f ⟨n, c.guess⟩ } with hs1
  have hm : m.evaluate (m.setIteratives s ⟨n, c.guess⟩) = (s1, .ok ()) := by
    dsimp only [m]; cases jac <;> rfl
  obtain ⟨v, hv, hvl⟩ : ∃ v, m.getResiduals s1 = .ok v ∧ v.len = s.size := by
    have : m.getResiduals s1 = Dyn.Values.new (f ⟨n, c.guess⟩) s.right := by
      dsimp only [m]; cases jac <;> rfl
    rw [this]
    unfold Dyn.Values.new
    rw [dif_pos (hf.trans hright.symm)]
    exact ⟨_, rfl, hf⟩
  by_cases hlt : s.size < n
  · refine .inl ⟨.index, C94_missing la c m .new hm (by simp) hv (by omega)⟩
  · have hgt : n < s.size := by omega
    have hit : m.getIteratives s1 = ⟨n, c.guess⟩ := by
      dsimp only [m]; cases jac <;> rfl
    have hjac : ∃ p, Dyn.computeJac la c m Dyn.Solver.new.jac s1 = .error p := by
      unfold Dyn.computeJac
      cases jac with
      | none =>
        have h0 : m.jacobianProvided s1 = false := rfl
        rw [h0]
        simp only [Bool.false_eq_true, if_false]
        unfold Dyn.fdJacobian
        rw [hit, hv]
        have hsz : m.lenProblem s1 = s.size := rfl
        rw [hsz]
        obtain ⟨k, hk⟩ : ∃ k, s.size = k + 1 := ⟨s.size - 1, by omega⟩
        simp only [bind, Except.bind]
        cases hp : Dyn.computePerturbations c.iters (⟨n, c.guess⟩ : Dyn.DVec F) with
        | error p => exact ⟨p, rfl⟩
        | ok pert =>
          have hpl : pert.len = n := by
            unfold Dyn.computePerturbations at hp
            split at hp
            · split at hp
              · cases hp; rfl
              · cases hp
            · cases hp
          have hle : n ≤ v.len := by omega
          simp only [Dyn.evaluateUpdate, hle, dite_true]
          rw [hk]
          rcases Dyn.fdLoop_surplus (c := c) (m := m) (pert := pert) (xRef := ⟨n, c.guess⟩)
            (resRef := ⟨v.len, fun i => if hi : i.val < n then
              normalization (v.val.left i) (v.val.right i) (c.res.upd ⟨i, hi⟩) else Scalar.zero⟩)
            (by change n < v.len; omega) (m.getMemory s1) k ⟨pert.len, mzero⟩ hpl s1 with ⟨p, h⟩ | ⟨s', e, h⟩
          · rw [h]; exact ⟨p, rfl⟩
          · rw [h]; exact nomatch e
      | some j =>
        have h0 : m.jacobianProvided s1 = true := rfl
        rw [h0]
        simp only [if_true]
        unfold Dyn.analyticJacobian
        rw [hv]
        have hg : m.getJacobian s1 = (match Dyn.Jacobians.ofLeft (j ⟨n, c.guess⟩) s.size with
          | .error p => .error p
          | .ok j => .ok (s1, .ok j)) := rfl
        rw [hg]
        unfold Dyn.Jacobians.ofLeft
        split
        · rename_i p hsplit
          exact ⟨p, rfl⟩
        · rename_i J hsplit
          have hJ : J.len = s.size := by
            split at hsplit
            · cases hsplit; rfl
            · cases hsplit
          have : ¬ (J.len ≤ v.len ∧ J.len ≤ n) := by omega
          refine ⟨.index, ?_⟩
          simp only [bind, Except.bind, Dyn.normalize, this, dite_false]
    obtain ⟨p, hp⟩ := hjac
    have hstep : Dyn.iterate la c m Dyn.Solver.new s1 = .error p := by
      unfold Dyn.iterate Dyn.computeStep
      rw [Dyn.evaluateJacobian_fresh rfl rfl]
      change ((Dyn.computeJac la c m Dyn.Solver.new.jac s1 >>= _) >>= _) >>= _ = _
      rw [hp]
      rfl
    have hle : n ≤ v.len := by omega
    have hst : Dyn.evaluateStopping c.res v = .ok ⟨v.len, fun i => if hi : i.val < n then
        Scalar.abs (normalization (v.val.left i) (v.val.right i) (c.res.stop ⟨i, hi⟩)) else Scalar.zero⟩ := by
      unfold Dyn.evaluateStopping
      rw [dif_pos hle]
    have hsolve : Dyn.solve la c m .new s = Dyn.solveFrom la c m .new s1 := by
      unfold Dyn.solve
      rw [hm]
    rw [hsolve]
    by_cases hc : (Scalar.lt c.params.tolerance (amax (Dyn.DVec.val ⟨v.len, fun i => if hi : i.val < n then
        Scalar.abs (normalization (v.val.left i) (v.val.right i) (c.res.stop ⟨i, hi⟩)) else Scalar.zero⟩)) &&
        decide ((Dyn.Solver.new : Dyn.Solver F).iter < c.params.maxIter)) = true
    · exact .inl ⟨p, (Dyn.solveFrom_ends rfl hv hst hc).1 p hstep⟩
    · exact .inr ⟨hgt, _, Dyn.solveFrom_done rfl hv hst hc⟩

/-- A function that does not return as many values as the adapter was built for: the first reading of the residuals
panics in `ResidualsValues::new`. -/
theorem C94_function_size (la : (k : Nat) → LinAlg F k) (c : Config F n) (f : Dyn.DVec F → Dyn.DVec F)
    (jac : Option (Dyn.DVec F → Dyn.Rect F)) (st : Dyn.Solver F) {s : Dyn.AdapterState F}
    (hf : (f ⟨n, c.guess⟩).len ≠ s.right.len) :
    Dyn.solve la c (match jac with
      | none => Dyn.fromFunction f
      | some j => Dyn.fromFunctionAndJacobian f j) st s = .error .residualsLength := by
  have h : Dyn.Values.new (f ⟨n, c.guess⟩) s.right = .error .residualsLength := dif_neg hf
  cases jac <;>
  · change (Dyn.Values.new (f ⟨n, c.guess⟩) s.right >>= fun v => Dyn.evaluateStopping c.res v) >>= _ = _
    rw [h]
    rfl

/-- A Jacobian function whose matrix is not square of the adapter's size: a solve that does not end at the guess panics
in `JacobianValues::new`. -/
theorem C94_jacobian_size (la : (k : Nat) → LinAlg F k) (c : Config F n) (f : Dyn.DVec F → Dyn.DVec F)
    (jac : Dyn.DVec F → Dyn.Rect F) {s : Dyn.AdapterState F} {v : Dyn.Values F} {e : Dyn.DVec F}
    (hv : Dyn.Values.new (f ⟨n, c.guess⟩) s.right = .ok v) (he : Dyn.evaluateStopping c.res v = .ok e)
    (hgo : Scalar.lt c.params.tolerance (amax e.val) = true) (hmax : 0 < c.params.maxIter)
    (hj : ¬ ((jac ⟨n, c.guess⟩).rows = s.size ∧ (jac ⟨n, c.guess⟩).cols = s.size)) :
    Dyn.solve la c (Dyn.fromFunctionAndJacobian f jac) .new s = .error .jacobianShape := by
  set m := Dyn.fromFunctionAndJacobian f jac
  set s1 : Dyn.AdapterState F := { s with inputs := ⟨n, c.guess⟩, left := f ⟨n, c.guess⟩ } with hs1
  have hv' : m.getResiduals s1 = .ok v := hv
  have hbad : Dyn.Jacobians.ofLeft (jac ⟨n, c.guess⟩) s.size = .error .jacobianShape := dif_neg hj
  have hg : m.getJacobian s1 = .error .jacobianShape := by
    change (match Dyn.Jacobians.ofLeft (jac ⟨n, c.guess⟩) s.size with
      | .error p => Except.error p
      | .ok j => Except.ok (s1, Except.ok j)) = _
    rw [hbad]
  have hp : Dyn.computeJac la c m Dyn.Solver.new.jac s1 = .error .jacobianShape := by
    unfold Dyn.computeJac
    have h0 : m.jacobianProvided s1 = true := rfl
    rw [h0]
    simp only [if_true]
    unfold Dyn.analyticJacobian
    rw [hg, hv']
    rfl
  have hstep : Dyn.iterate la c m Dyn.Solver.new s1 = .error .jacobianShape := by
    unfold Dyn.iterate Dyn.computeStep
    rw [Dyn.evaluateJacobian_fresh rfl rfl]
    change ((Dyn.computeJac la c m Dyn.Solver.new.jac s1 >>= _) >>= _) >>= _ = _
    rw [hp]
    rfl
  have hc : (Scalar.lt c.params.tolerance (amax e.val) &&
      decide ((Dyn.Solver.new : Dyn.Solver F).iter < c.params.maxIter)) = true := by
    rw [hgo]
    exact decide_eq_true hmax
  change Dyn.solveFrom la c m .new s1 = _
  exact (Dyn.solveFrom_ends rfl hv' he hc).1 _ hstep

/-- Debugging does not change the solve of any model, whatever the lengths of its vectors: the tables of the log have
as many rows as there are both variables and equations, so that writing them does not panic. -/
theorem C94_debug (hn : 0 < n) (la : (k : Nat) → LinAlg F k) (c : Config F n) (m : Dyn.Model F EI EU S)
    {st : Dyn.Solver F} (hst : st.debug = true → st.log ≠ none) (s : S) :
    Dyn.solve la c m { st with debug := false, log := none } s =
      match Dyn.solve la c m st s with
      | .error p => .error p
      | .ok (st', s', r) => .ok ({ st' with debug := false, log := none }, s', r) := by
  have h := Dyn.solve_quiet (la := la) (c := c) (m := m) (st := st)
    (fun hd => Option.ne_none_iff_exists'.1 (hst hd)) (Nat.pos_iff_ne_zero.1 hn) s
  rcases hr : Dyn.solve la c m st s with p | ⟨st', s', r⟩
  · rw [hr] at h; exact h
  · rw [hr] at h; exact h.2

/-- A model with more variables than configured: the configured ones make their limited step, all others are proposed
as zero, whatever they were (`step_limitations` fills a vector of zeros). -/
theorem C94_surplus_variables (la : (k : Nat) → LinAlg F k) (c : Config F n) (m : Dyn.Model F EI EU S) (st : Dyn.Solver F)
    (s : S) {v : Dyn.Values F} {inv : Mat F v.len} (hv : m.getResiduals s = .ok v)
    (hinv : st.jac.inverse = some ⟨v.len, inv⟩) (hn : n ≤ v.len) (hx : n ≤ (m.getIteratives s).len) :
    ∃ y : Dyn.DVec F, Dyn.computeNext la c m st s = .ok y ∧ y.len = (m.getIteratives s).len ∧
      (∀ (i : Fin n) (h : i.val < y.len), y.val ⟨i, h⟩ = (c.iters i).stepLimitation
        ((m.getIteratives s).val ⟨i, lt_of_lt_of_le i.isLt hx⟩)
        (mulVec (la v.len) (mneg inv) (fun k => if hk : k.val < n then
          normalization (v.val.left k) (v.val.right k) (c.res.upd ⟨k, hk⟩) else Scalar.zero)
          ⟨i, lt_of_lt_of_le i.isLt hn⟩)) ∧
      ∀ (i : Fin y.len), n ≤ i.val → y.val i = Scalar.zero := by
  refine ⟨⟨(m.getIteratives s).len, fun i => if hi : i.val < n then
    (c.iters ⟨i, hi⟩).stepLimitation ((m.getIteratives s).val i)
      (mulVec (la v.len) (mneg inv) (fun k => if hk : k.val < n then
        normalization (v.val.left k) (v.val.right k) (c.res.upd ⟨k, hk⟩) else Scalar.zero)
        ⟨i, lt_of_lt_of_le hi hn⟩)
    else Scalar.zero⟩, ?_, rfl, ?_, ?_⟩
  · unfold Dyn.computeNext
    rw [hv]
    simp only [bind, Except.bind, Dyn.evaluateUpdate, hn, dite_true, hinv, Dyn.negMulVec, Dyn.stepLimitations, hx,
      and_self]
    rfl
  · intro i h
    exact dif_pos i.isLt
  · intro i hi
    exact dif_neg (by omega)

/-- A model with fewer variables than configured: the step panics. -/
theorem C94_missing_variables (la : (k : Nat) → LinAlg F k) (c : Config F n) (m : Dyn.Model F EI EU S) (st : Dyn.Solver F)
    (s : S) (hx : (m.getIteratives s).len < n) : ∃ p, Dyn.computeNext la c m st s = .error p := by
  have h : ∀ raw, Dyn.stepLimitations c.iters (m.getIteratives s) raw = .error .index := fun raw => by
    unfold Dyn.stepLimitations
    rw [dif_neg (by omega)]
  unfold Dyn.computeNext
  simp only [bind, Except.bind, h]
  split
  · exact ⟨_, rfl⟩
  · split
    · exact ⟨_, rfl⟩
    · split
      · exact ⟨_, rfl⟩
      · split <;> exact ⟨_, rfl⟩

/-- With finite differences it panics before the model is evaluated: with the missing value, unless a variable before it
has no perturbation. -/
theorem C94_missing_perturbations (la : (k : Nat) → LinAlg F k) (c : Config F n) (m : Dyn.Model F EI EU S)
    (j : Dyn.JacobianMatrix F) (s : S) (hx : (m.getIteratives s).len < n) :
    Dyn.fdJacobian la c m j s = .error (if ∀ i : Fin n, i.val < (m.getIteratives s).len →
      (c.iters i).computePerturbation.isSome then .index else .inner .unimplementedPerturbation) := by
  unfold Dyn.fdJacobian Dyn.computePerturbations
  by_cases h : ∀ i : Fin n, i.val < (m.getIteratives s).len → (c.iters i).computePerturbation.isSome
  · rw [dif_pos h, if_neg (by omega), if_pos h]
    rfl
  · rw [dif_neg h, if_neg h]
    rfl

end

section
variable {K : Type} [Field K] [LinearOrder K] [IsStrictOrderedRing K] {n : Nat} {EI EU S S' : Type}
open scoped Exact

/-- The configured equations of the values `v` are met within `t`. -/
def Spec.ConfiguredMet (res : ResConf n) (v : Dyn.Values K) (t : K) : Prop :=
  ∀ (i : Fin n) (h : i.val < v.len),
    |Spec.residual (res.stop i) (v.val.left ⟨i, h⟩) (v.val.right ⟨i, h⟩)| ≤ t

/-- The normalized Jacobian is padded with zeros up to the number of equations. -/
theorem normalize_singular {J : Dyn.Jacobians K} {v : Dyn.Values K} {methods : Fin n → NormalizationMethod}
    {M : Dyn.DMat K} (hlen : n < v.len) (h : Dyn.normalize J v methods = .ok M) : M.val.det = 0 := by
  unfold Dyn.normalize at h
  split at h
  · rename_i hJ
    cases h
    refine Matrix.det_eq_zero_of_row_eq_zero ⟨n, hlen⟩ fun k => ?_
    have : ¬ (n < J.len ∧ k.val < J.len) := by omega
    exact dif_neg this
  · cases h

/-- Any model with more equations than configured, on a fresh solver: `Ok` at the guess when the configured equations
hold there, whatever the surplus equations are.  Otherwise the solve does not get past its first Jacobian: it panics or
returns an error. -/
theorem C94_surplus (la : (k : Nat) → LinAlg K k) (hex : ∀ k, (la k).IsExact) (c : Config K n)
    (ht : 0 ≤ c.params.tolerance) (m : Dyn.Model K EI EU S) {s s1 : S} {r : Except (ModelError EI EU) Unit}
    {v : Dyn.Values K} (he : m.evaluate (m.setIteratives s ⟨n, c.guess⟩) = (s1, r))
    (hr : ∀ e, r ≠ .error (.unusable e)) (hv : m.getResiduals s1 = .ok v) (hlen : n < v.len)
    (hit : (m.getIteratives s1).len = n) :
    (Spec.ConfiguredMet c.res v c.params.tolerance → Dyn.solve la c m .new s = .ok (.new, s1, .ok ())) ∧
    (¬ Spec.ConfiguredMet c.res v c.params.tolerance →
      (∃ p, Dyn.solve la c m .new s = .error p) ∨
      Dyn.solve la c m .new s = .ok (.new, s1, .error .nonConvergence) ∧ c.params.maxIter = 0 ∨
      ∃ st' s' e, Dyn.solve la c m .new s = .ok (st', s', .error (.jacobian e))) := by
  have hsolve : Dyn.solve la c m .new s = Dyn.solveFrom la c m .new s1 := by
    unfold Dyn.solve
    rw [he]
    match r with
    | .ok () => rfl
    | .error (.inaccurate e) => rfl
    | .error (.unusable e) => exact absurd rfl (hr e)
  have hle : n ≤ v.len := hlen.le
  set ev : Vec K v.len := fun i => if hi : i.val < n then
    Scalar.abs (normalization (v.val.left i) (v.val.right i) (c.res.stop ⟨i, hi⟩)) else Scalar.zero with hev
  have hst : Dyn.evaluateStopping c.res v = .ok ⟨v.len, ev⟩ := by
    unfold Dyn.evaluateStopping
    rw [dif_pos hle]
  have hmet : Spec.ConfiguredMet c.res v c.params.tolerance ↔ amax ev ≤ c.params.tolerance := by
    rw [amax_le_iff _ ht]
    constructor
    · intro h i
      by_cases hi : i.val < n
      · have := h ⟨i, hi⟩ i.isLt
        rw [hev]
        simp only [hi, dite_true]
        change |(|normalization _ _ _|)| ≤ _
        rw [abs_abs, normalization_exact]
        exact this
      · rw [hev]
        simp only [hi, dite_false]
        change |(0 : K)| ≤ _
        rw [abs_zero]; exact ht
    · intro h i hi
      have := h ⟨i, hi⟩
      rw [hev] at this
      simp only [i.isLt, dite_true] at this
      change |(|normalization _ _ _|)| ≤ _ at this
      rw [abs_abs, normalization_exact] at this
      exact this
  rw [hsolve]
  constructor
  · intro h
    have hlt : Scalar.lt c.params.tolerance (amax ev) = false := (ex_lt_false _ _).2 (hmet.1 h)
    rw [Dyn.solveFrom_done rfl hv hst (by simp [hlt])]
    unfold Dyn.finalResult
    simp [hlt, Dyn.Solver.new]
  · intro h
    have hlt : Scalar.lt c.params.tolerance (amax ev) = true :=
      (ex_lt _ _).2 (lt_of_not_ge fun h' => h (hmet.2 h'))
    by_cases hmax : c.params.maxIter = 0
    · refine .inr (.inl ⟨?_, hmax⟩)
      rw [Dyn.solveFrom_done rfl hv hst (by simp [hmax])]
      unfold Dyn.finalResult
      simp [hlt]
    · have hc : (Scalar.lt c.params.tolerance (amax ev) &&
          decide ((Dyn.Solver.new : Dyn.Solver K).iter < c.params.maxIter)) = true := by
        simp only [hlt, Bool.true_and, decide_eq_true_eq]
        exact Nat.pos_of_ne_zero hmax
      have hends := Dyn.solveFrom_ends (la := la) (st := Dyn.Solver.new) rfl hv hst hc
      have hstuck : Dyn.Stuck (Dyn.computeStep la c m
          { (Dyn.Solver.new : Dyn.Solver K) with iter := (Dyn.Solver.new : Dyn.Solver K).iter + 1 } s1) := by
        refine Dyn.computeStep_stuck
          (st := { (Dyn.Solver.new : Dyn.Solver K) with iter := (Dyn.Solver.new : Dyn.Solver K).iter + 1 }) rfl rfl ?_
        change Dyn.Stuck (Dyn.computeJac la c m Dyn.JacobianMatrix.new s1) ∨
          ∃ j s', Dyn.computeJac la c m Dyn.JacobianMatrix.new s1 = .ok (j, s', .ok ()) ∧ _
        unfold Dyn.computeJac
        by_cases hp : m.jacobianProvided s1 = true
        · simp only [hp, if_true]
          unfold Dyn.analyticJacobian
          rw [hv]
          simp only [bind, Except.bind, pure, Except.pure]
          rcases m.getJacobian s1 with p | ⟨s', e | J⟩
          · exact .inl (.inl ⟨p, rfl⟩)
          · match e with
            | .inaccurate e => exact .inr ⟨_, _, rfl, .inl rfl⟩
            | .unusable e => exact .inl (.inr ⟨_, _, _, rfl⟩)
          · dsimp only
            cases hM : Dyn.normalize J v c.res.upd with
            | error p => exact .inl (.inl ⟨p, rfl⟩)
            | ok M =>
              have hdet := normalize_singular hlen hM
              unfold Dyn.JacobianMatrix.update
              dsimp only
              rw [(hex M.len).inv_none _ hdet]
              exact .inl (.inr ⟨_, _, _, rfl⟩)
        · simp only [hp]
          unfold Dyn.fdJacobian
          rw [hv]
          simp only [bind, Except.bind, pure, Except.pure]
          cases hpert : Dyn.computePerturbations c.iters (m.getIteratives s1) with
          | error p => exact .inl (.inl ⟨p, rfl⟩)
          | ok pert =>
            have hpl : pert.len = n := by
              unfold Dyn.computePerturbations at hpert
              split at hpert
              · split at hpert
                · cases hpert; exact hit
                · cases hpert
              · cases hpert
            simp only [Dyn.evaluateUpdate, hle, dite_true]
            rcases Nat.eq_zero_or_pos (m.lenProblem s1) with h0 | h0
            · rw [h0]
              simp only [Dyn.fdLoop]
              unfold Dyn.JacobianMatrix.update
              dsimp only
              rcases Nat.eq_zero_or_pos n with hn | hn
              · have hdet : (mzero : Mat K pert.len).det ≠ 0 := by
                  have : pert.len = 0 := hpl.trans hn
                  have : IsEmpty (Fin pert.len) := by rw [this]; infer_instance
                  rw [Matrix.det_isEmpty]; exact one_ne_zero
                rw [(hex pert.len).inv_some _ hdet]
                refine .inr ⟨_, _, rfl, .inr ⟨_, rfl, ?_⟩⟩
                intro w hw
                rw [hv] at hw
                cases hw
                change v.len ≠ pert.len
                omega
              · have hdet : (mzero : Mat K pert.len).det = 0 :=
                  Matrix.det_eq_zero_of_row_eq_zero ⟨0, by omega⟩ fun k => rfl
                rw [(hex pert.len).inv_none _ hdet]
                exact .inl (.inr ⟨_, _, _, rfl⟩)
            · obtain ⟨k, hk⟩ : ∃ k, m.lenProblem s1 = k + 1 := ⟨m.lenProblem s1 - 1, by omega⟩
              rw [hk]
              rcases Dyn.fdLoop_surplus (c := c) (m := m) (pert := pert) (xRef := m.getIteratives s1)
                (resRef := ⟨v.len, fun i => if hi : i.val < n then
                  normalization (v.val.left i) (v.val.right i) (c.res.upd ⟨i, hi⟩) else Scalar.zero⟩)
                (by change _ < v.len; omega) (m.getMemory s1) k ⟨pert.len, mzero⟩ (by change pert.len = _; omega)
                s1 with ⟨p, h⟩ | ⟨s', e, h⟩
              · rw [h]; exact .inl (.inl ⟨p, rfl⟩)
              · rw [h]; exact .inl (.inr ⟨_, _, _, rfl⟩)
      rcases Dyn.iterate_stuck hstuck with ⟨p, hp⟩ | ⟨st', s', e, hp⟩
      · exact .inl ⟨p, hends.1 p hp⟩
      · exact .inr (.inr ⟨st', s', e, hends.2 _ _ _ hp⟩)

/-- What remains of "`Ok` means that the equations of the model hold": it is true of dynamic models whose vectors have
the configured length. -/
theorem C94_equations_partial {la : (k : Nat) → LinAlg K k} {c : Config K n} (hla : c.la = la n)
    {m' : UserModel K n EI EU S'} {m : Dyn.Model K EI EU S} {π : S' → S} (H : Spec.Shaped m' m π)
    (s : S') {st' : Dyn.Solver K} {s1 : S} (h : Dyn.solve la c m .new (π s) = .ok (st', s1, .ok ())) :
    ∃ v, m.getResiduals s1 = .ok v ∧ v.len = n ∧ Spec.ConfiguredMet c.res v c.params.tolerance := by
  have hc := C94_consistent hla H .new s
  change Dyn.solve la c m .new (π s) = _ at hc
  rw [h] at hc
  rcases hr : solve c m' .new s with p | ⟨st2, s2, r⟩
  · rw [hr] at hc; cases hc
  · rw [hr] at hc
    cases hc
    refine ⟨_, H.getResiduals s2, rfl, ?_⟩
    intro i hi
    exact C01_ok_means_solved c m' .new st2 s s2 hr i

end

namespace Mismatch
open scoped Exact

/-- One configured equation. -/
def cfg (guess : ℚ) (maxIter : Nat) : Config ℚ 1 where
  params := { problemSize := 1, tolerance := 1 / 1000, maxIter, method := .NewtonRaphson, damping := false }
  guess := fun _ => guess
  iters := fun _ => Demo.wide.toIterative
  res := { stop := fun _ => .Abs, upd := fun _ => .Abs }
  la := nalgebraLinAlg ℚ 1

/-- `x - 3 = 0` and `1 = 0`. -/
def f (x : Dyn.DVec ℚ) : Dyn.DVec ℚ := ⟨2, ![(if h : 0 < x.len then x.val ⟨0, h⟩ else 0) - 3, 1]⟩

/-- The adapter is built with size 2. -/
def start : Dyn.AdapterState ℚ := ⟨2, ⟨2, 0⟩, ⟨2, 0⟩, ⟨2, 0⟩⟩

/-- The kind of outcome. -/
def kind {A S EI EU : Type} : Except Dyn.DynPanic (A × S × Except (SolverError EI EU) Unit) → Demo.Kind
  | .error _ => .panic
  | .ok v => Demo.kind (.ok v)

end Mismatch

open scoped Exact in
/-- The claim fails in general: a solve of two equations in one variable, of which the second is `1 = 0`, returns
`Ok`. -/
theorem C94_equations_refuted :
    ¬ ∀ (n : Nat) (c : Config ℚ n) (f : Dyn.DVec ℚ → Dyn.DVec ℚ) (s s1 : Dyn.AdapterState ℚ) (st' : Dyn.Solver ℚ),
      Dyn.solve (nalgebraLinAlg ℚ) c (Dyn.fromFunction f) .new s = .ok (st', s1, .ok ()) →
      ∀ i (h : i < s1.left.len) (h' : i < s1.right.len),
        |s1.left.val ⟨i, h⟩ - s1.right.val ⟨i, h'⟩| ≤ c.params.tolerance := by
  intro h
  have hs := (C94_surplus (nalgebraLinAlg ℚ) (fun _ => C75_exact) (Mismatch.cfg 3 50)
    (by norm_num [Mismatch.cfg]) (Dyn.fromFunction Mismatch.f) (s := Mismatch.start) rfl (by simp)
    (v := ⟨2, ⟨![3 - 3, 1], fun _ => 0⟩⟩) rfl (by decide) rfl).1 (by
      intro i hi
      have : i = 0 := Subsingleton.elim _ _
      subst this
      norm_num [Mismatch.cfg, Spec.residual])
  have := h 1 (Mismatch.cfg 3 50) Mismatch.f Mismatch.start _ _ hs 1 (by decide) (by decide)
  revert this
  decide +kernel

open scoped Exact in
/-- From another guess the same model panics in its first pass. -/
example : Mismatch.kind (Dyn.solve (nalgebraLinAlg ℚ) (Mismatch.cfg 1 50) (Dyn.fromFunction Mismatch.f) .new
    Mismatch.start) = .panic := by decide +kernel

namespace Mismatch
open scoped Exact

/-- `x² = 2`, for vectors of any length. -/
def square (x : Dyn.DVec ℚ) : Dyn.DVec ℚ := ⟨x.len, fun i => x.val i * x.val i - 2⟩

/-- One equation missing: the adapter has size 1, the solver size 2. -/
def cfg2 : Config ℚ 2 where
  params := { problemSize := 2, tolerance := 1 / 1000, maxIter := 50, method := .NewtonRaphson, damping := false }
  guess := ![1, 2]
  iters := fun _ => Demo.wide.toIterative
  res := { stop := fun _ => .Abs, upd := fun _ => .Abs }
  la := nalgebraLinAlg ℚ 2

/-- Consistent sizes: `C94_consistent` applies, and the solve succeeds after several passes. -/
example : Spec.Shaped (fromFunction fun x : Vec ℚ 1 => fun i => x i * x i - 2) (Dyn.fromFunction square) Spec.sized ∧
    kind (Dyn.solve (nalgebraLinAlg ℚ) (cfg 1 50) (Dyn.fromFunction square) .new
      (Spec.sized (n := 1) ⟨0, 0, 0⟩)) = .ok :=
  ⟨C94_function fun _ => rfl, by decide +kernel⟩

/-- One equation `x = 3`, and a second variable `y` which the configuration does not know. -/
def two : Dyn.Model ℚ Empty Empty (ℚ × ℚ) where
  lenProblem _ := 1
  setIteratives s v := (if h : 0 < v.len then v.val ⟨0, h⟩ else s.1, if h : 1 < v.len then v.val ⟨1, h⟩ else s.2)
  getIteratives s := ⟨2, ![s.1, s.2]⟩
  evaluate s := (s, .ok ())
  getResiduals s := .ok ⟨1, fun _ => s.1, fun _ => 3⟩
  jacobianProvided _ := true
  getJacobian s := .ok (s, .ok ⟨1, fun _ _ => 1, fun _ _ => 0⟩)
  getMemory _ := []
  setMemory s _ := s
  displayUnusable e := nomatch e

/-- `C94_surplus_variables` in a solve: `x = 3` is found, and the solver has set `y` to 0. -/
example : (match Dyn.solve (nalgebraLinAlg ℚ) (cfg 1 50) two .new (0, 7) with
    | .ok (_, s, .ok ()) => decide (s = (3, 0))
    | _ => false) = true := by decide +kernel

/-- `C94_debug` for the same model, whose vectors have different lengths. -/
example : (match Dyn.solve (nalgebraLinAlg ℚ) (cfg 1 50) two (.activateDebug .new) (0, 7) with
    | .ok (st, s, .ok ()) => decide (s = (3, 0)) && (st.log.map List.length == some 5)
    | _ => false) = true ∧
    ((Dyn.Solver.activateDebug .new : Dyn.Solver ℚ).debug = true → (Dyn.Solver.activateDebug .new : Dyn.Solver ℚ).log ≠ none) :=
  ⟨by decide +kernel, fun _ h => nomatch h⟩

/-- `C94_missing_variables` and `C94_missing_perturbations`: two variables configured, the model has one. -/
example : (({ two with getIteratives := fun s => ⟨1, fun _ => s.1⟩ } : Dyn.Model ℚ Empty Empty (ℚ × ℚ)).getIteratives
    (0, 7)).len < 2 ∧ ∀ i : Fin 2, (cfg2.iters i).computePerturbation.isSome := ⟨by decide, by decide⟩

/-- `C94_adapter_size` and `C94_missing` apply: the function returns one entry, two are configured. -/
example : ∃ p, Dyn.solve (nalgebraLinAlg ℚ) cfg2
    (Dyn.fromFunction fun x => ⟨1, fun _ => if h : 0 < x.len then x.val ⟨0, h⟩ else 0⟩) .new
    ⟨1, ⟨1, 0⟩, ⟨1, 0⟩, ⟨1, 0⟩⟩ = .error p := by
  rcases C94_adapter_size (nalgebraLinAlg ℚ) cfg2
    (fun x => ⟨1, fun _ => if h : 0 < x.len then x.val ⟨0, h⟩ else 0⟩) none
    (s := ⟨1, ⟨1, 0⟩, ⟨1, 0⟩, ⟨1, 0⟩⟩) (by decide) rfl rfl with h | ⟨h, _⟩
  · exact h
  · exact absurd h (by decide)

/-- A consistent solve in debug mode: the header, the parameters, and a table for the guess and for every pass, each with
one row, and the Jacobians. -/
example : (match Dyn.solve (nalgebraLinAlg ℚ) (cfg 1 50) (Dyn.fromFunction square) (.activateDebug .new)
    (Spec.sized (n := 1) ⟨0, 0, 0⟩) with
    | .ok (st, _, .ok ()) => (st.log.map List.length, st.iter)
    | _ => (none, 0)) = (some 9, 3) := by decide +kernel

/-- `C94_function_size`: the adapter is built for two values, the function returns three. -/
example : Dyn.solve (nalgebraLinAlg ℚ) cfg2 (Dyn.fromFunction fun _ => ⟨3, 0⟩) .new
    ⟨2, ⟨2, 0⟩, ⟨2, 0⟩, ⟨2, 0⟩⟩ = .error .residualsLength :=
  C94_function_size (nalgebraLinAlg ℚ) cfg2 (fun _ => ⟨3, 0⟩) none .new (by decide)

/-- `C94_jacobian_size`: two equations and a Jacobian of 2 rows and 3 columns. -/
example : Dyn.solve (nalgebraLinAlg ℚ) cfg2 (Dyn.fromFunctionAndJacobian square fun _ => ⟨2, 3, fun _ _ => 1⟩) .new
    ⟨2, ⟨2, 0⟩, ⟨2, 0⟩, ⟨2, 0⟩⟩ = .error .jacobianShape :=
  C94_jacobian_size (nalgebraLinAlg ℚ) cfg2 square (fun _ => ⟨2, 3, fun _ _ => 1⟩) rfl rfl (by decide +kernel)
    (by decide) (by decide)

/-- A model with an exact Jacobian, consistent with its function. -/
example : Spec.Shaped
    (fromFunctionAndJacobian (fun x : Vec ℚ 1 => fun i => x i * x i - 2) fun x i j => if i = j then 2 * x i else 0)
    (Dyn.fromFunctionAndJacobian square fun x => ⟨x.len, x.len, fun i j => if i = j then 2 * x.val i else 0⟩)
    Spec.sized := C94_jacobian (fun _ => rfl) fun _ => rfl

end Mismatch

end Nrf
