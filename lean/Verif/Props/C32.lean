import Verif.Proofs.PointsFd
import Verif.Proofs.Limits
import Verif.Spec.Demo

/-!
# C32: step and range limits with finite differences

Both halves of the property fail; what holds instead is proved below.
-/

namespace Nrf
open scoped Exact

namespace Demo

/-- Steps of at most 1/10, values up to 2, perturbation 1/100. -/
def narrow : IterativeParamsFD ℚ :=
  { iterativeParams := { maxStepAbs := 1 / 10, maxStepRel := 100, minValue := -100, maxValue := 2 }
    perturbationMethod := .Max
    dxAbs := 1 / 100
    dxRel := 1 / 1000 }

def narrowCfg (guess : ℚ) : Config ℚ 1 :=
  { cfg .NewtonRaphson false 20 (1/1000) guess with iters := fun _ => narrow.toIterative }

theorem narrow_new :
    IterativeParamsFD.new (1 / 10) 100 (-100) 2 (1 / 100) (1 / 1000) .Max = .ok narrow := by
  decide +kernel

/-- The points set on the model by a solve. -/
def visited {A S EI EU : Type} {n : Nat} :
    Except Panic (A × (S × List (Call ℚ n EI EU)) × Except (SolverError EI EU) Unit) → List (Vec ℚ n)
  | .ok (_, (_, calls), _) => points calls
  | .error _ => []

end Demo

/-- The range is left: solving `x² = 2` from the largest allowed value 2, the solve succeeds and the
model was evaluated at 201/100. -/
theorem C32_refuted_range :
    Demo.kind (solve (Demo.narrowCfg 2) (recorded Demo.sqrt2Fd) .new (Demo.start, [])) = .ok ∧
    ∃ x ∈ Demo.visited (solve (Demo.narrowCfg 2) (recorded Demo.sqrt2Fd) .new (Demo.start, [])),
      Demo.narrow.iterativeParams.maxValue < x 0 := by
  refine ⟨by decide +kernel, ?_⟩
  have h : (Demo.visited (solve (Demo.narrowCfg 2) (recorded Demo.sqrt2Fd) .new
      (Demo.start, []))).any (fun x => decide (Demo.narrow.iterativeParams.maxValue < x 0)) = true := by
    decide +kernel
  simpa using h

/-- The step limit is exceeded: with `max_step_abs = 1/10` the first iteration from 1 accepts
111/100. -/
theorem C32_refuted_step :
    (match iterate (Demo.narrowCfg 1) Demo.sqrt2Fd .new ⟨fun _ => 1, fun _ => -1, fun _ => 0⟩ with
      | .ok (_, s', .ok _) => decide (Demo.sqrt2Fd.getIteratives s' 0 = 111 / 100)
      | _ => false) = true ∧
    Demo.narrow.iterativeParams.maxStepAbs < 111 / 100 - 1 := by
  refine ⟨by decide +kernel, by decide +kernel⟩

section
variable {n : Nat} {EI EU S : Type}

/-- Any arithmetic, without damping, whether or not the model has an analytic Jacobian: the model is
only evaluated at accepted points (the guess or the result of a step limitation) and at points
obtained from an accepted one by adding the configured perturbation to one coordinate.  Missing for
C32: the perturbed points may leave the range. -/
theorem C32_points_partial {F : Type} [Scalar F] (c : Config F n) (m : UserModel F n EI EU S)
    (hg : Spec.GetSet m) (hd : c.params.damping = false) (st st' : Solver F n) (s s' : S)
    (calls : List (Call F n EI EU)) (r : Except (SolverError EI EU) Unit)
    (h : solve c (recorded m) st (s, []) = .ok (st', (s', calls), r)) (x : Vec F n)
    (hx : x ∈ points calls) :
    ∃ y : Vec F n, (y = c.guess ∨ ∃ v raw : Vec F n, ∀ i, y i = (c.iters i).stepLimitation (v i) (raw i)) ∧
      (x = y ∨ ∃ col f, (c.iters col).computePerturbation = some f ∧
        x = Function.update y col (Scalar.add (y col) (f (y col)))) := by
  have acc : ∀ {y}, Accepted c y →
      y = c.guess ∨ ∃ v raw : Vec F n, ∀ i, y i = (c.iters i).stepLimitation (v i) (raw i) := by
    rintro y (h | ⟨v, raw, rfl⟩)
    · exact .inl h
    · exact .inr ⟨v, raw, fun _ => rfl⟩
  rcases solve_points_fd hg hd h x hx with h | ⟨y, col, f, ha, hf, rfl⟩
  · exact ⟨x, acc h, .inl rfl⟩
  · refine ⟨y, acc ha, .inr ⟨col, f, hf, ?_⟩⟩
    funext l
    by_cases hl : l = col
    · subst hl; simp [moved]
    · simp [moved, hl]

variable {K : Type} [Field K] [LinearOrder K] [IsStrictOrderedRing K]

/-- Exact arithmetic: with the guess in the range, the model is evaluated at points that are inside
the range except for one coordinate, which may be above the maximum by at most the perturbation taken
at some value of the range. -/
theorem C32_range_partial (c : Config K n) (m : UserModel K n EI EU S)
    (hg : Spec.GetSet m) (hd : c.params.damping = false)
    (p : Fin n → IterativeParamsFD K) (hp : ∀ i, c.iters i = (p i).toIterative)
    (hnew : ∀ i, ∃ a b lo hi da dr me, IterativeParamsFD.new a b lo hi da dr me = .ok (p i))
    (hguess : ∀ i, (p i).iterativeParams.minValue ≤ c.guess i ∧
      c.guess i ≤ (p i).iterativeParams.maxValue)
    (st st' : Solver K n) (s s' : S)
    (calls : List (Call K n EI EU)) (r : Except (SolverError EI EU) Unit)
    (h : solve c (recorded m) st (s, []) = .ok (st', (s', calls), r)) (x : Vec K n)
    (hx : x ∈ points calls) :
    ∃ y : Vec K n, (∀ i, (p i).iterativeParams.minValue ≤ y i ∧ y i ≤ (p i).iterativeParams.maxValue) ∧
      (x = y ∨ ∃ col, x = Function.update y col (y col + (p col).computePerturbation (y col)) ∧
        0 < (p col).computePerturbation (y col)) := by
  obtain ⟨y, hy, hxy⟩ := C32_points_partial c m hg hd st st' s s' calls r h x hx
  refine ⟨y, fun i => ?_, ?_⟩
  · rcases hy with rfl | ⟨v, raw, hy⟩
    · exact hguess i
    · obtain ⟨a, b, lo, hi, da, dr, me, hn⟩ := hnew i
      obtain ⟨-, -, q, hq, hpi⟩ := paramsFd_new_eq_ok.1 hn
      obtain ⟨-, -, h3, hq'⟩ := params_new_eq_ok.1 hq
      rw [ex_le_false] at h3
      rw [hy i, hp i, hpi, hq']
      exact ⟨le_min (le_max_right _ _) h3.le, min_le_right _ _⟩
  · rcases hxy with rfl | ⟨col, f, hf, rfl⟩
    · exact .inl rfl
    · rw [hp col] at hf
      cases hf
      refine .inr ⟨col, rfl, ?_⟩
      obtain ⟨a, b, lo, hi, da, dr, me, hn⟩ := hnew col
      obtain ⟨h1, h2, q, hq, hpi⟩ := paramsFd_new_eq_ok.1 hn
      rw [ex_le_false] at h1 h2
      change 0 < da at h1
      change 0 < dr at h2
      rw [hpi]
      cases me
      · exact lt_max_of_lt_left h1
      · exact add_pos_of_pos_of_nonneg h1 (mul_nonneg (abs_nonneg _) h2.le)

private theorem limited_from {q : IterativeParams K}
    (ha : 0 < q.maxStepAbs) (hb : 0 < q.maxStepRel) {x d r : K} (hd : 0 ≤ d)
    (hlo : q.minValue ≤ x) (hhi : x ≤ q.maxValue) :
    x - q.maxStepAbs ≤ q.stepLimitation (x + d) r ∧ q.stepLimitation (x + d) r ≤ x + q.maxStepAbs + d := by
  have hM : 0 ≤ min q.maxStepAbs (q.maxStepRel * |x + d|) :=
    le_min ha.le (mul_nonneg hb.le (abs_nonneg _))
  have h0 : 0 ≤ min (min q.maxStepAbs (q.maxStepRel * |x + d|)) |r| := le_min hM (abs_nonneg r)
  have hs : |min (min q.maxStepAbs (q.maxStepRel * |x + d|)) |r| * (if 0 ≤ r then (1 : K) else -1)| ≤
      q.maxStepAbs := by
    have : |min (min q.maxStepAbs (q.maxStepRel * |x + d|)) |r| * (if 0 ≤ r then (1 : K) else -1)| =
        min (min q.maxStepAbs (q.maxStepRel * |x + d|)) |r| := by
      split <;> simp [abs_of_nonneg h0]
    rw [this]
    exact (min_le_left _ _).trans (min_le_left _ _)
  obtain ⟨g1, g2⟩ := abs_le.1 hs
  change x - q.maxStepAbs ≤ min (max (x + d + min (min q.maxStepAbs (q.maxStepRel * |x + d|)) |r| *
    (if 0 ≤ r then (1 : K) else -1)) q.minValue) q.maxValue ∧
    min (max (x + d + min (min q.maxStepAbs (q.maxStepRel * |x + d|)) |r| *
    (if 0 ≤ r then (1 : K) else -1)) q.minValue) q.maxValue ≤ _
  refine ⟨le_min (le_max_of_le_left (by linarith)) (by linarith),
    (min_le_left _ _).trans (max_le (by linarith) (by linarith))⟩

/-- Exact arithmetic, model without analytic Jacobian, no damping, every method: in one iteration from
a point of the range to the next one (again in the range) every variable moves down by at most
`max_step_abs`, and up by at most `max_step_abs`, except the last variable, which may move up by
`max_step_abs` plus its perturbation.  Missing for C32: the limit for the last variable, see
`C32_refuted_step`. -/
theorem C32_step_partial (c : Config K n) (m : UserModel K n EI EU S)
    (hg : Spec.GetSet m) (hq : Spec.MemoryQuiet m) (hd : c.params.damping = false)
    (p : Fin n → IterativeParamsFD K) (hp : ∀ i, c.iters i = (p i).toIterative)
    (hnew : ∀ i, ∃ a b lo hi da dr me, IterativeParamsFD.new a b lo hi da dr me = .ok (p i))
    (st st' : Solver K n) (s s' : S) (hj : m.jacobianProvided s = false) (hlen : m.lenProblem s = n)
    (hin : ∀ i, (p i).iterativeParams.minValue ≤ m.getIteratives s i ∧
      m.getIteratives s i ≤ (p i).iterativeParams.maxValue) (e : K)
    (h : iterate c m st s = .ok (st', s', .ok e)) (i : Fin n) :
    ((p i).iterativeParams.minValue ≤ m.getIteratives s' i ∧
      m.getIteratives s' i ≤ (p i).iterativeParams.maxValue) ∧
    m.getIteratives s i - (p i).iterativeParams.maxStepAbs ≤ m.getIteratives s' i ∧
    m.getIteratives s' i ≤ m.getIteratives s i + (p i).iterativeParams.maxStepAbs +
      (if i.1 + 1 = n then (p i).computePerturbation (m.getIteratives s i) else 0) := by
  obtain ⟨a, b, lo, hi, da, dr, me, hn⟩ := hnew i
  obtain ⟨hda, hdr, q, hq', hpi⟩ := paramsFd_new_eq_ok.1 hn
  obtain ⟨h1, h2, h3, hqi⟩ := params_new_eq_ok.1 hq'
  rw [ex_le_false] at h1 h2 h3 hda hdr
  have hpos : 0 < (p i).computePerturbation (m.getIteratives s i) := by
    rw [hpi]
    cases me
    · exact lt_max_of_lt_left hda
    · exact add_pos_of_pos_of_nonneg hda (mul_nonneg (abs_nonneg _) (le_of_lt hdr))
  have ha : 0 < (p i).iterativeParams.maxStepAbs := by rw [hpi, hqi]; exact h1
  have hb : 0 < (p i).iterativeParams.maxStepRel := by rw [hpi, hqi]; exact h2
  have hle : (p i).iterativeParams.minValue ≤ (p i).iterativeParams.maxValue := by
    rw [hpi, hqi]; exact h3.le
  cases iterate_outcome h with
  | step st1 s1 x st2 s2 e hs hu =>
    have hx : m.getIteratives s' = x := by
      have : ∀ {r1}, m.evaluate (m.setIteratives s1 x) = (s', r1) → m.getIteratives s' = x := by
        intro r1 he
        have : (m.evaluate (m.setIteratives s1 x)).1 = s' := congrArg Prod.fst he
        rw [← this, hg.get_evaluate, hg.get_set]
      cases hu with
      | plain s1 r v l he hu hd' => exact this he
      | refused s1 r v l he hu hd' => rw [hd] at hd'; cases hd'
      | damped s1 r v l s2 he hu hd' => rw [hd] at hd'; cases hd'
    have hv : m.getIteratives s1 i = m.getIteratives s i ∨ (i.1 + 1 = n ∧
        m.getIteratives s1 i = m.getIteratives s i + (p i).computePerturbation (m.getIteratives s i)) := by
      cases hs with
      | computed j l _ _ _ hjac hnext =>
        obtain ⟨M, inv, hM, -, -⟩ := computed_success hjac hnext
        cases hM with
        | analytic v hj' => rw [hj] at hj'; cases hj'
        | fd pert _ hpert hM =>
          unfold fdCompute at hM
          rw [hlen] at hM
          obtain ⟨f1, f2⟩ := fdLoop_final _ _ _ _ _ _ _ _ hM
          by_cases hn0 : n = 0
          · rw [f1 hn0]; exact .inl rfl
          · obtain ⟨s2, last, hlast, rfl⟩ := f2 hn0
            rw [hq.iteratives, hg.get_evaluate, hg.get_set]
            by_cases hil : i = last
            · subst hil
              refine .inr ⟨by omega, ?_⟩
              unfold computePerturbations at hpert
              split at hpert
              · rename_i hsome
                cases hpert
                have hf : (c.iters i).computePerturbation = some (p i).computePerturbation := by
                  rw [hp i]; rfl
                simp only [moved, if_true, ex_add]
                exact congrArg (_ + ·) (congrFun (Option.get_of_eq_some _ hf) _)
              · cases hpert
            · simp [moved, hil]
      | kept => exact .inl rfl
      | updated => exact .inl rfl
      | invUpdated => exact .inl rfl
    obtain ⟨v, raw, hlim⟩ : ∃ d raw, x i = (p i).iterativeParams.stepLimitation (m.getIteratives s i + d) raw ∧
        0 ≤ d ∧ d ≤ (if i.1 + 1 = n then (p i).computePerturbation (m.getIteratives s i) else 0) := by
      have lim : ∀ {st3 : Solver K n}, computeNext c m st3 s1 = .ok x → ∃ raw,
          x i = (p i).iterativeParams.stepLimitation (m.getIteratives s1 i) raw := by
        intro st3 hnext
        obtain ⟨inv, -, h⟩ := computeNext_ok hnext
        rw [h]
        refine ⟨mulVec c.la (mneg inv) (c.res.evaluateUpdate (m.getResiduals s1)) i, ?_⟩
        change (c.iters i).stepLimitation _ _ = _
        rw [hp i]
        rfl
      have lim' : ∃ raw, x i = (p i).iterativeParams.stepLimitation (m.getIteratives s1 i) raw := by
        cases hs with
        | computed j l _ _ _ hjac hnext => exact lim hnext
        | kept l _ _ _ hnext => exact lim hnext
        | updated u ds dy cur j l _ _ _ _ _ _ _ hnext => exact lim hnext
        | invUpdated u ds dy cur j l _ _ _ _ _ _ _ hnext => exact lim hnext
      obtain ⟨raw, hraw⟩ := lim'
      rcases hv with hv | ⟨hl, hv⟩
      · refine ⟨0, raw, by rw [hraw, hv, add_zero], le_refl 0, ?_⟩
        split
        · exact hpos.le
        · exact le_refl 0
      · exact ⟨_, raw, by rw [hraw, hv], hpos.le, by rw [if_pos hl]⟩
    obtain ⟨hlim, hd0, hd1⟩ := hlim
    have := limited_from (r := raw) ha hb hd0 (hin i).1 (hin i).2
    rw [hx, hlim]
    refine ⟨⟨le_min (le_max_right _ _) hle, min_le_right _ _⟩, this.1, this.2.trans ?_⟩
    linarith

end

/-- Accepted parameters, guess in the range, a solve without analytic Jacobian that ends. -/
example : (∀ i, (Demo.narrowCfg 1).iters i = Demo.narrow.toIterative) ∧
    (∃ a b lo hi da dr me, IterativeParamsFD.new a b lo hi da dr me = .ok Demo.narrow) ∧
    Spec.GetSet Demo.sqrt2Fd ∧ Spec.MemoryQuiet Demo.sqrt2Fd ∧
    Demo.kind (solve (Demo.narrowCfg 1) (recorded Demo.sqrt2Fd) .new (Demo.start, [])) = .ok :=
  ⟨fun _ => rfl, ⟨_, _, _, _, _, _, _, Demo.narrow_new⟩, ⟨fun _ _ => rfl, fun _ => rfl⟩,
    ⟨fun _ _ => rfl, fun _ _ => rfl⟩, by decide +kernel⟩

end Nrf
