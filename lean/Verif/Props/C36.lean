import Verif.Proofs.JacOutcome
import Verif.Proofs.Exact
import Verif.Spec.Contract
import Verif.Spec.Demo

/-!
# C36: quasi-Newton updates use the change of the residual function

The documentation (`resolution_method.rs` L101-105) defines the pair of an update as
`s = x_{i+1} - x_i` and `y = F(x_{i+1}) - F(x_i)`.  The code (`rootfinder.rs` L376-384) stores the change
of the stopping errors, which are absolute values, and takes the old point from the model after the
Jacobian computation has moved it.  Both deviations are shown by concrete runs.
-/

namespace Nrf
open scoped Exact

namespace Demo

/-- `2 - x² = 0` with its derivative. -/
def sqrt2Neg : UserModel ℚ 1 Empty Empty (AdapterState ℚ 1) :=
  fromFunctionAndJacobian (fun x _ => 2 - x 0 * x 0) (fun x _ _ => -2 * x 0)

/-- A model evaluated at 2. -/
def atTwo (f : ℚ → ℚ) : AdapterState ℚ 1 := ⟨fun _ => 2, fun _ => f 2, fun _ => 0⟩

/-- The pair stored by the first pass from `s`, with the documented one. -/
def pairs (c : Config ℚ 1) (m : UserModel ℚ 1 Empty Empty (AdapterState ℚ 1)) (s : AdapterState ℚ 1) :
    Option ((ℚ × ℚ) × (ℚ × ℚ)) :=
  match iterate c m .new s with
  | .ok (st', s', .ok _) =>
    match st'.itStep, st'.resStep with
    | some ds, some dy => some ((ds 0, dy 0),
        (m.getIteratives s' 0 - m.getIteratives s 0,
          c.res.evaluateUpdate (m.getResiduals s') 0 - c.res.evaluateUpdate (m.getResiduals s) 0))
    | _, _ => none
  | _ => none

end Demo

/-- Refuted for `y`: on `2 - x² = 0` from 2 with an analytic Jacobian the residual goes from `-2` to
`-1/4`, a change of `7/4`; the stored change is `-7/4`.  This for all eight updating methods. -/
theorem C36_refuted_change (u : UpdateMethod) (q : UpdateMethod → QuasiNewtonMethod)
    (hq : q = .JacobianUpdate ∨ q = .InverseJacobianUpdate) :
    Demo.pairs (Demo.cfg (.QuasiNewton (q u)) false 9 (1/1000) 2) Demo.sqrt2Neg
      (Demo.atTwo fun x => 2 - x * x) = some ((-1/2, -7/4), (-1/2, 7/4)) := by
  rcases hq with rfl | rfl <;> cases u <;> decide +kernel

/-- Refuted for `s`: on `x² = 2` from 2 with finite differences, the stored step starts at the
perturbed point `2.02`. -/
theorem C36_refuted_step (u : UpdateMethod) (q : UpdateMethod → QuasiNewtonMethod)
    (hq : q = .JacobianUpdate ∨ q = .InverseJacobianUpdate) :
    ∃ ds dy ds' dy', Demo.pairs (Demo.cfg (.QuasiNewton (q u)) false 9 (1/1000) 2) Demo.sqrt2Fd
      (Demo.atTwo fun x => x * x - 2) = some ((ds, dy), (ds', dy')) ∧ ds = ds' - 1/50 ∧ ds ≠ ds' := by
  refine ⟨-5201/10050, 10402/40401 - 20804/10000, -100/201, 10402/40401 - 2, ?_, by norm_num, by norm_num⟩
  rcases hq with rfl | rfl <;> cases u <;> decide +kernel

section
variable {F : Type} [Scalar F] {n : Nat} {EI EU S : Type}

/-- What is stored, for any arithmetic, model and updating method: the changes of the iteratives and
of the stopping errors since the step was proposed (in state `s1`, after any Jacobian computation). -/
theorem C36_stored_partial (c : Config F n) (m : UserModel F n EI EU S) (u : UpdateMethod)
    (hm : c.params.method = .QuasiNewton (.JacobianUpdate u) ∨
      c.params.method = .QuasiNewton (.InverseJacobianUpdate u))
    (st st' : Solver F n) (s s' : S) (e : F) (h : iterate c m st s = .ok (st', s', .ok e)) :
    ∃ st1 s1 x, computeStep c m { st with iter := st.iter + 1 } s = .ok (st1, s1, .ok x) ∧
      st'.itStep = some (vsub (m.getIteratives s') (m.getIteratives s1)) ∧
      st'.resStep = some (vsub (c.res.evaluateStopping (m.getResiduals s'))
        (c.res.evaluateStopping (m.getResiduals s1))) ∧
      st'.resCur = some (c.res.evaluateStopping (m.getResiduals s')) := by
  simp only [iterate, bind, Except.bind, pure, Except.pure] at h
  split at h
  · cases h
  rename_i v hs
  obtain ⟨st1, s1, r1⟩ := v
  dsimp only at h
  split at h
  · rename_i x
    split at h
    · cases h
    rename_i v hu
    obtain ⟨st2, s2, r2⟩ := v
    dsimp only at h
    split at h
    · cases h
      refine ⟨st1, s1, x, hs, ?_⟩
      cases updateModel_outcome hu <;> rcases hm with hm | hm <;>
        simp only [storeSteps, hm] <;> exact ⟨trivial, rfl, rfl⟩
    · cases h
  · cases h

end

section
variable {K : Type} [Field K] [LinearOrder K] [IsStrictOrderedRing K] {n : Nat} {EI EU S : Type}

/-- Exact arithmetic and an analytic Jacobian: the stored step is the documented one, and component
`i` of the stored change is the documented one exactly when both residuals are non-negative or they
are equal. -/
theorem C36_sign_partial (c : Config K n) (m : UserModel K n EI EU S) (hj : Spec.AnalyticJacobian m)
    (u : UpdateMethod)
    (hm : c.params.method = .QuasiNewton (.JacobianUpdate u) ∨
      c.params.method = .QuasiNewton (.InverseJacobianUpdate u))
    (hres : c.res.stop = c.res.upd)
    (st st' : Solver K n) (s s' : S) (e : K) (h : iterate c m st s = .ok (st', s', .ok e)) :
    st'.itStep = some (m.getIteratives s' - m.getIteratives s) ∧
    ∃ dy, st'.resStep = some dy ∧ ∀ i,
      (dy i = c.res.evaluateUpdate (m.getResiduals s') i - c.res.evaluateUpdate (m.getResiduals s) i ↔
        (0 ≤ c.res.evaluateUpdate (m.getResiduals s') i ∧ 0 ≤ c.res.evaluateUpdate (m.getResiduals s) i) ∨
        c.res.evaluateUpdate (m.getResiduals s') i = c.res.evaluateUpdate (m.getResiduals s) i) := by
  obtain ⟨st1, s1, x, h1, h2, h3, -⟩ := C36_stored_partial c m u hm st st' s s' e h
  have hsame : m.getIteratives s1 = m.getIteratives s ∧ m.getResiduals s1 = m.getResiduals s := by
    cases computeStep_outcome h1 with
    | computed j l _ _ _ hjac hx =>
      obtain ⟨M, inv', hM, hi, rfl⟩ := computed_success hjac hx
      cases hM with
      | analytic v hp hg =>
        have h1 := hj.iteratives s
        have h2 := hj.residuals s
        rw [hg] at h1 h2
        exact ⟨h1, h2⟩
      | fd pert hp => rw [hj.provided] at hp; cases hp
    | kept => exact ⟨rfl, rfl⟩
    | updated => exact ⟨rfl, rfl⟩
    | invUpdated => exact ⟨rfl, rfl⟩
  rw [hsame.1] at h2
  rw [hsame.2] at h3
  refine ⟨h2, _, h3, fun i => ?_⟩
  change c.res.evaluateStopping _ i - c.res.evaluateStopping _ i = _ ↔ _
  rw [evaluateStopping_exact, evaluateStopping_exact, evaluateUpdate_exact, evaluateUpdate_exact, hres]
  generalize Spec.residual (c.res.upd i) ((m.getResiduals s').left i) ((m.getResiduals s').right i) = b
  generalize Spec.residual (c.res.upd i) ((m.getResiduals s).left i) ((m.getResiduals s).right i) = a
  constructor
  · intro h
    rcases abs_cases b with ⟨hb, hb'⟩ | ⟨hb, hb'⟩ <;> rcases abs_cases a with ⟨ha, ha'⟩ | ⟨ha, ha'⟩
    · exact .inl ⟨hb', ha'⟩
    · rw [hb, ha] at h; exfalso; linarith
    · rw [hb, ha] at h; exfalso; linarith
    · rw [hb, ha] at h; right; linarith
  · rintro (⟨hb, ha⟩ | hab)
    · rw [abs_of_nonneg hb, abs_of_nonneg ha]
    · rw [hab]; ring

end

/-- The hypotheses hold and the positive case occurs: on `x² = 2` from 2 the residuals are positive and
the stored pair is the documented one. -/
example : Demo.pairs (Demo.cfg (.QuasiNewton (.JacobianUpdate .BroydenFirst)) false 9 (1/1000) 2)
      Demo.sqrt2 (Demo.atTwo fun x => x * x - 2) = some ((-1/2, -7/4), (-1/2, -7/4)) ∧
    Spec.AnalyticJacobian Demo.sqrt2 :=
  ⟨by decide +kernel, ⟨fun _ => rfl, fun _ => rfl, fun _ => rfl⟩⟩

end Nrf
