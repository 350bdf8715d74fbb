import Verif.Props.C30
import Verif.Proofs.ExactMat

/-!
# C31: the perturbed state left by finite differences does not change the Newton step
-/

namespace Nrf
open scoped Exact

/-- Exact arithmetic, any dimension, function, update methods, perturbations: whenever the solver
computes a finite-difference matrix `J` at the point `x` with residuals `F` and proposes a next point
without limits, it proposes `x - J⁻¹ F`, although it reads iteratives and residuals from the model as
the column loop left it. -/
theorem C31_newton_step {K : Type} [Field K] [LinearOrder K] {n : Nat} {EI EU S C : Type}
    (c : Config K n) (m : UserModel K n EI EU S) (ctx : S → C) (hL : c.la.IsExact)
    (hm : Spec.Memory m ctx) (hg : Spec.GetSet m) (hq : Spec.MemoryQuiet m)
    (hfree : ∀ i v r, (c.iters i).stepLimitation v r = v + r)
    (hpert : ∀ i f, (c.iters i).computePerturbation = some f → ∀ x, f x ≠ 0)
    (st st' : Solver K n) (s s' : S) (hp : m.jacobianProvided s = false) (hlen : m.lenProblem s = n)
    (hneed : c.params.method = .NewtonRaphson ∨ st.jac.computeNext = true) (x : Vec K n)
    (h : computeStep c m st s = .ok (st', s', .ok x)) :
    ∃ J : Mat K n, st'.jac.matrix = some J ∧ J.det ≠ 0 ∧
      x = m.getIteratives s - J⁻¹.mulVec (c.res.evaluateUpdate (m.getResiduals s)) := by
  have key : ∀ j j' l, computeJac c m j s = .ok (j', s', .ok ()) →
      computeNext c m { st with jac := j', log := l } s' = .ok x →
      ∃ J : Mat K n, j'.matrix = some J ∧ J.det ≠ 0 ∧
      x = m.getIteratives s - J⁻¹.mulVec (c.res.evaluateUpdate (m.getResiduals s)) := by
    intro j j' l hj hx
    obtain ⟨inv, hinv, hx'⟩ := ex_computeNext hL hfree hx
    obtain ⟨M, inv', hM, hi, rfl⟩ := computed_success hj hx
    obtain ⟨hdet, rfl⟩ := ex_inv hL hi
    cases hinv
    refine ⟨M, rfl, hdet, ?_⟩
    cases hM with
    | analytic v hp' => rw [hp] at hp'; cases hp'
    | fd pert _ hpe hM =>
      have hne : ∀ i, pert i ≠ 0 := by
        intro i
        unfold computePerturbations at hpe
        split at hpe
        · rename_i hs
          cases hpe
          obtain ⟨f, hf⟩ := Option.isSome_iff_exists.1 (hs i)
          change (c.iters i).computePerturbation.get (hs i) _ ≠ 0
          rw [show (c.iters i).computePerturbation.get (hs i) = f from Option.get_of_eq_some _ hf]
          exact hpert i f hf _
        · cases hpe
      have hcol := C30_columns c m ctx hm s s' hlen pert M hM
      unfold fdCompute at hM
      rw [hlen] at hM
      obtain ⟨-, -, h3, h4⟩ := fdLoop_columns hm s pert _ _ n 0 mzero s rfl hM
      by_cases hn : n = 0
      · rw [h3 hn] at hx'; exact hx'
      · obtain ⟨s1, last, -, hc1, hs'⟩ := h4 hn
        have e1 : m.getIteratives s' = m.getIteratives s + Pi.single last (pert last) := by
          rw [hs', hq.iteratives, hg.get_evaluate, hg.get_set]
          funext l
          by_cases h : l = last
          · subst h; simp [moved, ex_add]
          · simp [moved, h]
        have e2 : c.res.evaluateUpdate (m.getResiduals s') =
            c.res.evaluateUpdate (m.getResiduals s) + M.mulVec (Pi.single last (pert last)) := by
          rw [hs', hq.residuals, hm.residuals s1 s _ hc1]
          funext row
          have := hcol row last
          rw [ex_div, ex_sub, eq_div_iff (hne last)] at this
          rw [Matrix.mulVec_single]
          simp only [Pi.add_apply, Matrix.col_apply, Pi.smul_apply, MulOpposite.smul_eq_mul_unop,
            MulOpposite.unop_op]
          rw [this]
          exact (add_sub_cancel _ _).symm
        rw [hx', e1, e2, Matrix.mulVec_add, Matrix.mulVec_mulVec, ex_inv_mul hdet, Matrix.one_mulVec]
        abel
  cases computeStep_outcome h with
  | computed j l _ _ _ hj hx => exact key _ _ _ hj hx
  | kept l _ hm' hc hx =>
    rcases hneed with h' | h'
    · rw [h'] at hm'; cases hm'
    · rw [h'] at hc; cases hc
  | updated u ds dy cur j l _ hm' hc h1 h2 h3 hj hx =>
    rcases hneed with h' | h'
    · rw [h'] at hm'; cases hm'
    · rw [h'] at hc; cases hc
  | invUpdated u ds dy cur j l _ hm' hc h1 h2 h3 hj hx =>
    rcases hneed with h' | h'
    · rw [h'] at hm'; cases hm'
    · rw [h'] at hc; cases hc

namespace Demo

/-- No limits, coarse perturbation. -/
def freeCfg : Config ℚ 1 :=
  { cfg .NewtonRaphson false 5 (1/1000) 2 with
    iters := fun _ =>
      { stepLimitation := fun v r => v + r, computePerturbation := some fun _ => 1/2, withFiniteDiff := true } }

/-- From 2 with residual 2 the secant slope over `[2, 5/2]` is `9/2`, so the next point is
`2 - 4/9 = 14/9`; the model itself was left at `5/2`. -/
example : (match computeStep freeCfg sqrt2Fd .new ⟨fun _ => 2, fun _ => 2, fun _ => 0⟩ with
    | .ok (_, s', .ok x) => decide (x 0 = 14/9) && decide (sqrt2Fd.getIteratives s' 0 = 5/2)
    | _ => false) = true := by decide +kernel

/-- The adapters meet the contracts. -/
example : Spec.Memory sqrt2Fd AdapterState.right ∧ Spec.GetSet sqrt2Fd ∧ Spec.MemoryQuiet sqrt2Fd :=
  ⟨⟨fun s s' x h => by simp [sqrt2Fd, fromFunction, h], fun s s0 x h => h⟩,
    ⟨fun _ _ => rfl, fun _ => rfl⟩, ⟨fun _ _ => rfl, fun _ _ => rfl⟩⟩

end Demo
end Nrf
