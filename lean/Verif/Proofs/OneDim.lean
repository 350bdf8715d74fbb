import Verif.Proofs.Secant
import Verif.Spec.OneDim

/-!
# One equation with one unknown: residuals, errors and derivatives of the adapters
-/

namespace Nrf
open Spec
open scoped Exact
set_option linter.unusedSectionVars false

variable {K : Type} [Field K] [LinearOrder K] [IsStrictOrderedRing K]

theorem updating_cases {meth : ResolutionMethod} (h : Spec.Updating meth) :
    ∃ u full, Updates meth u full := by
  obtain ⟨u, rfl | rfl⟩ := h
  · exact ⟨u, true, .jac u⟩
  · exact ⟨u, false, .inv u⟩

theorem updateAt_zero {c : Config K 1} (hc : Spec.Default c) (f : Vec K 1 → Vec K 1) (x : Vec K 1) :
    updateAt c (fun x => ⟨f x, 0⟩) x 0 = f x 0 := by
  change c.res.evaluateUpdate _ 0 = _
  rw [evaluateUpdate_exact, hc.update]
  exact sub_zero _

theorem errorsAt_zero {c : Config K 1} (hc : Spec.Default c) (f : Vec K 1 → Vec K 1) (x : Vec K 1) :
    errorsAt c (fun x => ⟨f x, 0⟩) x 0 = |f x 0| := by
  change c.res.evaluateStopping _ 0 = _
  rw [evaluateStopping_exact, hc.stop]
  exact congrArg abs (sub_zero _)

theorem analyticAt_zero {c : Config K 1} (hc : Spec.Default c) (f : Vec K 1 → Vec K 1)
    (j : Vec K 1 → Mat K 1) (x : Vec K 1) :
    analyticAt c (fun x => ⟨f x, 0⟩) (fun x => ⟨j x, mzero⟩) x 0 0 = j x 0 0 := by
  change derivNormalization _ _ _ _ (c.res.upd 0) = _
  rw [hc.update]
  exact sub_zero _

theorem amax_single (v : Vec K 1) : amax v = |v 0| := by
  apply le_antisymm
  · rw [amax_le_iff _ (abs_nonneg _)]
    intro i
    rw [Subsingleton.elim i 0]
  · exact abs_le_amax v 0


section
variable {EI EU S : Type} {m : UserModel K 1 EI EU S} {inv : S → Prop} {D : Vec K 1 → Prop}
  {f : Vec K 1 → ResidualsValues K 1} {c : Config K 1}

/-- One Newton-Raphson pass with a non-zero slope. -/
theorem newton_pass (hc : Spec.Default c) (hm : c.params.method = .NewtonRaphson)
    (hf : Computes m inv D f) {x x' p a : K} (hJ : Source c m inv D f (vec1 x) (vec1 p) (mat1 a))
    (ha : a ≠ 0) (hx' : x' = x - updateAt c f (vec1 x) 0 / a) (hD : D (vec1 x'))
    {st : Solver K 1} (hd : st.debug = false) {s : S} (hs : At m inv f s (vec1 x)) :
    ∃ st' s', iterate c m st s = .ok (st', s', .ok (amax (evaluateErrors c m s'))) ∧
      At m inv f s' (vec1 x') ∧ st'.debug = false ∧ st'.valid = true := by
  obtain ⟨st', s', z, hs', -, hi, rfl⟩ := iterate_newton (x' := vec1 x') hc.exact hf hJ (det_one_ne ha)
    (by
      funext i
      rw [Subsingleton.elim i 0, Pi.sub_apply, mulVec_one, hx', inv_one]
      change x - a⁻¹ * _ = x - _ / a
      ring)
    hD (fun z _ i => by rw [hc.free]; ring) (fun h => by rw [hc.damping] at h; cases h) hd (.inl hm) hs
  exact ⟨_, s', hi, hs', (storeSteps_fields ..).2.2.2.2.trans hd, (storeSteps_fields ..).2.2.2.1⟩

/-- One Newton-Raphson pass with slope zero. -/
theorem newton_pass_flat (hc : Spec.Default c) (hm : c.params.method = .NewtonRaphson)
    (hf : Computes m inv D f) {x p : K} (hJ : Source c m inv D f (vec1 x) (vec1 p) (mat1 0))
    {st : Solver K 1} (hd : st.debug = false) {s : S} (hs : At m inv f s (vec1 x)) :
    ∃ st' s', iterate c m st s = .ok (st', s', .error (.jacobian .invalidJacobianInverse)) := by
  obtain ⟨j', s', h⟩ := source_singular hc.exact hf hJ (by simp [mat1]) hs st.jac
  exact ⟨_, s', iterate_singular
    (computeStep_singular (st := { st with iter := st.iter + 1 }) hd (.inl hm) h)⟩

/-- Finite differences of the function adapter. -/
theorem differences_zero (hc : Spec.Default c) (g : Vec K 1 → Vec K 1) (x p : K) :
    differencesAt c (fun x => ⟨g x, 0⟩) (vec1 p) (vec1 x) =
      mat1 ((g (vec1 (x + p)) 0 - g (vec1 x) 0) / p) := by
  rw [mat_one (differencesAt c _ (vec1 p) (vec1 x))]
  congr 1
  unfold differencesAt
  rw [updateAt_zero hc, updateAt_zero hc]
  have : moved (vec1 x) 0 (vec1 p 0) = vec1 (x + p) := by
    rw [vec_one (moved (vec1 x) 0 (vec1 p 0))]
    congr 1
  rw [this]
  rfl

/-- The slope of the adapter with a derivative. -/
theorem analytic_source (hc : Spec.Default c) (func deriv : K → K) (x : K) :
    Source c (fromFunctionAndJacobian (fun x _ => func (x 0)) (fun x _ _ => deriv (x 0)))
      (fun s => s.right = 0) (fun _ => True) (fun x => ⟨fun _ => func (x 0), 0⟩) (vec1 x) (vec1 0)
      (mat1 (deriv x)) := by
  have h := Source.analytic (c := c) (D := fun _ => True) (x := vec1 x) (pert := vec1 0) _
    (fromFunctionAndJacobian_differentiates (fun (x : Vec K 1) _ => func (x 0)) (fun x _ _ => deriv (x 0)) 0)
  have e : analyticAt c (fun x => ⟨fun _ => func (x 0), 0⟩)
      (fun x => ⟨fun _ _ => deriv (x 0), mzero⟩) (vec1 x) = mat1 (deriv x) := by
    rw [mat_one (analyticAt c _ _ (vec1 x))]
    exact congrArg mat1
      (analyticAt_zero hc (fun x _ => func (x 0)) (fun x => mat1 (deriv (x 0))) (vec1 x))
  exact e ▸ h

/-- The slope of the adapter without derivative. -/
theorem fd_source (hc : Spec.Default c) (func : K → K) {p : K → K}
    (hp : (c.iters 0).computePerturbation = some p) (x : K) (hx : p x ≠ 0) :
    Source c (fromFunction (fun x _ => func (x 0)))
      (fun s => s.right = 0) (fun _ => True) (fun x => ⟨fun _ => func (x 0), 0⟩) (vec1 x) (vec1 (p x))
      (mat1 ((func (x + p x) - func x) / p x)) := by
  have h := Source.fd (c := c) (D := fun _ => True) (x := vec1 x) (pert := vec1 (p x))
    (fromFunction_underived (fun (x : Vec K 1) _ => func (x 0)) 0)
    (by
      have hsome : ∀ i, ((c.iters i).computePerturbation).isSome := by
        intro i; rw [Subsingleton.elim i 0, hp]; rfl
      rw [computePerturbations, dif_pos hsome]
      congr 1
      funext i
      rw [Subsingleton.elim i 0]
      exact congrFun (Option.get_of_eq_some _ hp) _)
    (fun _ => hx) (fun _ => trivial)
  rw [differences_zero hc (fun (x : Vec K 1) _ => func (x 0))] at h
  exact h

end
end Nrf
