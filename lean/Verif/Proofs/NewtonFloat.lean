import Verif.Proofs.Follow
import Verif.Proofs.LimitsFloat
import Verif.Proofs.RelError
import Verif.Model.Lu

/-!
# One equation with one unknown in floating-point arithmetic: a Newton-Raphson pass
-/

set_option linter.unusedSectionVars false

namespace Nrf
open Spec Fl

/-- Newton-Raphson with the defaults of the library in dimension one: no damping, `Abs` residuals, default limits,
the arithmetic of nalgebra. -/
structure Spec.NewtonDefault {F : Type} [Scalar F] [HasSpecials F] (c : Config F 1) : Prop where
  la : c.la = nalgebraLinAlg F 1
  method : c.params.method = .NewtonRaphson
  damping : c.params.damping = false
  stop : c.res.stop 0 = .Abs
  update : c.res.upd 0 = .Abs
  limits : (c.iters 0).stepLimitation = IterativeParams.default.stepLimitation

section
variable {K : Type} [Field K] [LinearOrder K] [Rounding K] [IsStrictOrderedRing K]

theorem fl_sub_zero (a : Fl K) : Fl.sub a (.zero false) = a := by
  rcases a with _ | s | s | ⟨x, hx⟩
  · rfl
  · rfl
  · cases s <;> rfl
  · rfl

theorem fl_min_inf {a : Fl K} (ha : a ≠ .nan) : Fl.min (.inf false) a = a := by
  rcases a with _ | s | s | ⟨x, hx⟩
  · exact absurd rfl ha
  · cases s <;> rfl
  · rfl
  · rfl

theorem fl_clamp {a : Fl K} (ha : a ≠ .nan) : Fl.min (Fl.max a (.inf true)) (.inf false) = a := by
  rcases a with _ | s | s | ⟨x, hx⟩
  · exact absurd rfl ha
  · cases s <;> rfl
  · rfl
  · rfl

/-- The default limits do not change a step. -/
theorem fl_default_limits {v d : Fl K} (hv : v.IsFinite) (hd : d ≠ .nan) :
    (IterativeParams.default : IterativeParams (Fl K)).stepLimitation v d = Fl.add v d := by
  rw [fl_stepLimitation]
  change Fl.min (Fl.max (Fl.add v (Fl.mul (Fl.min (Fl.min (.inf false) (Fl.mul (.inf false) (Fl.abs v))) (Fl.abs d))
    (Fl.signum d))) (.inf true)) (.inf false) = _
  have h1 : Fl.min (.inf false) (Fl.mul (.inf false) (Fl.abs v)) = .inf false := by
    rcases v with _ | s | s | ⟨x, hx⟩
    · exact hv.elim
    · exact hv.elim
    · rfl
    · simp only [Fl.abs]
      split_ifs with h
      · have : ¬ -x < 0 := by linarith
        simp [Fl.mul, Fl.sign, this, Fl.min, Fl.ltb]
      · simp [Fl.mul, Fl.sign, h, Fl.min, Fl.ltb]
  rw [h1, fl_min_inf (abs_not_nan hd), abs_mul_signum hd]
  exact fl_clamp (add_not_nan hv hd)

theorem fl_isZero_false {a : Fl K} (ha : a.IsFinite) (h : a.val ≠ 0) : isZero a = false := by
  rcases a with _ | s | s | ⟨x, hx⟩
  · exact ha.elim
  · exact ha.elim
  · exact absurd rfl h
  · change (Fl.leb (.num x hx) (.zero false) && Fl.leb (.zero false) (.num x hx)) = false
    rcases lt_or_gt_of_ne hx.1 with h | h
    · simp [Fl.leb, h, h.le]
    · simp [Fl.leb, h, h.le]

theorem lu_one {F : Type} [Scalar F] {A : Mat F 1} (h : isZero (A 0 0) = false) :
    luInverse A = some fun _ _ => Scalar.one /ᶠ A 0 0 := by
  have hl : lu A = (A, fun r => r) := by
    change luStep (A, fun r => r) 0 = _
    unfold luStep
    have hp : pivotRow A 0 = 0 := Subsingleton.elim _ _
    simp only [hp, h, Bool.false_eq_true, if_false]
    have : ∀ r k : Fin 1, gaussStep (swapRows A 0 0) 0 r k = A r k := by
      intro r k
      rw [Subsingleton.elim r 0, Subsingleton.elim k 0]
      simp [gaussStep, swapRows]
    refine Prod.ext (funext fun r => funext fun k => this r k) (funext fun r => Subsingleton.elim _ _)
  have hc : ∀ j : Fin 1, solveUpper A (solveLower A (permutedUnit (fun r => r) j)) =
      some fun _ => Scalar.one /ᶠ A 0 0 := by
    intro j
    rw [Subsingleton.elim j 0]
    have h1 : solveLower A (permutedUnit (fun r => r) 0) = fun _ => (Scalar.one : F) := by
      funext r
      rw [Subsingleton.elim r 0]
      rfl
    rw [h1]
    change upperStep A (some _) 0 = _
    simp only [upperStep, Option.bind_some, h, Bool.false_eq_true, if_false]
    congr 1
    funext r
    rw [if_pos (Subsingleton.elim _ _)]
  have hc' : ∀ j : Fin 1, solveUpper (lu A).1 (solveLower (lu A).1 (permutedUnit (lu A).2 j)) =
      some fun _ => Scalar.one /ᶠ A 0 0 := by
    rw [hl]
    exact hc
  unfold luInverse
  rw [dif_pos fun j => Option.isSome_of_eq_some (hc' j)]
  congr 1
  funext r j
  exact congrFun (Option.get_of_eq_some _ (hc' j)) r

theorem fl_div_finite {a b : Fl K} (ha : a.IsFinite) (hb : b.IsFinite) (h : b.val ≠ 0) :
    ∃ z, Fl.div a b = ofExact z (a.val / b.val) := by
  rcases a with _ | s | s | ⟨x, hx⟩ <;> rcases b with _ | t | t | ⟨y, hy⟩ <;>
    first
      | exact ha.elim
      | exact hb.elim
      | exact absurd rfl h
      | exact ⟨false, rfl⟩
      | exact ⟨_, by simp only [val, zero_div, ofExact_zero]; rfl⟩

theorem fl_neg_finite {a : Fl K} (h : a.IsFinite) : (Fl.neg a).IsFinite := by
  rcases a with _ | s | s | ⟨x, hx⟩ <;> first | exact h.elim | trivial

theorem fl_ltb_val {a b : Fl K} (ha : a.IsFinite) (hb : b.IsFinite) : Fl.ltb a b = true ↔ a.val < b.val := by
  rw [ltb_iff ha.not_nan hb.not_nan]
  have := leb_finite hb ha
  constructor
  · intro h
    by_contra hn
    exact h (this.2 (not_lt.1 hn))
  · intro h hn
    exact absurd (this.1 hn) (not_le.2 h)

variable {c : Config (Fl K) 1}

/-- The step of the unknown. -/
def Fl.newtonNext (r d x : Fl K) : Fl K := Fl.add x (Fl.mul (Fl.neg (Fl.div Fl.one d)) r)

theorem amax_fl_one (v : Vec (Fl K) 1) : amax v = Fl.abs (v 0) := rfl

theorem errorsAt_fl (hc : Spec.NewtonDefault c) (func : Fl K → Fl K) (x : Fl K) :
    amax (errorsAt c (fun x => ⟨fun _ => func (x 0), fun _ => .zero false⟩) (fun _ => x)) = Fl.abs (func x) := by
  change Fl.abs (Fl.abs (normalization (func x) (.zero false) (c.res.stop 0))) = _
  rw [hc.stop, Fl.abs_abs]
  exact congrArg Fl.abs (fl_sub_zero _)

/-- One pass. -/
theorem newton_pass_fl (hc : Spec.NewtonDefault c) (func deriv : Fl K → Fl K) {x : Fl K} (hx : x.IsFinite)
    (hd : (deriv x).IsFinite) (hd0 : (deriv x).val ≠ 0)
    (hs : Fl.mul (Fl.neg (Fl.div Fl.one (deriv x))) (func x) ≠ .nan)
    {st : Solver (Fl K) 1} (hdb : st.debug = false) {s : AdapterState (Fl K) 1}
    (hat : At (fromFunctionAndJacobian (fun x _ => func (x 0)) (fun x _ _ => deriv (x 0)))
      (fun s => s.right = fun _ => .zero false) (fun x => ⟨fun _ => func (x 0), fun _ => .zero false⟩) s fun _ => x) :
    ∃ st' s', iterate c (fromFunctionAndJacobian (fun x _ => func (x 0)) (fun x _ _ => deriv (x 0))) st s =
        .ok (st', s', .ok (amax (evaluateErrors c
          (fromFunctionAndJacobian (fun x _ => func (x 0)) (fun x _ _ => deriv (x 0))) s'))) ∧
      At (fromFunctionAndJacobian (fun x _ => func (x 0)) (fun x _ _ => deriv (x 0)))
        (fun s => s.right = fun _ => .zero false) (fun x => ⟨fun _ => func (x 0), fun _ => .zero false⟩) s'
        (fun _ => Fl.newtonNext (func x) (deriv x) x) ∧
      st'.debug = false ∧ st'.valid = true := by
  set m := fromFunctionAndJacobian (fun (x : Vec (Fl K) 1) _ => func (x 0)) (fun x _ _ => deriv (x 0)) with hm
  have hg := fromFunctionAndJacobian_differentiates (fun (x : Vec (Fl K) 1) (_ : Fin 1) => func (x 0))
    (fun x _ _ => deriv (x 0)) (fun _ => .zero false)
  have hf := fromFunctionAndJacobian_computes (fun (x : Vec (Fl K) 1) (_ : Fin 1) => func (x 0))
    (fun x _ _ => deriv (x 0)) (fun _ => .zero false)
  rw [← hm] at hg hf
  have hA : analyticAt c (fun x => ⟨fun _ => func (x 0), fun _ => .zero false⟩)
      (fun x => ⟨fun _ _ => deriv (x 0), mzero⟩) (fun _ => x) = fun _ _ => deriv x := by
    funext i j
    change derivNormalization _ _ (deriv x) (.zero false) (c.res.upd i) = _
    rw [Subsingleton.elim i 0, hc.update]
    exact fl_sub_zero _
  have hinv : c.la.inv (analyticAt c (fun x => ⟨fun _ => func (x 0), fun _ => .zero false⟩)
      (fun x => ⟨fun _ _ => deriv (x 0), mzero⟩) (fun _ => x)) = some fun _ _ => Fl.div Fl.one (deriv x) := by
    rw [hA, hc.la]
    exact lu_one (fl_isZero_false hd hd0)
  obtain ⟨s1, hs1, hj⟩ := computeJac_analytic (c := c) hg hat st.jac hinv
  have hstep := computeStep_computed (c := c) (st := { st with iter := st.iter + 1 }) hdb (.inl hc.method) hs1 hj
  have hnext : stepLimitations c.iters (fun _ => x) (mulVec c.la (mneg fun _ _ => Fl.div Fl.one (deriv x))
      (updateAt c (fun x => ⟨fun _ => func (x 0), fun _ => .zero false⟩) fun _ => x)) =
      fun _ => Fl.newtonNext (func x) (deriv x) x := by
    funext i
    rw [Subsingleton.elim i 0]
    have hu : updateAt c (fun x => ⟨fun _ => func (x 0), fun _ => .zero false⟩) (fun _ => x) 0 = func x := by
      change normalization (func x) (.zero false) (c.res.upd 0) = _
      rw [hc.update]
      exact fl_sub_zero _
    change (c.iters 0).stepLimitation x (c.la.dot _ _) = _
    rw [hc.limits, hc.la]
    change IterativeParams.default.stepLimitation x (Fl.mul (Fl.neg (Fl.div Fl.one (deriv x)))
      (updateAt c (fun x => ⟨fun _ => func (x 0), fun _ => .zero false⟩) (fun _ => x) 0)) = _
    rw [hu]
    exact fl_default_limits hx hs
  rw [hnext] at hstep
  obtain ⟨s', hs', hi⟩ := iterate_at (c := c) hf hstep hdb hs1 trivial (fun h => by rw [hc.damping] at h; cases h)
  rw [← hs'.errors] at hi
  exact ⟨_, s', hi, hs', (storeSteps_fields ..).2.2.2.2.trans hdb, (storeSteps_fields ..).2.2.2.1⟩

end
end Nrf
