import Verif.Proofs.AccurateFloat

/-!
# Passes and solves of one equation in binary64 whose distance to the root is reduced
-/

set_option linter.unusedSectionVars false

namespace Nrf
open Spec Fl

/-- The defaults of the library in dimension one: no damping, `Abs` residuals, default limits, the arithmetic of nalgebra. -/
structure Spec.ScalarDefault {F : Type} [Scalar F] [HasSpecials F] (c : Config F 1) : Prop where
  la : c.la = nalgebraLinAlg F 1
  damping : c.params.damping = false
  stop : c.res.stop 0 = .Abs
  update : c.res.upd 0 = .Abs
  limits : (c.iters 0).stepLimitation = IterativeParams.default.stepLimitation

/-- The residuals of one equation with the right side zero. -/
def Spec.oneResidual {F : Type} [Scalar F] (func : F → F) (x : Vec F 1) : ResidualsValues F 1 :=
  ⟨fun _ => func (x 0), fun _ => Scalar.zero⟩

section
variable {K : Type} [Field K] [LinearOrder K] [Rounding K] [IsStrictOrderedRing K]
variable {c : Config (Fl K) 1} {EI EU S : Type} {m : UserModel (Fl K) 1 EI EU S} {inv : S → Prop}
variable {D : Vec (Fl K) 1 → Prop} {func : Fl K → Fl K}

theorem scalar_errors (hc : Spec.ScalarDefault c) {s : S} {x : Fl K}
    (hat : At m inv (oneResidual func) s (fun _ => x)) : amax (evaluateErrors c m s) = Fl.abs (func x) := by
  rw [hat.errors]
  change Fl.abs (Fl.abs (normalization (func x) (.zero false) (c.res.stop 0))) = _
  rw [hc.stop, Fl.abs_abs]
  exact congrArg Fl.abs (fl_sub_zero _)

theorem scalar_update (hc : Spec.ScalarDefault c) (x : Vec (Fl K) 1) :
    updateAt c (oneResidual func) x 0 = func (x 0) := by
  change normalization (func (x 0)) (.zero false) (c.res.upd 0) = _
  rw [hc.update]
  exact fl_sub_zero _

theorem scalar_next (hc : Spec.ScalarDefault c) {z d : Fl K} (hz : z.IsFinite)
    (hs : Fl.mul (Fl.neg (Fl.div Fl.one d)) (func z) ≠ .nan) :
    stepLimitations c.iters (fun _ => z) (mulVec c.la (mneg fun _ _ => Fl.div Fl.one d)
      (updateAt c (oneResidual func) fun _ => z)) = fun _ => Fl.newtonNext (func z) d z := by
  funext i
  rw [Subsingleton.elim i 0]
  change (c.iters 0).stepLimitation z (c.la.dot _ _) = _
  rw [hc.limits, hc.la]
  change IterativeParams.default.stepLimitation z (Fl.mul (Fl.neg (Fl.div Fl.one d))
    (updateAt c (oneResidual func) (fun _ => z) 0)) = _
  rw [scalar_update hc]
  exact fl_default_limits hz hs

/-- The step of a pass is known: the pass. -/
theorem scalar_pass (hc : Spec.ScalarDefault c) (hf : Computes m inv D (oneResidual func)) {z d : Fl K}
    (hz : z.IsFinite) (hs : Fl.mul (Fl.neg (Fl.div Fl.one d)) (func z) ≠ .nan)
    (hD : D fun _ => Fl.newtonNext (func z) d z) {st st1 : Solver (Fl K) 1} (hdb : st1.debug = false) {s s1 : S}
    (hs1 : At m inv (oneResidual func) s1 fun _ => z)
    (hstep : computeStep c m { st with iter := st.iter + 1 } s = .ok (st1, s1,
      .ok (stepLimitations c.iters (fun _ => z) (mulVec c.la (mneg fun _ _ => Fl.div Fl.one d)
        (updateAt c (oneResidual func) fun _ => z))))) :
    ∃ st' s', iterate c m st s = .ok (st', s', .ok (amax (evaluateErrors c m s'))) ∧
      At m inv (oneResidual func) s' (fun _ => Fl.newtonNext (func z) d z) ∧
      st'.debug = false ∧ st'.valid = true ∧ st'.jac = st1.jac := by
  rw [scalar_next hc hz hs] at hstep
  obtain ⟨s', hs', hi⟩ := iterate_at (c := c) hf hstep hdb hs1 hD (fun h => by rw [hc.damping] at h; cases h)
  rw [← hs'.errors] at hi
  exact ⟨_, s', hi, hs', (storeSteps_fields ..).2.2.2.2.trans hdb, (storeSteps_fields ..).2.2.2.1,
    (storeSteps_fields ..).2.2.1⟩

/-- The Jacobian of a model with a derivative. -/
theorem scalar_analytic (hc : Spec.ScalarDefault c) {deriv : Fl K → Fl K}
    (hg : Differentiates m inv (oneResidual func) fun x => ⟨fun _ _ => deriv (x 0), mzero⟩) {x : Fl K}
    (hd : (deriv x).IsFinite) (hd0 : (deriv x).val ≠ 0) {s : S} (hat : At m inv (oneResidual func) s fun _ => x)
    (j : JacobianMatrix (Fl K) 1) :
    ∃ s' J, At m inv (oneResidual func) s' (fun _ => x) ∧
      computeJac c m j s = .ok (⟨some J, some fun _ _ => Fl.div Fl.one (deriv x), false, false⟩, s', .ok ()) := by
  have hA : analyticAt c (oneResidual func) (fun x => ⟨fun _ _ => deriv (x 0), mzero⟩) (fun _ => x) =
      fun _ _ => deriv x := by
    funext i j
    change derivNormalization _ _ (deriv x) (.zero false) (c.res.upd i) = _
    rw [Subsingleton.elim i 0, hc.update]
    exact fl_sub_zero _
  have hinv : c.la.inv (analyticAt c (oneResidual func) (fun x => ⟨fun _ _ => deriv (x 0), mzero⟩) (fun _ => x)) =
      some fun _ _ => Fl.div Fl.one (deriv x) := by
    rw [hA, hc.la]
    exact lu_one (fl_isZero_false hd hd0)
  obtain ⟨s1, hs1, hj⟩ := computeJac_analytic (c := c) hg hat j hinv
  exact ⟨s1, _, hs1, hj⟩

/-- The slope computed by finite differences. -/
def Fl.chord (func : Fl K → Fl K) (x p : Fl K) : Fl K := Fl.div (Fl.sub (func (Fl.add x p)) (func x)) p

/-- The Jacobian of a model without derivative; the model is left at the perturbed point. -/
theorem scalar_fd (hc : Spec.ScalarDefault c) {pert : Fl K → Fl K} (hp : (c.iters 0).computePerturbation = some pert)
    (hf : Computes m inv D (oneResidual func)) (hu : Underived m inv (oneResidual func)) {x : Fl K}
    (hD : D fun _ => Fl.add x (pert x)) (hd : (Fl.chord func x (pert x)).IsFinite)
    (hd0 : (Fl.chord func x (pert x)).val ≠ 0) {s : S} (hat : At m inv (oneResidual func) s fun _ => x)
    (j : JacobianMatrix (Fl K) 1) :
    ∃ s' J, At m inv (oneResidual func) s' (fun _ => Fl.add x (pert x)) ∧
      computeJac c m j s =
        .ok (⟨some J, some fun _ _ => Fl.div Fl.one (Fl.chord func x (pert x)), false, false⟩, s', .ok ()) := by
  have hperts : computePerturbations c.iters (fun _ => x) = some fun _ => pert x := by
    have hsome : ∀ i, ((c.iters i).computePerturbation).isSome := by
      intro i
      rw [Subsingleton.elim i 0, hp]
      rfl
    rw [computePerturbations, dif_pos hsome]
    congr 1
    funext i
    rw [Subsingleton.elim i 0]
    change (c.iters 0).computePerturbation.get _ x = _
    rw [Option.get_of_eq_some _ hp]
  have hmv : ∀ i, moved (fun _ : Fin 1 => x) i (pert x) = fun _ => Fl.add x (pert x) := by
    intro i
    funext l
    rw [Subsingleton.elim l i]
    unfold moved
    rw [if_pos rfl]
    rfl
  have hA : differencesAt c (oneResidual func) (fun _ => pert x) (fun _ => x) = fun _ _ => Fl.chord func x (pert x) := by
    funext i j
    change Fl.div (Fl.sub (updateAt c (oneResidual func) (moved (fun _ => x) j (pert x)) i)
      (updateAt c (oneResidual func) (fun _ => x) i)) (pert x) = _
    rw [hmv, Subsingleton.elim i 0, scalar_update hc, scalar_update hc]
    rfl
  have hinv : c.la.inv (differencesAt c (oneResidual func) (fun _ => pert x) (fun _ => x)) =
      some fun _ _ => Fl.div Fl.one (Fl.chord func x (pert x)) := by
    rw [hA, hc.la]
    exact lu_one (fl_isZero_false hd hd0)
  obtain ⟨s1, z, hs1, hz, hj⟩ := computeJac_fd (c := c) hf hu hat hperts (fun i => by
    change D (moved (fun _ => x) i (pert x))
    rw [hmv]
    exact hD) j hinv
  rcases hz with ⟨-, h⟩ | ⟨last, -, rfl⟩
  · omega
  · change At m inv (oneResidual func) s1 (moved (fun _ => x) last (pert x)) at hs1
    rw [hmv] at hs1
    exact ⟨s1, _, hs1, hj⟩

end

section
variable {c : Config F64 1} {EI EU S : Type} {m : UserModel F64 1 EI EU S} {inv : S → Prop}
variable {D : Vec F64 1 → Prop} {func : F64 → F64}

/-- Within `R / 2ᵏ`, up to a floor. -/
noncomputable def Spec.halved (R δ : ℝ) (k : Nat) : ℝ := (R - 2 * δ) / 2 ^ k + 2 * δ

theorem halved_succ (R δ : ℝ) (k : Nat) : halved R δ (k + 1) = 1 / 2 * halved R δ k + δ := by
  unfold halved
  rw [pow_succ]
  field_simp
  ring

theorem halved_zero (R δ : ℝ) : halved R δ 0 = R := by
  unfold halved
  rw [pow_zero]
  ring

theorem halved_le {R δ : ℝ} (h : 2 * δ ≤ R) (k : Nat) : halved R δ k ≤ R := by
  unfold halved
  have : (R - 2 * δ) / 2 ^ k ≤ R - 2 * δ := div_le_self (by linarith) (one_le_pow₀ (by norm_num))
  linarith

theorem halved_le' {R δ : ℝ} (h : 0 ≤ δ) (k : Nat) : halved R δ k ≤ R / 2 ^ k + 2 * δ := by
  unfold halved
  rw [sub_div]
  have : 0 ≤ 2 * δ / 2 ^ k := by positivity
  linarith

/-- If each pass halves the distance to `ρ` up to `δ`, the solve succeeds. -/
theorem scalar_converges (hc : Spec.ScalarDefault c) (hf : Computes m inv D (oneResidual func)) {ρ R δ : ℝ}
    (hδ : 2 * δ ≤ R) (P : Solver F64 1 → Prop) (h0 : P .new)
    (hpass : ∀ (x : F64) st s, x.IsFinite → |(x.val : ℝ) - ρ| ≤ R → st.debug = false → P st →
      At m inv (oneResidual func) s (fun _ => x) →
      ∃ st' s' y, iterate c m st s = .ok (st', s', .ok (amax (evaluateErrors c m s'))) ∧
        At m inv (oneResidual func) s' (fun _ => y) ∧ st'.debug = false ∧ st'.valid = true ∧ P st' ∧ y.IsFinite ∧
        |(y.val : ℝ) - ρ| ≤ 1 / 2 * |(x.val : ℝ) - ρ| + δ)
    {g : F64} (hguess : c.guess = fun _ => g) (hDg : D c.guess) (hg : g.IsFinite) (hgR : |(g.val : ℝ) - ρ| ≤ R)
    (ht : c.params.tolerance.IsFinite) {N : Nat} (hNm : N ≤ c.params.maxIter)
    (hfin : ∀ x : F64, x.IsFinite → |(x.val : ℝ) - ρ| ≤ R → (func x).IsFinite)
    (hend : ∀ x : F64, x.IsFinite → |(x.val : ℝ) - ρ| ≤ halved R δ N →
      |((func x).val : ℝ)| ≤ (c.params.tolerance.val : ℝ))
    {s : S} (hs : inv s) :
    ∃ st' s' x, solve c m .new s = .ok (st', s', .ok ()) ∧ st'.iter ≤ N ∧
      At m inv (oneResidual func) s' (fun _ => x) ∧ x.IsFinite ∧ |(x.val : ℝ) - ρ| ≤ R ∧
      |((func x).val : ℝ)| ≤ (c.params.tolerance.val : ℝ) := by
  have hreach : ∀ {x : F64}, x.IsFinite → |(x.val : ℝ) - ρ| ≤ R → (Fl.ltb c.params.tolerance (Fl.abs (func x)) = false ↔
      |((func x).val : ℝ)| ≤ (c.params.tolerance.val : ℝ)) := by
    intro x hx hxR
    rw [Bool.eq_false_iff, Ne, fl_ltb_val ht (abs_finite (hfin x hx hxR)), val_abs, not_lt, ← Rat.cast_le (K := ℝ),
      Rat.cast_abs]
  obtain ⟨k, st', s', h1, ⟨x, hat, hd, hv, hP, hx, hk, hxk⟩, h3, h4⟩ := solve_follow (c := c) hf
    (fun k st s => ∃ x, At m inv (oneResidual func) s (fun _ => x) ∧ st.debug = false ∧ st.valid = true ∧ P st ∧
      x.IsFinite ∧ k ≤ N ∧ |(x.val : ℝ) - ρ| ≤ halved R δ k)
    (by
      rintro k st s ⟨x, hat, hd, hv, hP, hx, hk, hxk⟩ hgo
      have hxR := hxk.trans (halved_le hδ k)
      have hkN : k < N := by
        rcases lt_or_eq_of_le hk with h | h
        · exact h
        exfalso
        subst h
        have hgo' := hgo
        unfold continues at hgo'
        rw [Bool.and_eq_true, scalar_errors hc hat] at hgo'
        have := (hreach hx hxR).2 (hend x hx hxk)
        exact absurd (hgo'.1.symm.trans this) (by decide)
      obtain ⟨st', s', y, hi, hat', hd', hv', hP', hy, hyρ⟩ := hpass x st s hx hxR hd hP hat
      refine ⟨st', s', hi, y, hat', hd', hv', hP', hy, by omega, ?_⟩
      rw [halved_succ]
      linarith)
    hs hDg
    (fun s0 hs0 => ⟨g, by rw [hguess] at hs0; exact hs0, rfl, rfl, h0, hg, by omega, by rw [halved_zero]; exact hgR⟩)
  have hxR := hxk.trans (halved_le hδ k)
  have hle : Fl.ltb c.params.tolerance (Fl.abs (func x)) = false := by
    rw [scalar_errors hc hat] at h3
    unfold continues at h3
    rw [Bool.and_eq_false_iff, decide_eq_false_iff_not] at h3
    rcases h3 with h | h
    · exact h
    · have : k = N := by omega
      subst this
      exact (hreach hx hxR).2 (hend x hx hxk)
  refine ⟨st', s', x, ?_, by omega, hat, hx, hxR, (hreach hx hxR).1 hle⟩
  refine h1.trans ?_
  rw [scalar_errors hc hat]
  unfold finalResult
  have : Scalar.lt c.params.tolerance (Fl.abs (func x)) = false := hle
  rw [this, hv]
  rfl

end
end Nrf
