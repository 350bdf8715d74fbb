import Verif.Proofs.Local
import Verif.Spec.Demo

/-!
# C38: Newton-Raphson and stationary Newton converge locally
-/

namespace Nrf
open Spec
open scoped Exact Topology
open Matrix Filter

/-- The matrix `A` is the strict Jacobian of `f` at `x` (every continuously differentiable function has
one everywhere). -/
def Spec.IsStrictJacobian {n : Nat} (f : Vec ℝ n → Vec ℝ n) (A : Mat ℝ n) (x : Vec ℝ n) : Prop :=
  HasStrictFDerivAt f (LinearMap.toContinuousLinearMap (Matrix.mulVecLin A)) x

/-- A non-degenerate root: the sides are equal, strictly differentiable, and the difference of their
Jacobians is invertible.  A relative residual needs non-zero sides at the root. -/
structure Spec.RegularRoot {n : Nat} (f : Vec ℝ n → ResidualsValues ℝ n) (res : ResConf n) (root : Vec ℝ n)
    (AL AR : Mat ℝ n) : Prop where
  equal : (f root).left = (f root).right
  left : IsStrictJacobian (fun x => (f x).left) AL root
  right : IsStrictJacobian (fun x => (f x).right) AR root
  invertible : (AL - AR).det ≠ 0
  relative : ∀ i, res.upd i = .Rel ∨ res.stop i = .Rel → (f root).left i ≠ 0

/-- Newton-Raphson or stationary Newton in exact arithmetic, with limits that do not act within distance
`R` of the root, and a guess at distance less than `ρ`. -/
structure Spec.LocalConfig {n : Nat} (c : Config ℝ n) (res : ResConf n) (root : Vec ℝ n) (R ρ : ℝ) : Prop where
  exact : c.la.IsExact
  residuals : c.res = res
  method : c.params.method = .NewtonRaphson ∨ c.params.method = .QuasiNewton .StationaryNewton
  free : ∀ i v d, |v - root i| < R → |d| < R → (c.iters i).stepLimitation v d = v + d
  guess : ∀ i, |c.guess i - root i| < ρ

/-- The solve returned `Ok` within tolerance, and the model is `2 ^ iter` times closer to the root than
the guess was. -/
def Spec.Converged {n : Nat} {EI EU S : Type} (c : Config ℝ n) (m : UserModel ℝ n EI EU S)
    (f : Vec ℝ n → ResidualsValues ℝ n) (root : Vec ℝ n) (ρ : ℝ) (s : S) : Prop :=
  ∃ st' s', solve c m .new s = .ok (st', s', .ok ()) ∧
    (∀ i, |m.getIteratives s' i - root i| < ρ / 2 ^ st'.iter) ∧
    m.getResiduals s' = f (m.getIteratives s') ∧
    ∀ i, |Spec.residual (c.res.stop i) ((m.getResiduals s').left i) ((m.getResiduals s').right i)| ≤
      c.params.tolerance

section
variable {n : Nat} {EI EU S : Type}

private theorem converged {c : Config ℝ n} {m : UserModel ℝ n EI EU S} {inv : S → Prop}
    {f : Vec ℝ n → ResidualsValues ℝ n} {root : Vec ℝ n} {ρ : ℝ} {s : S} (hg : ‖c.guess - root‖ < ρ)
    (h : ∃ st' s' x, solve c m .new s = .ok (st', s', .ok ()) ∧ At m inv f s' x ∧
        ‖x - root‖ ≤ (1 / 2) ^ st'.iter * ‖c.guess - root‖ ∧ amax (errorsAt c f x) ≤ c.params.tolerance ∧
        True) :
    Spec.Converged c m f root ρ s := by
  obtain ⟨st', s', x, h1, h2, h3, h4, -⟩ := h
  refine ⟨st', s', h1, fun i => ?_, ?_, fun i => ?_⟩
  · rw [h2.iteratives]
    refine ((norm_le_pi_norm (x - root) i).trans h3).trans_lt ?_
    rw [one_div, inv_pow, inv_mul_eq_div]
    exact div_lt_div_of_pos_right hg (by positivity)
  · rw [h2.residuals, h2.iteratives]
  · rw [h2.residuals]
    refine le_trans ?_ h4
    have := abs_le_amax (errorsAt c f x) i
    rw [show errorsAt c f x i = _ from evaluateStopping_exact _ _ _, abs_abs] at this
    exact this

private theorem norm_guess {x root : Vec ℝ n} {ρ : ℝ} (hρ : 0 < ρ) (h : ∀ i, |x i - root i| < ρ) :
    ‖x - root‖ < ρ := (pi_norm_lt_iff hρ).2 h

/-- With the analytic Jacobian, continuous at the root: there is a radius `ρ`, and for every tolerance a
number of iterations `N`, such that from every guess closer than `ρ` with `max_iter ≥ N` the solve
succeeds.  Any dimension, residual normalizations (mixed, different for updating and stopping), with or
without damping. -/
theorem C38_analytic (m : UserModel ℝ n EI EU S) (inv : S → Prop) (D : Vec ℝ n → Prop)
    (f : Vec ℝ n → ResidualsValues ℝ n) (g : Vec ℝ n → JacobianValues ℝ n) (res : ResConf n)
    (root : Vec ℝ n) (hf : Computes m inv D f) (hD : ∀ᶠ x in 𝓝 root, D x)
    (hroot : RegularRoot f res root (g root).left (g root).right)
    (hg : Differentiates m inv f g) (hgl : ContinuousAt (fun x => (g x).left) root)
    (hgr : ContinuousAt (fun x => (g x).right) root) (R : ℝ) (hR : 0 < R) :
    ∃ ρ > 0, ∀ tol > 0, ∃ N, ∀ c : Config ℝ n, LocalConfig c res root R ρ →
      c.params.tolerance = tol → N ≤ c.params.maxIter → ∀ s, inv s → Converged c m f root ρ s := by
  obtain ⟨ρ, hρ, _, -, -, -, h⟩ := local_convergence (res := res) hroot.left hroot.right hroot.equal hroot.invertible
    (fun i h => hroot.relative i (.inl h)) (fun i h => hroot.relative i (.inr h)) hf hD hR one_pos
    (fun _ _ => True) (fun _ _ _ => True) (by
      intro ε hε
      obtain ⟨δ, hδ, h⟩ := analytic_near (res := res) hroot.left.hasFDerivAt.continuousAt
        hroot.right.hasFDerivAt.continuousAt hroot.equal (fun i h => hroot.relative i (.inl h)) hgl hgr hε
      refine ⟨δ, hδ, fun ρ hρ c hc _ x hx _ => ⟨0, _, .analytic g hg, trivial, fun i => ?_, h c hc x (hx.trans_le hρ)⟩⟩
      simpa using half_pos hε)
  refine ⟨ρ, hρ, fun tol htol => ?_⟩
  obtain ⟨N, hN⟩ := h tol htol
  refine ⟨N, fun c hc ht hmax s hs => ?_⟩
  have hguess := norm_guess hρ hc.guess
  refine converged (inv := inv) hguess ?_
  rw [ht]
  exact hN c hc.exact hc.residuals hc.method hc.free trivial hguess ht hmax (fun _ _ => True) trivial
    (fun _ _ _ _ _ _ _ _ _ _ _ => trivial) s hs

/-- The same with finite differences whose perturbations are not zero and smaller than `ρ`. -/
theorem C38_finite_differences (m : UserModel ℝ n EI EU S) (inv : S → Prop) (D : Vec ℝ n → Prop)
    (f : Vec ℝ n → ResidualsValues ℝ n) (AL AR : Mat ℝ n) (res : ResConf n)
    (root : Vec ℝ n) (hf : Computes m inv D f) (hD : ∀ᶠ x in 𝓝 root, D x)
    (hroot : RegularRoot f res root AL AR) (hu : Underived m inv f) (R : ℝ) (hR : 0 < R) :
    ∃ ρ > 0, ∀ tol > 0, ∃ N, ∀ c : Config ℝ n, LocalConfig c res root R ρ →
      (∀ i, ∃ p, (c.iters i).computePerturbation = some p ∧ ∀ v, |v - root i| < ρ → p v ≠ 0 ∧ |p v| < ρ) →
      c.params.tolerance = tol → N ≤ c.params.maxIter → ∀ s, inv s → Converged c m f root ρ s := by
  obtain ⟨ρ, hρ, _, -, -, -, h⟩ := local_convergence (res := res) hroot.left hroot.right hroot.equal hroot.invertible
    (fun i h => hroot.relative i (.inl h)) (fun i h => hroot.relative i (.inr h)) hf hD hR one_pos
    (fun c ρ => ∀ i, ∃ p, (c.iters i).computePerturbation = some p ∧ ∀ v, |v - root i| < ρ → p v ≠ 0 ∧ |p v| < ρ) (fun _ _ _ => True) (by
      intro ε hε
      have hU : HasStrictFDerivAt (fun x => res.evaluateUpdate (f x)) _ root :=
        (residuals_strict hroot.left hroot.right hroot.equal res.upd
          (fun i h => hroot.relative i (.inl h))).congr_of_eventuallyEq
          (Eventually.of_forall fun x => funext fun i => (evaluateUpdate_exact _ _ _).symm)
      obtain ⟨δ, hδ, h⟩ := differences_near hU hε
      refine ⟨min δ (ε / 2), lt_min hδ (half_pos hε), fun ρ hρ c hc hp x hx hDz => ?_⟩
      have hx' : ∀ i, |x i - root i| < ρ := fun i => (norm_le_pi_norm (x - root) i).trans_lt hx
      have hsome : ∀ i, (c.iters i).computePerturbation.isSome := by
        intro i
        obtain ⟨p, h1, -⟩ := hp i
        rw [h1]; rfl
      have hval : ∀ i, (c.iters i).computePerturbation.get (hsome i) (x i) ≠ 0 ∧
          |(c.iters i).computePerturbation.get (hsome i) (x i)| < ρ := by
        intro i
        obtain ⟨p, h1, h2⟩ := hp i
        have e : (c.iters i).computePerturbation.get (hsome i) = p := Option.get_of_eq_some _ h1
        rw [e]
        exact h2 _ (hx' i)
      refine ⟨fun i => (c.iters i).computePerturbation.get (hsome i) (x i), _, .fd hu ?_ (fun i => (hval i).1) ?_, trivial,
        fun i => (hval i).2.trans_le (hρ.trans (min_le_right _ _)),
        h c hc x _ (hx.trans_le (hρ.trans (min_le_left _ _))) fun i =>
          ⟨(hval i).1, (hval i).2.trans_le (hρ.trans (min_le_left _ _))⟩⟩
      · unfold computePerturbations
        rw [dif_pos hsome]
      · intro i
        apply hDz
        rw [moved_eq, show x + Pi.single i ((c.iters i).computePerturbation.get (hsome i) (x i)) - root =
          (x - root) + Pi.single i ((c.iters i).computePerturbation.get (hsome i) (x i)) by abel]
        refine (norm_add_le _ _).trans_lt ?_
        rw [Pi.norm_single, Real.norm_eq_abs]
        have h1 := hρ.trans (min_le_right _ _)
        have h2 := (hval i).2
        linarith)
  refine ⟨ρ, hρ, fun tol htol => ?_⟩
  obtain ⟨N, hN⟩ := h tol htol
  refine ⟨N, fun c hc hp ht hmax s hs => ?_⟩
  have hguess := norm_guess hρ hc.guess
  refine converged (inv := inv) hguess ?_
  rw [ht]
  exact hN c hc.exact hc.residuals hc.method hc.free hp hguess ht hmax (fun _ _ => True) trivial
    (fun _ _ _ _ _ _ _ _ _ _ _ => trivial) s hs

end

/-- The limits of the crate do not act near a non-zero value strictly between the bounds. -/
theorem C38_limits (p : IterativeParams ℝ) (habs : 0 < p.maxStepAbs) (hrel : 0 < p.maxStepRel) (v0 : ℝ)
    (hne : v0 ≠ 0) (hmin : p.minValue < v0) (hmax : v0 < p.maxValue) :
    ∃ R > 0, ∀ v d, |v - v0| < R → |d| < R → p.toIterative.stepLimitation v d = v + d := by
  have h0 := abs_pos.2 hne
  obtain ⟨R, hR, h1, h2, h3, h4, h5⟩ : ∃ R > 0, R ≤ |v0| / 2 ∧ R ≤ p.maxStepAbs ∧ R ≤ p.maxStepRel * (|v0| / 2) ∧
      R ≤ (v0 - p.minValue) / 2 ∧ R ≤ (p.maxValue - v0) / 2 := by
    refine ⟨min (min (|v0| / 2) p.maxStepAbs) (min (p.maxStepRel * (|v0| / 2))
      (min ((v0 - p.minValue) / 2) ((p.maxValue - v0) / 2))), ?_, ?_, ?_, ?_, ?_, ?_⟩
    · refine lt_min (lt_min (by positivity) habs) (lt_min (by positivity) (lt_min ?_ ?_)) <;> linarith
    · exact (min_le_left _ _).trans (min_le_left _ _)
    · exact (min_le_left _ _).trans (min_le_right _ _)
    · exact (min_le_right _ _).trans (min_le_left _ _)
    · exact (min_le_right _ _).trans ((min_le_right _ _).trans (min_le_left _ _))
    · exact (min_le_right _ _).trans ((min_le_right _ _).trans (min_le_right _ _))
  refine ⟨R, hR, fun v d hv hd => ?_⟩
  have hv2 : |v0| / 2 ≤ |v| := by
    have := abs_sub_abs_le_abs_sub v0 v
    rw [abs_sub_comm v0 v] at this
    linarith
  have hstep : |d| ≤ min p.maxStepAbs (p.maxStepRel * |v|) :=
    le_min (by linarith) (hd.le.trans (h3.trans (mul_le_mul_of_nonneg_left hv2 hrel.le)))
  have hb := abs_lt.1 hv
  have hdb := abs_lt.1 hd
  change min (max (v + min (min p.maxStepAbs (p.maxStepRel * |v|)) |d| * (if 0 ≤ d then 1 else -1)) p.minValue)
    p.maxValue = v + d
  have hsd : |d| * (if 0 ≤ d then 1 else -1) = d := by
    split
    · rename_i h; rw [abs_of_nonneg h, mul_one]
    · rename_i h; rw [abs_of_neg (not_le.1 h)]; ring
  rw [min_eq_right hstep, hsd, max_eq_left (by linarith), min_eq_left (by linarith)]

/-- The perturbations of the crate become as small as desired with `dx_abs` and `dx_rel`. -/
theorem C38_perturbations (v0 ρ : ℝ) (hρ : 0 < ρ) :
    ∃ δ > 0, ∀ p : IterativeParamsFD ℝ, 0 < p.dxAbs → p.dxAbs < δ → 0 < p.dxRel → p.dxRel < δ →
      ∀ v, |v - v0| < ρ → p.computePerturbation v ≠ 0 ∧ |p.computePerturbation v| < ρ := by
  have hA : 0 < 1 + (|v0| + ρ) := by have := abs_nonneg v0; positivity
  refine ⟨ρ / (1 + (|v0| + ρ)), div_pos hρ hA, fun p h1 h2 h3 h4 v hv => ?_⟩
  have hv2 : |v| ≤ |v0| + ρ := by
    have := abs_sub_abs_le_abs_sub v v0
    linarith
  rw [lt_div_iff₀ hA] at h2 h4
  have hv0 := abs_nonneg v
  have h5 : |v| * p.dxRel ≤ p.dxRel * (|v0| + ρ) := by nlinarith
  have hsum : p.dxAbs + |v| * p.dxRel < ρ := by
    rcases le_total p.dxAbs p.dxRel with h | h <;> nlinarith [abs_nonneg v0]
  have hpos : 0 < p.computePerturbation v ∧ p.computePerturbation v ≤ p.dxAbs + |v| * p.dxRel := by
    have hmul : 0 ≤ |v| * p.dxRel := by positivity
    unfold IterativeParamsFD.computePerturbation
    cases p.perturbationMethod
    · change 0 < max p.dxAbs (|v| * p.dxRel) ∧ max p.dxAbs (|v| * p.dxRel) ≤ _
      exact ⟨lt_max_of_lt_left h1, max_le (by linarith) (by linarith)⟩
    · change 0 < p.dxAbs + |v| * p.dxRel ∧ p.dxAbs + |v| * p.dxRel ≤ _
      exact ⟨by linarith, le_refl _⟩
  exact ⟨hpos.1.ne', by rw [abs_of_pos hpos.1]; linarith [hpos.2]⟩

/-! ### The hypotheses can be met -/

namespace DemoReal

/-- `x² + y² = 5`, `x y = 2`. -/
noncomputable def circle : UserModel ℝ 2 Empty Empty (AdapterState ℝ 2) :=
  fromFunctionAndJacobian (fun x => ![x 0 ^ 2 + x 1 ^ 2, x 0 * x 1])
    (fun x => !![2 * x 0, 2 * x 1; x 1, x 0])

noncomputable def circleFd : UserModel ℝ 2 Empty Empty (AdapterState ℝ 2) :=
  fromFunction (fun x => ![x 0 ^ 2 + x 1 ^ 2, x 0 * x 1])

/-- Step and value limits; perturbations of size `dx`. -/
noncomputable def limits (dx : ℝ) : IterativeParamsFD ℝ :=
  ⟨⟨1, 1 / 2, -10, 10⟩, .Max, dx, dx⟩

def normalizations : ResConf 2 := ⟨fun _ => .Rel, ![.Adapt, .Rel]⟩

noncomputable def cfg (guess : Vec ℝ 2) (tol dx : ℝ) (maxIter : Nat) (method : ResolutionMethod) : Config ℝ 2 where
  params := { problemSize := 2, tolerance := tol, maxIter, method, damping := true }
  guess := guess
  iters := fun _ => (limits dx).toIterative
  res := normalizations
  la := exactLinAlg ℝ 2

theorem circle_root : RegularRoot (fun x : Vec ℝ 2 => ⟨![x 0 ^ 2 + x 1 ^ 2, x 0 * x 1], ![5, 2]⟩)
    normalizations ![1, 2] !![2 * 1, 2 * 2; 2, 1] mzero := by
  have h0 : HasStrictFDerivAt (fun x : Vec ℝ 2 => x 0) (ContinuousLinearMap.proj (R := ℝ) 0) ![1, 2] :=
    (ContinuousLinearMap.proj (R := ℝ) (φ := fun _ : Fin 2 => ℝ) 0).hasStrictFDerivAt
  have h1 : HasStrictFDerivAt (fun x : Vec ℝ 2 => x 1) (ContinuousLinearMap.proj (R := ℝ) 1) ![1, 2] :=
    (ContinuousLinearMap.proj (R := ℝ) (φ := fun _ : Fin 2 => ℝ) 1).hasStrictFDerivAt
  refine ⟨?_, ?_, ?_, ?_, ?_⟩
  · ext i; fin_cases i <;> norm_num
  · refine hasStrictFDerivAt_pi'.2 fun i => ?_
    fin_cases i
    · refine ((h0.pow 2).add (h1.pow 2)).congr_fderiv ?_
      ext v
      simp [Matrix.mulVec, dotProduct, Fin.sum_univ_two]
    · refine (h0.mul h1).congr_fderiv ?_
      ext v
      simp [Matrix.mulVec, dotProduct, Fin.sum_univ_two]
      ring
  · refine (hasStrictFDerivAt_const (![5, 2] : Vec ℝ 2) _).congr_fderiv ?_
    ext v i
    simp [Matrix.mulVec, dotProduct, mzero, ex_zero]
  · simp [Matrix.det_fin_two, mzero, ex_zero]
    norm_num
  · intro i _
    fin_cases i <;> norm_num

theorem localConfig {R : ℝ} {guess : Vec ℝ 2} {tol dx ρ : ℝ} {maxIter : Nat} {method : ResolutionMethod}
    (hm : method = .NewtonRaphson ∨ method = .QuasiNewton .StationaryNewton)
    (hR : ∀ i v d, |v - (![1, 2] : Vec ℝ 2) i| < R → |d| < R → (limits dx).toIterative.stepLimitation v d = v + d)
    (hg : ∀ i, |guess i - (![1, 2] : Vec ℝ 2) i| < ρ) :
    LocalConfig (cfg guess tol dx maxIter method) normalizations ![1, 2] R ρ :=
  ⟨exactLinAlg_isExact ℝ 2, rfl, hm, hR, hg⟩

theorem limits_free : ∃ R > 0, ∀ (dx : ℝ) i v d, |v - (![1, 2] : Vec ℝ 2) i| < R → |d| < R →
    (limits dx).toIterative.stepLimitation v d = v + d := by
  obtain ⟨R1, h1, h1'⟩ := C38_limits ⟨1, 1 / 2, -10, 10⟩ one_pos (by norm_num) 1 one_ne_zero (by norm_num) (by norm_num)
  obtain ⟨R2, h2, h2'⟩ := C38_limits ⟨1, 1 / 2, -10, 10⟩ one_pos (by norm_num) 2 two_ne_zero (by norm_num) (by norm_num)
  refine ⟨min R1 R2, lt_min h1 h2, fun dx i v d hv hd => ?_⟩
  fin_cases i
  · exact h1' v d (hv.trans_le (min_le_left _ _)) (hd.trans_le (min_le_left _ _))
  · exact h2' v d (hv.trans_le (min_le_right _ _)) (hd.trans_le (min_le_right _ _))

/-- Two equations with two unknowns, mixed normalizations, limits, damping, analytic Jacobian: both
methods find `(1, 2)` to any tolerance from every close guess. -/
example (method : ResolutionMethod)
    (hm : method = .NewtonRaphson ∨ method = .QuasiNewton .StationaryNewton) :
    ∃ ρ > 0, ∀ tol > 0, ∃ N, ∀ guess : Vec ℝ 2, (∀ i, |guess i - (![1, 2] : Vec ℝ 2) i| < ρ) →
      Converged (cfg guess tol 1 N method) circle
        (fun x => ⟨![x 0 ^ 2 + x 1 ^ 2, x 0 * x 1], ![5, 2]⟩) ![1, 2] ρ ⟨0, 0, ![5, 2]⟩ := by
  obtain ⟨R, hR, hfree⟩ := limits_free
  have hc1 : Continuous fun x : Vec ℝ 2 => (!![2 * x 0, 2 * x 1; x 1, x 0] : Mat ℝ 2) := by
    refine continuous_matrix fun i k => ?_
    fin_cases i <;> fin_cases k <;> simp <;> fun_prop
  obtain ⟨ρ, hρ, h⟩ := C38_analytic circle (fun s => s.right = ![5, 2]) (fun _ => True) _ _ normalizations ![1, 2]
    (fromFunctionAndJacobian_computes _ _ _) (Eventually.of_forall fun _ => trivial) circle_root
    (fromFunctionAndJacobian_differentiates _ _ _) hc1.continuousAt continuousAt_const R hR
  refine ⟨ρ, hρ, fun tol htol => ?_⟩
  obtain ⟨N, hN⟩ := h tol htol
  exact ⟨N, fun guess hg => hN _ (localConfig hm (hfree 1) hg) rfl (le_refl _) _ rfl⟩

/-- The same with finite differences of small enough step. -/
example (method : ResolutionMethod)
    (hm : method = .NewtonRaphson ∨ method = .QuasiNewton .StationaryNewton) :
    ∃ ρ > 0, ∃ dx > 0, ∀ tol > 0, ∃ N, ∀ guess : Vec ℝ 2, (∀ i, |guess i - (![1, 2] : Vec ℝ 2) i| < ρ) →
      Converged (cfg guess tol dx N method) circleFd
        (fun x => ⟨![x 0 ^ 2 + x 1 ^ 2, x 0 * x 1], ![5, 2]⟩) ![1, 2] ρ ⟨0, 0, ![5, 2]⟩ := by
  obtain ⟨R, hR, hfree⟩ := limits_free
  obtain ⟨ρ, hρ, h⟩ := C38_finite_differences circleFd (fun s => s.right = ![5, 2]) (fun _ => True) _ _ _
    normalizations ![1, 2]
    (fromFunction_computes _ _) (Eventually.of_forall fun _ => trivial) circle_root
    (fromFunction_underived _ _) R hR
  obtain ⟨d1, hd1, h1⟩ := C38_perturbations 1 ρ hρ
  obtain ⟨d2, hd2, h2⟩ := C38_perturbations 2 ρ hρ
  have hdx : 0 < min d1 d2 / 2 := half_pos (lt_min hd1 hd2)
  have hlt1 : min d1 d2 / 2 < d1 := by linarith [min_le_left d1 d2]
  have hlt2 : min d1 d2 / 2 < d2 := by linarith [min_le_right d1 d2]
  refine ⟨ρ, hρ, min d1 d2 / 2, hdx, fun tol htol => ?_⟩
  obtain ⟨N, hN⟩ := h tol htol
  refine ⟨N, fun guess hg => hN _ (localConfig hm (hfree _) hg) (fun i => ⟨_, rfl, ?_⟩) rfl (le_refl _) _ rfl⟩
  fin_cases i
  · exact h1 (limits _) hdx hlt1 hdx hlt1
  · exact h2 (limits _) hdx hlt2 hdx hlt2

end DemoReal
end Nrf
