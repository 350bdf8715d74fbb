import Verif.Proofs.Accuracy
import Verif.Proofs.RateFd
import Verif.Props.C63
import Verif.Props.C28
import Verif.Props.C30
import Verif.Proofs.FollowExact
import Mathlib.Analysis.Calculus.Deriv.Prod

/-!
# C83: finite differences are accurate to first order
-/

namespace Nrf
open Spec
open scoped Exact Topology
open Filter

/-- The update residuals as a function of the iteratives, at the state `s`. -/
noncomputable def Spec.updateResiduals {n : Nat} {EI EU S : Type} (c : Config ℝ n) (m : UserModel ℝ n EI EU S) (s : S)
    (y : Vec ℝ n) : Vec ℝ n :=
  fun i => Spec.residual (c.res.upd i) ((residualsAt m s y).left i) ((residualsAt m s y).right i)

/-- The Jacobian `A` of `U` around `x`: along coordinate `k`, up to the distance `p k`, it exists and changes by at
most `L` times the distance. -/
structure Spec.SmoothAround {n : Nat} (U : Vec ℝ n → Vec ℝ n) (A : Vec ℝ n → Mat ℝ n) (x p : Vec ℝ n) (L : ℝ) : Prop where
  jacobian : ∀ k t, |t| ≤ |p k| → IsJacobian U (A (x + Pi.single k t)) (x + Pi.single k t)
  lipschitz : ∀ k t, |t| ≤ |p k| → ∀ i, |A (x + Pi.single k t) i k - A x i k| ≤ L * |t|

theorem Spec.IsJacobian.along {n : Nat} {U : Vec ℝ n → Vec ℝ n} {M : Mat ℝ n} {x : Vec ℝ n} {k : Fin n} {t : ℝ}
    (h : IsJacobian U M (x + Pi.single k t)) (i : Fin n) :
    HasDerivAt (fun t => U (x + Pi.single k t) i) (M i k) t := by
  have h1 : HasDerivAt (fun t : ℝ => x + Pi.single k t) (Pi.single k 1) t := by
    refine hasDerivAt_pi.2 fun l => ?_
    by_cases hl : l = k
    · subst hl
      simpa using (hasDerivAt_id t).const_add (x l)
    · simpa [hl] using hasDerivAt_const t (x l)
  have h0 : HasFDerivAt U (Matrix.mulVecLin M).toContinuousLinearMap (x + Pi.single k t) := h
  have h2 : HasDerivAt (fun t : ℝ => U (x + Pi.single k t)) _ t := h0.comp_hasDerivAt t h1
  have h3 := hasDerivAt_pi.1 h2 i
  refine h3.congr_deriv ?_
  change (M.mulVec (Pi.single k 1)) i = _
  rw [Matrix.mulVec_single_one]; rfl

section
variable {n : Nat} {EI EU S C : Type}

/-- For every model obeying the memory contract, every normalization and every perturbation: an entry of the
finite-difference matrix differs from the partial derivative of the update residual by at most `L |p| / 2`. -/
theorem C83_accuracy (c : Config ℝ n) (m : UserModel ℝ n EI EU S) (ctx : S → C) (hmem : Memory m ctx) (s s' : S)
    (hp : m.jacobianProvided s = false) (hlen : m.lenProblem s = n)
    (hcur : m.getResiduals s = residualsAt m s (m.getIteratives s))
    (p : Fin n → ℝ → ℝ) (hpert : ∀ i, (c.iters i).computePerturbation = some (p i))
    (hne : ∀ i, p i (m.getIteratives s i) ≠ 0) (A : Vec ℝ n → Mat ℝ n) (L : ℝ)
    (hA : SmoothAround (updateResiduals c m s) A (m.getIteratives s) (fun i => p i (m.getIteratives s i)) L)
    (j j' : JacobianMatrix ℝ n) (h : computeJac c m j s = .ok (j', s', .ok ())) :
    ∃ J, j'.matrix = some J ∧ ∀ i k, |J i k - A (m.getIteratives s) i k| ≤ L * |p k (m.getIteratives s k)| / 2 := by
  obtain ⟨J, pert, hJ, hpe, hcol⟩ := C30_stored c m ctx hmem s s' hp hlen j j' h
  refine ⟨J, hJ, fun i k => ?_⟩
  have hk : pert k = p k (m.getIteratives s k) := by
    obtain ⟨f, h1, h2⟩ := hpe k
    rw [hpert] at h1
    cases h1
    exact h2
  set x := m.getIteratives s with hx
  have hmoved : (fun l => if l = k then Scalar.add (x k) (pert k) else x l) = x + Pi.single k (pert k) :=
    moved_eq x k (pert k)
  have hzero : x + Pi.single k 0 = x := by simp
  have hq := quotient_error (φ := fun t => updateResiduals c m s (x + Pi.single k t) i)
    (G := fun t => A (x + Pi.single k t) i k) (hne k) (fun t ht => (hA.jacobian k t ht).along i)
    (fun t ht => by simpa only [hzero] using hA.lipschitz k t ht i)
  simp only [hzero] at hq
  rw [hcol, hmoved, hcur, ex_div, ex_sub, evaluateUpdate_exact, evaluateUpdate_exact, hk]
  exact hq

/-- With the parameters of the crate the error is at most `L (dx_abs + dx_rel |x|) / 2`. -/
theorem C83_parameters (c : Config ℝ n) (m : UserModel ℝ n EI EU S) (ctx : S → C) (hmem : Memory m ctx) (s s' : S)
    (hp : m.jacobianProvided s = false) (hlen : m.lenProblem s = n)
    (hcur : m.getResiduals s = residualsAt m s (m.getIteratives s))
    (q : Fin n → IterativeParamsFD ℝ) (hq : ∀ i, c.iters i = (q i).toIterative) (habs : ∀ i, 0 < (q i).dxAbs)
    (hrel : ∀ i, 0 ≤ (q i).dxRel) (A : Vec ℝ n → Mat ℝ n) (L : ℝ) (hL : 0 ≤ L)
    (hA : SmoothAround (updateResiduals c m s) A (m.getIteratives s)
      (fun i => (q i).dxAbs + (q i).dxRel * |m.getIteratives s i|) L)
    (j j' : JacobianMatrix ℝ n) (h : computeJac c m j s = .ok (j', s', .ok ())) :
    ∃ J, j'.matrix = some J ∧ ∀ i k, |J i k - A (m.getIteratives s) i k| ≤
      L * ((q k).dxAbs + (q k).dxRel * |m.getIteratives s k|) / 2 := by
  have hb : ∀ k v, 0 < (q k).computePerturbation v ∧ (q k).computePerturbation v ≤ (q k).dxAbs + (q k).dxRel * |v| := by
    intro k v
    have h0 := mul_nonneg (hrel k) (abs_nonneg v)
    have h1 := habs k
    unfold IterativeParamsFD.computePerturbation
    rw [mul_comm] at h0
    cases (q k).perturbationMethod
    · change 0 < max (q k).dxAbs (|v| * (q k).dxRel) ∧ max (q k).dxAbs (|v| * (q k).dxRel) ≤ _
      exact ⟨lt_max_of_lt_left h1, max_le (by linarith) (by linarith)⟩
    · change 0 < (q k).dxAbs + |v| * (q k).dxRel ∧ (q k).dxAbs + |v| * (q k).dxRel ≤ _
      exact ⟨by linarith, by linarith⟩
  have hle : ∀ k t, |t| ≤ |(q k).computePerturbation (m.getIteratives s k)| →
      |t| ≤ abs ((q k).dxAbs + (q k).dxRel * |m.getIteratives s k|) := by
    intro k t ht
    obtain ⟨h1, h2⟩ := hb k (m.getIteratives s k)
    refine ht.trans ?_
    rw [abs_of_pos h1]
    exact h2.trans (le_abs_self _)
  obtain ⟨J, hJ, hJA⟩ := C83_accuracy c m ctx hmem s s' hp hlen hcur (fun i => (q i).computePerturbation)
    (fun i => by rw [hq]; rfl) (fun i => (hb i _).1.ne') A L
    ⟨fun k t ht => hA.jacobian k t (hle k t ht), fun k t ht => hA.lipschitz k t (hle k t ht)⟩ j j' h
  refine ⟨J, hJ, fun i k => (hJA i k).trans ?_⟩
  obtain ⟨h1, h2⟩ := hb k (m.getIteratives s k)
  rw [abs_of_pos h1]
  have := mul_le_mul_of_nonneg_left h2 hL
  linarith

end

/-- The bound is attained: for `x²` (`L = 2`) the computed slope is off by exactly the perturbation, at every point. -/
theorem C83_attained (x p : ℝ) (hp : p ≠ 0) (res : ResConf 1) (hres : res.upd 0 = .Abs) :
    ∃ s' J, fdCompute res (fromFunction (fun x : Vec ℝ 1 => fun _ => x 0 ^ 2)) (fun _ => p)
      ⟨fun _ => x, fun _ => x ^ 2, 0⟩ = .ok (s', .ok J) ∧ J 0 0 - 2 * x = p := by
  refine ⟨_, _, rfl, ?_⟩
  change (normalization ((x + p) ^ 2) 0 (res.upd 0) - normalization (x ^ 2) 0 (res.upd 0)) / p - 2 * x = p
  rw [hres]
  change ((x + p) ^ 2 - 0 - (x ^ 2 - 0)) / p - 2 * x = p
  field_simp
  ring

/-- Newton-Raphson with finite differences near a simple root: with perturbations of size at most `h` the distance to the
root is multiplied in each iteration by at most `C (e₀ + h)`, where `e₀` is the distance of the guess. -/
theorem C83_rate {n : Nat} {EI EU S : Type} (m : UserModel ℝ n EI EU S) (inv : S → Prop) (D : Vec ℝ n → Prop)
    (f : Vec ℝ n → ResidualsValues ℝ n) (g : Vec ℝ n → JacobianValues ℝ n) (res : ResConf n)
    (root : Vec ℝ n) (hf : Computes m inv D f) (hD : ∀ᶠ x in 𝓝 root, D x)
    (hroot : SmoothRoot f g res root) (hu : Underived m inv f) (R : ℝ) (hR : 0 < R) :
    ∃ ρ > 0, ∃ C > 0, C * (2 * ρ) ≤ 1 / 2 ∧ ∀ tol > 0, ∃ N, ∀ c : Config ℝ n, LocalConfig c res root R ρ →
      c.params.method = .NewtonRaphson → c.params.tolerance = tol → N ≤ c.params.maxIter → ∀ h < ρ,
      (∀ i, ∃ p, (c.iters i).computePerturbation = some p ∧ ∀ v, |v - root i| < ρ → p v ≠ 0 ∧ |p v| ≤ h) →
      ∀ s, inv s → ∀ e0 < ρ, (∀ i, |c.guess i - root i| ≤ e0) →
      ∃ st' s', solve c m .new s = .ok (st', s', .ok ()) ∧
        ∀ i, |m.getIteratives s' i - root i| ≤ (C * (e0 + h)) ^ st'.iter * e0 := by
  obtain ⟨ρ, hρ, C, hC, hCρ, H⟩ := local_rate_fd hroot.left hroot.right hroot.leftJacobian hroot.rightJacobian
    hroot.equal hroot.invertible (fun i h => hroot.normalized i (.inl h))
    (fun i h => hroot.normalized i (.inr h)) hf hu hD hR
  refine ⟨ρ, hρ, C, hC, hCρ, fun tol htol => ?_⟩
  obtain ⟨N, hN⟩ := H tol htol
  refine ⟨N, fun c hc hm ht hmax h hh hp s hs e0 he0 hguess => ?_⟩
  obtain ⟨st', s', x, h1, h2, h3⟩ := hN c hc.exact hc.residuals hm hc.free
    (fun i => by
      obtain ⟨p, g1, g2⟩ := hp i
      exact ⟨p, g1, fun v hv => ⟨(g2 v hv).1, (g2 v hv).2.trans_lt hh⟩⟩)
    ((pi_norm_lt_iff hρ).2 hc.guess) ht hmax h
    (fun i p v g1 hv => by
      obtain ⟨p', g1', g2⟩ := hp i
      obtain rfl : p = p' := by rw [g1] at g1'; exact Option.some.inj g1'
      exact (g2 v hv).2) s hs
  refine ⟨st', s', h1, fun i => ?_⟩
  rw [h2.iteratives]
  have he0' : 0 ≤ e0 := (abs_nonneg _).trans (hguess i)
  have hnorm : ‖c.guess - root‖ ≤ e0 := (pi_norm_le_iff_of_nonneg he0').2 hguess
  have hh0 : 0 ≤ h := by
    obtain ⟨p, -, g2⟩ := hp i
    exact (abs_nonneg _).trans (g2 (root i) (by simpa using hρ)).2
  refine ((norm_le_pi_norm (x - root) i).trans h3).trans ?_
  refine mul_le_mul (pow_le_pow_left₀ (by positivity) ?_ _) hnorm (norm_nonneg _) (by positivity)
  exact mul_le_mul_of_nonneg_left (by linarith) hC.le

/-! ### The hypotheses can be met -/

namespace DemoReal

/-- `x² + y² = 5`, `x y = 2`, seen from the point `(1, 3)`. -/
noncomputable def seen : AdapterState ℝ 2 := ⟨![1, 3], ![10, 3], ![5, 2]⟩

theorem circleFd_memory : Memory circleFd AdapterState.right where
  residuals s s' x h := by simp [circleFd, fromFunction, h]
  restore s s0 x h := h

theorem circle_jacobian (x : Vec ℝ 2) : IsJacobian (fun x : Vec ℝ 2 => ![x 0 ^ 2 + x 1 ^ 2 - 5, x 0 * x 1 - 2])
    !![2 * x 0, 2 * x 1; x 1, x 0] x := by
  have h0 : HasFDerivAt (fun x : Vec ℝ 2 => x 0) (ContinuousLinearMap.proj (R := ℝ) 0) x :=
    (ContinuousLinearMap.proj (R := ℝ) (φ := fun _ : Fin 2 => ℝ) 0).hasFDerivAt
  have h1 : HasFDerivAt (fun x : Vec ℝ 2 => x 1) (ContinuousLinearMap.proj (R := ℝ) 1) x :=
    (ContinuousLinearMap.proj (R := ℝ) (φ := fun _ : Fin 2 => ℝ) 1).hasFDerivAt
  refine hasFDerivAt_pi'.2 fun i => ?_
  fin_cases i
  · refine (((h0.pow 2).add (h1.pow 2)).sub_const 5).congr_fderiv ?_
    ext v
    simp [Matrix.mulVec, dotProduct, Fin.sum_univ_two]
  · refine ((h0.mul h1).sub_const 2).congr_fderiv ?_
    ext v
    simp [Matrix.mulVec, dotProduct, Fin.sum_univ_two]
    ring

/-- Absolute residuals, perturbations `dx`. -/
noncomputable def absCfg (dx : ℝ) : Config ℝ 2 :=
  { cfg ![1, 3] 1 dx 1 .NewtonRaphson with res := ⟨fun _ => .Abs, fun _ => .Abs⟩ }

theorem circle_around (dx : ℝ) (p : Vec ℝ 2) : SmoothAround (updateResiduals (absCfg dx) circleFd seen)
    (fun x => !![2 * x 0, 2 * x 1; x 1, x 0]) ![1, 3] p 2 where
  jacobian k t _ := by
    have e : updateResiduals (absCfg dx) circleFd seen = fun x : Vec ℝ 2 => ![x 0 ^ 2 + x 1 ^ 2 - 5, x 0 * x 1 - 2] := by
      funext x i
      fin_cases i <;> rfl
    rw [e]
    exact circle_jacobian _
  lipschitz k t _ i := by
    have := abs_nonneg t
    fin_cases k <;> fin_cases i <;> simp [mul_add] <;> linarith

/-- The matrix computed at `(1, 3)` with any `dx` is within `3 dx` of the Jacobian, and it is computed. -/
example (dx : ℝ) (hdx : 0 < dx) : ∃ j' s' J, computeJac (absCfg dx) circleFd .new seen = .ok (j', s', .ok ()) ∧
    j'.matrix = some J ∧ ∀ i k, |J i k - (!![2, 6; 3, 1] : Mat ℝ 2) i k| ≤ 2 * (dx + dx * |(![1, 3] : Vec ℝ 2) k|) / 2 := by
  have p0 : (limits dx).computePerturbation 1 = dx := by
    change max dx (|1| * dx) = dx
    simp
  have p1 : (limits dx).computePerturbation 3 = 3 * dx := by
    change max dx (|3| * dx) = 3 * dx
    rw [abs_of_pos (by norm_num)]
    exact max_eq_right (by linarith)
  have hdiff : differencesAt (absCfg dx) (fun x : Vec ℝ 2 => ⟨![x 0 ^ 2 + x 1 ^ 2, x 0 * x 1], ![5, 2]⟩)
      (fun i => (limits dx).computePerturbation ((![1, 3] : Vec ℝ 2) i)) ![1, 3] = !![2 + dx, 6 + 3 * dx; 3, 1] := by
    have u : ∀ x : Vec ℝ 2, updateAt (absCfg dx) (fun x : Vec ℝ 2 => ⟨![x 0 ^ 2 + x 1 ^ 2, x 0 * x 1], ![5, 2]⟩) x =
        ![x 0 ^ 2 + x 1 ^ 2 - 5, x 0 * x 1 - 2] := by
      intro x; funext i; fin_cases i <;> rfl
    ext i k
    unfold differencesAt
    rw [ex_div, ex_sub, u, u, moved_eq]
    fin_cases i <;> fin_cases k <;> simp [p0, p1, hdx.ne'] <;> (try field_simp) <;> (try ring)
  obtain ⟨s', z, -, -, hjac⟩ := computeJac_fd (c := absCfg dx) (s := seen) (x := ![1, 3])
    (pert := fun i => (limits dx).computePerturbation ((![1, 3] : Vec ℝ 2) i))
    (fromFunction_computes (fun x => ![x 0 ^ 2 + x 1 ^ 2, x 0 * x 1]) ![5, 2]) (fromFunction_underived _ _) ⟨rfl, rfl, by
      change (⟨![10, 3], ![5, 2]⟩ : ResidualsValues ℝ 2) = ⟨![1 ^ 2 + 3 ^ 2, 1 * 3], ![5, 2]⟩
      norm_num⟩ rfl (fun _ => trivial) .new
    ((exactLinAlg_isExact ℝ 2).inv_some _ (by
      rw [hdiff, Matrix.det_fin_two]
      simp
      nlinarith))
  obtain ⟨J, hJ, hb⟩ := C83_parameters (absCfg dx) circleFd _ circleFd_memory seen s' rfl rfl
    (by
      change (⟨![10, 3], ![5, 2]⟩ : ResidualsValues ℝ 2) = ⟨![1 ^ 2 + 3 ^ 2, 1 * 3], ![5, 2]⟩
      norm_num) (fun _ => limits dx) (fun _ => rfl) (fun _ => hdx) (fun _ => hdx.le) _ 2 (by norm_num)
    (circle_around dx _) .new _ hjac
  refine ⟨_, _, J, hjac, hJ, fun i k => ?_⟩
  have := hb i k
  have e : (!![2 * (![1, 3] : Vec ℝ 2) 0, 2 * (![1, 3] : Vec ℝ 2) 1; (![1, 3] : Vec ℝ 2) 1, (![1, 3] : Vec ℝ 2) 0] : Mat ℝ 2) = !![2, 6; 3, 1] := by
    ext i k; fin_cases i <;> fin_cases k <;> norm_num
  rw [← e]
  exact this

/-- The rate for normalized residuals, limits and damping. -/
example : ∃ ρ > 0, ∃ C > 0, C * (2 * ρ) ≤ 1 / 2 ∧ ∃ dx > 0, ∃ h < ρ, ∀ tol > 0, ∃ N, ∀ (guess : Vec ℝ 2), ∀ e0 < ρ,
    (∀ i, |guess i - (![1, 2] : Vec ℝ 2) i| ≤ e0) →
    ∃ st' s', solve (cfg guess tol dx N .NewtonRaphson) circleFd .new ⟨0, 0, ![5, 2]⟩ = .ok (st', s', .ok ()) ∧
      ∀ i, |s'.inputs i - (![1, 2] : Vec ℝ 2) i| ≤ (C * (e0 + h)) ^ st'.iter * e0 := by
  obtain ⟨R, hR, hfree⟩ := limits_free
  obtain ⟨ρ, hρ, C, hC, hCρ, H⟩ := C83_rate circleFd (fun s => s.right = ![5, 2]) (fun _ => True) _ _ normalizations
    ![1, 2] (fromFunction_computes _ _) (Eventually.of_forall fun _ => trivial) circle_smooth
    (fromFunction_underived _ _) R hR
  have hdx : 0 < ρ / (4 * (3 + ρ)) := by positivity
  refine ⟨ρ, hρ, C, hC, hCρ, ρ / (4 * (3 + ρ)), hdx, ρ / 2, by linarith, fun tol htol => ?_⟩
  obtain ⟨N, hN⟩ := H tol htol
  refine ⟨N, fun guess e0 he0 hg => ?_⟩
  refine hN _ (localConfig (.inl rfl) (hfree _) fun i => (hg i).trans_lt he0) rfl rfl (le_refl _) (ρ / 2) (by linarith)
    (fun i => ⟨_, rfl, fun v hv => ?_⟩) _ rfl e0 he0 hg
  have hi : |(![1, 2] : Vec ℝ 2) i| ≤ 2 := by fin_cases i <;> norm_num
  have hv2 : |v| ≤ 2 + ρ := by
    have := abs_sub_abs_le_abs_sub v ((![1, 2] : Vec ℝ 2) i)
    linarith
  set dx := ρ / (4 * (3 + ρ)) with hd
  have hprod : dx * (4 * (3 + ρ)) = ρ := by rw [hd]; field_simp
  have hpos : 0 < (limits dx).computePerturbation v := lt_max_of_lt_left hdx
  refine ⟨hpos.ne', ?_⟩
  rw [abs_of_pos hpos]
  change max dx (|v| * dx) ≤ ρ / 2
  have := abs_nonneg v
  refine max_le ?_ ?_ <;> nlinarith

end DemoReal
end Nrf
