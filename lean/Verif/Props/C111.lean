import Verif.Proofs.BroydenBall
import Verif.Props.C109
import Verif.Props.C69

/-!
# C111: Broyden's two methods converge locally in any dimension, and the solver follows them while no residual is negative

C37 shows that the updating methods as coded do not converge locally: the solver takes the change of the absolute residuals.
With the change of the residuals themselves they do.
-/

namespace Nrf
open Spec
open scoped Exact Topology
open Matrix Broyden

variable {n : Nat}

/-- Broyden's first method of the literature converges from every guess near a simple root, in any dimension. -/
theorem C111_first {F : Vec ℝ n → Vec ℝ n} {jac : Vec ℝ n → Mat ℝ n} {r : Vec ℝ n} (h : LocalRoot F jac r) :
    ∃ ρ > 0, ∀ x0, ‖x0 - r‖ < ρ → ∀ k, ((firstBroyden F)^[k] (x0, jac x0)).2.det ≠ 0 ∧
      ‖((firstBroyden F)^[k] (x0, jac x0)).1 - r‖ ≤ (n + 1) * ‖x0 - r‖ / 2 ^ k := by
  obtain ⟨ρ, hρ, b, hb⟩ := local_first h
  exact ⟨ρ, hρ, fun x0 hx0 k => ⟨((hb x0 hx0).1 k).1, ((hb x0 hx0).1 k).2.1⟩⟩

/-- Broyden's second method of the literature converges from every guess near a simple root, in any dimension. -/
theorem C111_second {F : Vec ℝ n → Vec ℝ n} {jac : Vec ℝ n → Mat ℝ n} {r : Vec ℝ n} (h : LocalRoot F jac r) :
    ∃ ρ > 0, ∀ x0, ‖x0 - r‖ < ρ → ∀ k, ((secondBroyden F)^[k] (x0, (jac x0)⁻¹)).2.det ≠ 0 ∧
      ‖((secondBroyden F)^[k] (x0, (jac x0)⁻¹)).1 - r‖ ≤ (n + 1) * ‖x0 - r‖ / 2 ^ k := by
  obtain ⟨ρ, hρ, b, hb⟩ := local_second h
  exact ⟨ρ, hρ, fun x0 hx0 k => ⟨((hb x0 hx0).2.1 k).1, ((hb x0 hx0).2.1 k).2.2.1⟩⟩

/-- `BroydenFirst`, updating the Jacobian or its inverse, in exact arithmetic with absolute residuals, without damping, with
limits that do not act within `R` of a simple root: from every close guess the solve returns the points of the method of the
literature and converges, as long as no residual is negative at these points. -/
theorem C111_first_solver {F : Vec ℝ n → Vec ℝ n} {jac : Vec ℝ n → Mat ℝ n} {r : Vec ℝ n} (h : LocalRoot F jac r) {R : ℝ}
    (hR : 0 < R) : ∃ ρ > 0, ∀ tol > 0, ∃ N, ∀ c : Config ℝ n, PlainUpdating c .BroydenFirst → c.params.tolerance = tol →
      ‖c.guess - r‖ < ρ → N ≤ c.params.maxIter →
      (∀ i v d, |v - r i| < R → |d| < R → (c.iters i).stepLimitation v d = v + d) →
      (∀ k < N, ∀ i, 0 ≤ F ((firstBroyden F)^[k] (c.guess, jac c.guess)).1 i) → ∀ s : AdapterState ℝ n, s.right = 0 →
      ∃ st' s', solve c (fromFunctionAndJacobian F jac) .new s = .ok (st', s', .ok ()) ∧ st'.iter ≤ N ∧
        s'.inputs = ((firstBroyden F)^[st'.iter] (c.guess, jac c.guess)).1 ∧ (∀ i, |F s'.inputs i| ≤ tol) ∧
        ‖s'.inputs - r‖ ≤ (n + 1) * ‖c.guess - r‖ / 2 ^ st'.iter := by
  obtain ⟨ρ, hρ, b, hb⟩ := local_first h
  refine ⟨min ρ (R / (2 * (n + 1))), by positivity, fun tol htol => ?_⟩
  obtain ⟨N, hN⟩ := enough b htol
  refine ⟨N, ?_⟩
  rintro c hc rfl hg hmax hfree hpos s hs
  obtain ⟨hb, -⟩ := hb c.guess (hg.trans_le (min_le_left _ _))
  have hin := fun k => inside (hg.trans_le (min_le_right _ _)) k (hb k).2.1
  obtain ⟨st', s', h1, h2, h3, h4⟩ := first_run hc _ rfl (fun k => (hb k).1) N hmax
    (fun k _ i => unlimited hfree (hin k) (hin (k + 1)) i) hpos
    (fun i => (norm_le_pi_norm (F _) i).trans ((hb N).2.2.trans hN)) htol.le s hs
  exact ⟨st', s', h1, h2, h3, h4, by rw [h3]; exact (hb _).2.1⟩

/-- The same for `BroydenSecond`. -/
theorem C111_second_solver {F : Vec ℝ n → Vec ℝ n} {jac : Vec ℝ n → Mat ℝ n} {r : Vec ℝ n} (h : LocalRoot F jac r) {R : ℝ}
    (hR : 0 < R) : ∃ ρ > 0, ∀ tol > 0, ∃ N, ∀ c : Config ℝ n, PlainUpdating c .BroydenSecond → c.params.tolerance = tol →
      ‖c.guess - r‖ < ρ → N ≤ c.params.maxIter →
      (∀ i v d, |v - r i| < R → |d| < R → (c.iters i).stepLimitation v d = v + d) →
      (∀ k < N, ∀ i, 0 ≤ F ((secondBroyden F)^[k] (c.guess, (jac c.guess)⁻¹)).1 i) → ∀ s : AdapterState ℝ n, s.right = 0 →
      ∃ st' s', solve c (fromFunctionAndJacobian F jac) .new s = .ok (st', s', .ok ()) ∧ st'.iter ≤ N ∧
        s'.inputs = ((secondBroyden F)^[st'.iter] (c.guess, (jac c.guess)⁻¹)).1 ∧ (∀ i, |F s'.inputs i| ≤ tol) ∧
        ‖s'.inputs - r‖ ≤ (n + 1) * ‖c.guess - r‖ / 2 ^ st'.iter := by
  obtain ⟨ρ, hρ, b, hb⟩ := local_second h
  refine ⟨min ρ (R / (2 * (n + 1))), by positivity, fun tol htol => ?_⟩
  obtain ⟨N, hN⟩ := enough b htol
  refine ⟨N, ?_⟩
  rintro c hc rfl hg hmax hfree hpos s hs
  obtain ⟨hdet, hb, -⟩ := hb c.guess (hg.trans_le (min_le_left _ _))
  have hin := fun k => inside (hg.trans_le (min_le_right _ _)) k (hb k).2.2.1
  obtain ⟨st', s', h1, h2, h3, h4⟩ := second_run hc _ rfl hdet (fun k => (hb k).1) (fun k => (hb k).2.1) N hmax
    (fun k _ i => unlimited hfree (hin k) (hin (k + 1)) i) hpos
    (fun i => (norm_le_pi_norm (F _) i).trans ((hb N).2.2.2.trans hN)) htol.le s hs
  exact ⟨st', s', h1, h2, h3, h4, by rw [h3]; exact (hb _).2.2.1⟩

/-! ## Examples -/

/-- The methods of the literature converge at the solution of case 8 of the crate's tests, in dimension 20. -/
example : ∃ ρ > 0, ∀ x0, ‖x0 - TestCases.solutionCase8 Real.sqrt‖ < ρ → ∀ k,
    ‖((firstBroyden TestCases.broydenCase8)^[k] (x0, TestCases.broydenCase8Jac x0)).1 - TestCases.solutionCase8 Real.sqrt‖ ≤
      21 * ‖x0 - TestCases.solutionCase8 Real.sqrt‖ / 2 ^ k := by
  have h := C69_case8
  obtain ⟨ρ, hρ, hb⟩ := C111_first ⟨h.zero, h.smooth.contDiffAt, .of_forall h.jacobian, h.invertible⟩
  refine ⟨ρ, hρ, fun x0 hx0 k => (hb x0 hx0 k).2.trans (le_of_eq ?_)⟩
  norm_num

namespace DemoReal

/-- `x² = 2`, `x + y = 3`. -/
def lineF (x : Vec ℝ 2) : Vec ℝ 2 := ![x 0 ^ 2 - 2, x 0 + x 1 - 3]
def lineJ (x : Vec ℝ 2) : Mat ℝ 2 := !![2 * x 0, 0; 1, 1]
noncomputable def lineR : Vec ℝ 2 := ![√2, 3 - √2]

theorem sq2 : √2 * √2 = (2 : ℝ) := Real.mul_self_sqrt (by norm_num)
theorem one_lt_sqrt2 : (1 : ℝ) < √2 := by
  have := sq2
  have := Real.sqrt_nonneg 2
  nlinarith

theorem line_root : LocalRoot lineF lineJ lineR where
  root := by
    funext i
    fin_cases i <;> simp [lineF, lineR]
  smooth := by
    refine ContDiff.contDiffAt (contDiff_pi.2 fun i => ?_)
    fin_cases i <;> simp [lineF] <;> fun_prop
  jacobian := by
    refine .of_forall fun x => hasFDerivAt_pi'.2 fun i => ?_
    have h0 : HasFDerivAt (fun x : Vec ℝ 2 => x 0) (ContinuousLinearMap.proj (R := ℝ) (φ := fun _ : Fin 2 => ℝ) 0) x :=
      hasFDerivAt_apply 0 x
    have h1 : HasFDerivAt (fun x : Vec ℝ 2 => x 1) (ContinuousLinearMap.proj (R := ℝ) (φ := fun _ : Fin 2 => ℝ) 1) x :=
      hasFDerivAt_apply 1 x
    fin_cases i
    · refine ((h0.pow 2).sub_const 2).congr_fderiv ?_
      ext v
      simp [lineJ, Matrix.mulVec, dotProduct, Fin.sum_univ_two]
    · refine ((h0.add h1).sub_const 3).congr_fderiv ?_
      ext v
      simp [lineJ, Matrix.mulVec, dotProduct, Fin.sum_univ_two]
  invertible := by
    have := one_lt_sqrt2
    simp [lineJ, lineR, Matrix.det_fin_two]

/-- Points on the line `x + y = 3` to the right of the root; the slope along the line is steep enough. -/
def OnLine (p : Iterate 2) : Prop :=
  ∃ t a b : ℝ, p = (![t, 3 - t], !![a, b; 1, 1]) ∧ √2 ≤ t ∧ t + √2 ≤ a - b

theorem line_step {p : Iterate 2} (h : OnLine p) : OnLine (firstBroyden lineF p) := by
  obtain ⟨t, a, b, rfl, ht, hab⟩ := h
  have h2 := one_lt_sqrt2
  have hs := sq2
  have hd : 0 < a - b := by linarith
  set δ := (t ^ 2 - 2) / (a - b) with hδ
  have hδm : (a - b) * δ = t ^ 2 - 2 := by rw [hδ]; field_simp
  have hδ0 : 0 ≤ δ := div_nonneg (by nlinarith) hd.le
  have hδt : δ ≤ t - √2 := by
    rw [hδ, div_le_iff₀ hd]
    nlinarith
  have hdet : (!![a, b; 1, 1] : Mat ℝ 2).det ≠ 0 := by simp [Matrix.det_fin_two]; intro e; linarith
  have hF : lineF ![t, 3 - t] = (!![a, b; 1, 1] : Mat ℝ 2) *ᵥ ![δ, -δ] := by
    funext i
    fin_cases i
    · simp [lineF]; linarith
    · simp [lineF]
  have hx : ![t, 3 - t] - (!![a, b; 1, 1] : Mat ℝ 2)⁻¹ *ᵥ lineF ![t, 3 - t] = ![t - δ, 3 - (t - δ)] := by
    rw [hF, mulVec_inv hdet]
    funext i
    fin_cases i <;> simp; ring
  have hstep : ![t - δ, 3 - (t - δ)] - ![t, 3 - t] = ![-δ, δ] := by
    funext i
    fin_cases i <;> simp
  have hy : lineF ![t - δ, 3 - (t - δ)] - lineF ![t, 3 - t] - (!![a, b; 1, 1] : Mat ℝ 2) *ᵥ ![-δ, δ] =
      ![δ * (a - b - (2 * t - δ)), 0] := by
    funext i
    fin_cases i <;> simp [lineF]; ring
  have hnew : (firstBroyden lineF (![t, 3 - t], !![a, b; 1, 1])) = (![t - δ, 3 - (t - δ)],
      !![a, b; 1, 1] + (![-δ, δ] ⬝ᵥ ![-δ, δ])⁻¹ • vecMulVec ![δ * (a - b - (2 * t - δ)), 0] ![-δ, δ]) := by
    simp only [firstBroyden, hx, hstep, hy]
  rw [hnew]
  by_cases h0 : δ = 0
  · refine ⟨t - δ, a, b, ?_, by linarith, by linarith⟩
    rw [h0]
    congr 1
    ext i j
    fin_cases i <;> fin_cases j <;> simp [vecMulVec_apply]
  · refine ⟨t - δ, a - (a - b - (2 * t - δ)) / 2, b + (a - b - (2 * t - δ)) / 2, ?_, by linarith, by linarith⟩
    congr 1
    have e : (![-δ, δ] ⬝ᵥ ![-δ, δ])⁻¹ = (2 * δ ^ 2)⁻¹ := by simp [dotProduct, Fin.sum_univ_two]; ring
    rw [e]
    ext i j
    fin_cases i <;> fin_cases j <;> simp [vecMulVec_apply] <;> field_simp
    ring

theorem line_nonneg {p : Iterate 2} (h : OnLine p) (i : Fin 2) : 0 ≤ lineF p.1 i := by
  obtain ⟨t, a, b, rfl, ht, -⟩ := h
  have h2 := one_lt_sqrt2
  have hs := sq2
  fin_cases i
  · simp [lineF]; nlinarith
  · simp [lineF]

/-- The same points for the second method; the first column of the matrix is `h (1, -1)`. -/
def OnLine2 (p : Iterate 2) : Prop :=
  ∃ t h b d : ℝ, p = (![t, 3 - t], !![h, b; -h, d]) ∧ √2 ≤ t ∧ 0 < h ∧ h * (t + √2) ≤ 1

theorem line_step2 {p : Iterate 2} (h : OnLine2 p) : OnLine2 (secondBroyden lineF p) := by
  obtain ⟨t, g, b, d, rfl, ht, hg, hgt⟩ := h
  have h2 := one_lt_sqrt2
  have hs := sq2
  set δ := g * (t ^ 2 - 2) with hδ
  have hδ0 : 0 ≤ δ := mul_nonneg hg.le (by nlinarith)
  have hδt : δ ≤ t - √2 := by
    have : δ = g * (t + √2) * (t - √2) := by rw [hδ]; linear_combination g * hs
    rw [this]
    exact mul_le_of_le_one_left (by linarith) hgt
  have hx : ![t, 3 - t] - (!![g, b; -g, d] : Mat ℝ 2) *ᵥ lineF ![t, 3 - t] = ![t - δ, 3 - (t - δ)] := by
    funext i
    fin_cases i <;> simp [lineF, hδ] <;> ring
  have hstep : ![t - δ, 3 - (t - δ)] - ![t, 3 - t] = ![-δ, δ] := by
    funext i
    fin_cases i <;> simp
  have hy : lineF ![t - δ, 3 - (t - δ)] - lineF ![t, 3 - t] = ![-δ * (2 * t - δ), 0] := by
    funext i
    fin_cases i <;> simp [lineF]; ring
  have hr : ![-δ, δ] - (!![g, b; -g, d] : Mat ℝ 2) *ᵥ ![-δ * (2 * t - δ), 0] =
      ![-δ * (1 - g * (2 * t - δ)), δ * (1 - g * (2 * t - δ))] := by
    funext i
    fin_cases i <;> simp <;> ring
  have hnew : (secondBroyden lineF (![t, 3 - t], !![g, b; -g, d])) = (![t - δ, 3 - (t - δ)],
      !![g, b; -g, d] + (![-δ * (2 * t - δ), 0] ⬝ᵥ ![-δ * (2 * t - δ), 0])⁻¹ •
        vecMulVec ![-δ * (1 - g * (2 * t - δ)), δ * (1 - g * (2 * t - δ))] ![-δ * (2 * t - δ), 0]) := by
    simp only [secondBroyden, hx, hstep, hy, hr]
  rw [hnew]
  have hw : 0 < 2 * t - δ := by linarith
  by_cases h0 : δ = 0
  · refine ⟨t - δ, g, b, d, ?_, by linarith, hg, by rw [h0, sub_zero]; exact hgt⟩
    rw [h0]
    congr 1
    ext i j
    fin_cases i <;> fin_cases j <;> simp [vecMulVec_apply]
  · refine ⟨t - δ, (2 * t - δ)⁻¹, b, d, ?_, by linarith, by positivity, ?_⟩
    · congr 1
      have e : (![-δ * (2 * t - δ), 0] ⬝ᵥ ![-δ * (2 * t - δ), 0])⁻¹ = ((δ * (2 * t - δ)) ^ 2)⁻¹ := by
        congr 1
        simp only [dotProduct, Fin.sum_univ_two, Matrix.cons_val_zero, Matrix.cons_val_one]; ring
      rw [e]
      have hw' := hw.ne'
      ext i j
      fin_cases i <;> fin_cases j <;> simp [vecMulVec_apply] <;> field_simp <;> ring
    · rw [inv_mul_le_iff₀ hw]
      linarith

theorem line_nonneg2 {p : Iterate 2} (h : OnLine2 p) (i : Fin 2) : 0 ≤ lineF p.1 i := by
  obtain ⟨t, g, b, d, rfl, ht, -⟩ := h
  exact line_nonneg ⟨t, t + √2, 0, rfl, ht, by linarith⟩ i

theorem line_start2 {t : ℝ} (ht : √2 ≤ t) : OnLine2 (![t, 3 - t], (lineJ ![t, 3 - t])⁻¹) := by
  have h2 := one_lt_sqrt2
  have ht0 : 0 < t := by linarith
  refine ⟨t, (2 * t)⁻¹, 0, 1, ?_, ht, by positivity, by rw [inv_mul_le_iff₀ (by positivity)]; linarith⟩
  congr 1
  refine Matrix.inv_eq_right_inv ?_
  ext i j
  fin_cases i <;> fin_cases j <;> simp [lineJ, Matrix.mul_apply, Fin.sum_univ_two] <;> field_simp

/-- The limits of the crate: steps up to 1, half of the value, within -10 and 10. -/
theorem line_limits (i : Fin 2) (v d : ℝ) (hv : |v - lineR i| < 1 / 4) (hd : |d| < 1 / 4) :
    (limits 1).toIterative.stepLimitation v d = v + d := by
  have hs := sq2
  have h3 : √2 < 3 / 2 := by rw [Real.sqrt_lt' (by norm_num)]; norm_num
  have h2 := one_lt_sqrt2
  have hb : 1 ≤ lineR i ∧ lineR i ≤ 2 := by
    fin_cases i
    · exact ⟨h2.le, by change √2 ≤ 2; linarith⟩
    · exact ⟨by change 1 ≤ 3 - √2; linarith, by change 3 - √2 ≤ 2; linarith⟩
  have h1 := abs_lt.1 hv
  have h2 := abs_lt.1 hd
  have hv0 : 0 < v := by linarith
  have hstep : |d| ≤ min 1 (1 / 2 * |v|) := by
    rw [abs_of_pos hv0]
    exact le_min (by linarith) (by linarith)
  change min (max (v + min (min 1 (1 / 2 * |v|)) |d| * (if 0 ≤ d then 1 else -1)) (-10)) 10 = v + d
  have hsd : |d| * (if 0 ≤ d then 1 else -1) = d := by
    split
    · rename_i h; rw [abs_of_nonneg h, mul_one]
    · rename_i h; rw [abs_of_neg (not_le.1 h)]; ring
  rw [min_eq_right hstep, hsd, max_eq_left (by linarith), min_eq_left (by linarith)]

noncomputable def updatingCfg (method : QuasiNewtonMethod) (guess : Vec ℝ 2) (tol : ℝ) (maxIter : Nat) : Config ℝ 2 :=
  { plainCfg guess tol maxIter with
    params := { (plainCfg guess tol maxIter).params with method := .QuasiNewton method } }

theorem line_dist {t ρ : ℝ} (hρ : 0 < ρ) (ht : √2 ≤ t) (htρ : t < √2 + ρ) : ‖![t, 3 - t] - lineR‖ < ρ := by
  refine (pi_norm_lt_iff hρ).2 fun i => ?_
  rw [Real.norm_eq_abs, abs_lt]
  fin_cases i <;> simp [lineR] <;> constructor <;> linarith

/-- Both forms of the first method, with the limits of the crate, on the line to the right of the root. -/
example : ∃ ρ > 0, ∀ tol > 0, ∃ N, ∀ t, √2 ≤ t → t < √2 + ρ →
    ∀ method ∈ [QuasiNewtonMethod.JacobianUpdate .BroydenFirst, .InverseJacobianUpdate .BroydenFirst],
    ∃ st' s', solve (updatingCfg method ![t, 3 - t] tol N) (fromFunctionAndJacobian lineF lineJ) .new ⟨0, 0, 0⟩ =
      .ok (st', s', .ok ()) ∧ ∀ i, |lineF s'.inputs i| ≤ tol := by
  obtain ⟨ρ, hρ, h⟩ := C111_first_solver line_root (show (0 : ℝ) < 1 / 4 by norm_num)
  refine ⟨ρ, hρ, fun tol htol => ?_⟩
  obtain ⟨N, hN⟩ := h tol htol
  refine ⟨N, fun t ht htρ method hm => ?_⟩
  have hline : ∀ k, OnLine ((firstBroyden lineF)^[k] (![t, 3 - t], lineJ ![t, 3 - t])) := by
    intro k
    induction k with
    | zero => exact ⟨t, 2 * t, 0, rfl, ht, by linarith⟩
    | succ k ih => rw [Function.iterate_succ_apply']; exact line_step ih
  obtain ⟨st', s', h1, -, -, h4, -⟩ := hN (updatingCfg method ![t, 3 - t] tol N)
    ⟨exactLinAlg_isExact ℝ 2, by
      simp only [List.mem_cons, List.not_mem_nil, or_false] at hm
      rcases hm with rfl | rfl
      · exact .inl rfl
      · exact .inr rfl, rfl, fun _ => rfl, fun _ => rfl⟩ rfl (line_dist hρ ht htρ) le_rfl line_limits
    (fun k _ => line_nonneg (hline k)) ⟨0, 0, 0⟩ rfl
  exact ⟨st', s', h1, h4⟩

/-- Both forms of the second method. -/
example : ∃ ρ > 0, ∀ tol > 0, ∃ N, ∀ t, √2 ≤ t → t < √2 + ρ →
    ∀ method ∈ [QuasiNewtonMethod.JacobianUpdate .BroydenSecond, .InverseJacobianUpdate .BroydenSecond],
    ∃ st' s', solve (updatingCfg method ![t, 3 - t] tol N) (fromFunctionAndJacobian lineF lineJ) .new ⟨0, 0, 0⟩ =
      .ok (st', s', .ok ()) ∧ ∀ i, |lineF s'.inputs i| ≤ tol := by
  obtain ⟨ρ, hρ, h⟩ := C111_second_solver line_root (show (0 : ℝ) < 1 / 4 by norm_num)
  refine ⟨ρ, hρ, fun tol htol => ?_⟩
  obtain ⟨N, hN⟩ := h tol htol
  refine ⟨N, fun t ht htρ method hm => ?_⟩
  have hline : ∀ k, OnLine2 ((secondBroyden lineF)^[k] (![t, 3 - t], (lineJ ![t, 3 - t])⁻¹)) := by
    intro k
    induction k with
    | zero => exact line_start2 ht
    | succ k ih => rw [Function.iterate_succ_apply']; exact line_step2 ih
  obtain ⟨st', s', h1, -, -, h4, -⟩ := hN (updatingCfg method ![t, 3 - t] tol N)
    ⟨exactLinAlg_isExact ℝ 2, by
      simp only [List.mem_cons, List.not_mem_nil, or_false] at hm
      rcases hm with rfl | rfl
      · exact .inl rfl
      · exact .inr rfl, rfl, fun _ => rfl, fun _ => rfl⟩ rfl (line_dist hρ ht htρ) le_rfl line_limits
    (fun k _ => line_nonneg2 (hline k)) ⟨0, 0, 0⟩ rfl
  exact ⟨st', s', h1, h4⟩

end DemoReal
end Nrf
