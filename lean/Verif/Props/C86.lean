import Verif.Proofs.Monotone
import Verif.Props.C38
import Mathlib.Analysis.Convex.SpecificFunctions.Basic
import Mathlib.Analysis.SpecialFunctions.Log.Basic
import Mathlib.Analysis.SpecialFunctions.ExpDeriv

/-!
# C86: Newton-Raphson converges globally on convex problems
-/

namespace Nrf
open Spec
open scoped Exact Topology
open Matrix Filter

variable {n : Nat}

/-- Exact arithmetic, analytic Jacobian, absolute residuals, no damping.  Each equation is convex, the inverse of the
Jacobian has no negative entry, and there is a root.  From every guess and for every tolerance the solve succeeds if enough
iterations are allowed and no limit acts in a box that holds the guess, the root and the first iterate.  After the first
iteration the root is approached from above. -/
theorem C86_convex (F : Vec ℝ n → Vec ℝ n) (jac : Vec ℝ n → Mat ℝ n) (hF : OrderConvex F jac) (r : Vec ℝ n) (hr : F r = 0)
    (x0 : Vec ℝ n) (tol : ℝ) (htol : 0 < tol) :
    ∃ N, ∀ c : Config ℝ n, PlainNewton c → c.guess = x0 → c.params.tolerance = tol → N ≤ c.params.maxIter →
      ∀ lo hi : Vec ℝ n, (∀ i, lo i ≤ x0 i ∧ x0 i ≤ hi i) → (∀ i, lo i ≤ r i) →
      (∀ i, x0 i - ((jac x0)⁻¹ *ᵥ F x0) i ≤ hi i) →
      (∀ i v w, lo i ≤ v → v ≤ hi i → lo i ≤ w → w ≤ hi i → (c.iters i).stepLimitation v (w - v) = w) →
      ∀ s : AdapterState ℝ n, s.right = 0 →
      ∃ st' s', solve c (fromFunctionAndJacobian F jac) .new s = .ok (st', s', .ok ()) ∧ (∀ i, |F s'.inputs i| ≤ tol) ∧
        (0 < st'.iter → ∀ i, 0 ≤ F s'.inputs i ∧ r i ≤ s'.inputs i) := by
  obtain ⟨k, hk⟩ := ((Metric.tendsto_atTop.1 (Monotone.residuals_tendsto hF hr x0)) tol htol)
  refine ⟨k + 1, fun c hc hg ht hmax lo hi h0 hlo h1 hlim s hs => ?_⟩
  have hbox := Monotone.iterates_box hF hr h0 hlo h1
  obtain ⟨st', s', g1, -, g3, g4⟩ := newton_run_function hc F jac (fun k x => x = Monotone.iterates F jac x0 k) (k + 1) hmax
    (by rw [hg]; rfl)
    (fun k x _ hx => by
      have e : x + (Monotone.next F jac x - x) = Monotone.next F jac x := by abel
      refine ⟨hF.invertible x, Monotone.next F jac x - x, Monotone.mulVec_next hF x, fun i => ?_, ?_⟩
      · have hb := hbox k i
        have hb' := hbox (k + 1) i
        rw [Monotone.iterates_succ, ← hx] at hb'
        rw [← hx] at hb
        rw [← Pi.add_apply, e]
        exact hlim i _ _ hb.1 hb.2 hb'.1 hb'.2
      · rw [e, Monotone.iterates_succ, hx])
    (fun x hx i => by
      have := hk k (le_refl _)
      rw [dist_zero_right, ← hx] at this
      rw [ht]
      exact (norm_le_pi_norm (F x) i).trans this.le) (by rw [ht]; exact htol.le) s hs
  refine ⟨st', s', g1, fun i => ht ▸ g4 i, fun hpos i => ?_⟩
  obtain ⟨j, hj⟩ := Nat.exists_eq_succ_of_ne_zero hpos.ne'
  rw [hj, Nat.succ_eq_add_one, Monotone.iterates_succ] at g3
  rw [g3]
  exact ⟨Monotone.next_nonneg hF _ i, Monotone.le_next hF hr _ i⟩

/-- Exact arithmetic, finite differences, absolute residuals, with or without damping, one increasing convex equation.
From every guess at or above the root, whatever the size of the perturbations, the solve succeeds within `N` iterations,
where `N` times the tolerance is the distance to the root times the slope of the chord beyond the points visited. -/
theorem C86_finite_differences (f : ℝ → ℝ) (hf : ConvexOn ℝ Set.univ f) (hmono : StrictMono f) (r : ℝ) (hr : f r = 0)
    (x0 : ℝ) (hx0 : r ≤ x0) (P tol : ℝ) (N : ℕ) (hN0 : 0 < N)
    (hN : (f (x0 + P + 1) - f (x0 + P)) * (x0 - r) ≤ N * tol) (htol : 0 ≤ tol) (c : Config ℝ 1) (hL : c.la.IsExact)
    (hm : c.params.method = .NewtonRaphson) (hstop : ∀ i, c.res.stop i = .Abs) (hupd : ∀ i, c.res.upd i = .Abs)
    (hg : c.guess = fun _ => x0) (ht : c.params.tolerance = tol) (hmax : N ≤ c.params.maxIter)
    (p : ℝ → ℝ) (hp : (c.iters 0).computePerturbation = some p) (hpP : ∀ v, r ≤ v → v ≤ x0 → 0 < p v ∧ p v ≤ P)
    (hlim : ∀ v w, r ≤ v → v ≤ x0 + P → r ≤ w → w ≤ x0 → (c.iters 0).stepLimitation v (w - v) = w)
    (s : AdapterState ℝ 1) (hs : s.right = 0) :
    ∃ st' s', solve c (fromFunction fun x _ => f (x 0)) .new s = .ok (st', s', .ok ()) ∧ st'.iter ≤ N ∧
      r ≤ s'.inputs 0 ∧ s'.inputs 0 ≤ x0 ∧ 0 ≤ f (s'.inputs 0) ∧ f (s'.inputs 0) ≤ tol := by
  set b := f (x0 + P + 1) - f (x0 + P) with hb
  have hP : 0 < P := (hpP r (le_refl _) hx0).1.trans_le (hpP r (le_refl _) hx0).2
  have hupdate : ∀ x : Vec ℝ 1, updateAt c (fun x => ⟨fun _ => f (x 0), 0⟩) x = fun _ => f (x 0) := by
    intro x
    funext i
    change c.res.evaluateUpdate _ i = _
    rw [evaluateUpdate_exact, hupd]
    simp [Spec.residual]
  have herr : ∀ x : Vec ℝ 1, 0 ≤ f (x 0) → amax (errorsAt c (fun x => ⟨fun _ => f (x 0), 0⟩) x) = f (x 0) := by
    intro x hx
    have e : ∀ i, errorsAt c (fun x => ⟨fun _ => f (x 0), 0⟩) x i = f (x 0) := by
      intro i
      change c.res.evaluateStopping _ i = _
      rw [evaluateStopping_exact, hstop]
      simp [Spec.residual, abs_of_nonneg hx]
    refine le_antisymm ((amax_le_iff _ hx).2 fun i => by rw [e, abs_of_nonneg hx]) ?_
    have := abs_le_amax (errorsAt c (fun x => ⟨fun _ => f (x 0), 0⟩) x) 0
    rw [e, abs_of_nonneg hx] at this
    exact this
  have hge : ∀ v, r ≤ v → 0 ≤ f v := fun v hv => hr ▸ hmono.monotone hv
  obtain ⟨st', s', x, h1, h2, h3, h4, h5⟩ := newton_run_damped (m := fromFunction fun x _ => f (x 0)) hL hm
    (fromFunction_computes (fun x _ => f (x 0)) 0)
    (fun k x => r ≤ x 0 ∧ x 0 ≤ x0 ∧ k * f (x 0) ≤ b * (x0 - x 0)) N hmax (fun _ _ _ => trivial)
    (by rw [hg]; simp [hx0])
    (fun k x _ hx => by
      obtain ⟨hx1, hx2, hx3⟩ := hx
      obtain ⟨hp0, hp1⟩ := hpP _ hx1 hx2
      have hpert : computePerturbations c.iters x = some fun i => p (x i) := by
        have hsome : ∀ i, (c.iters i).computePerturbation.isSome := fun i => by rw [Subsingleton.elim i 0, hp]; rfl
        rw [computePerturbations, dif_pos hsome]
        congr 1
        funext i
        obtain rfl : i = 0 := Subsingleton.elim _ _
        exact congrFun (Option.get_of_eq_some _ hp) _
      set σ := (f (x 0 + p (x 0)) - f (x 0)) / p (x 0) with hσ
      have hσ0 : 0 < σ := Monotone.slope_pos hmono hp0
      have hmv : moved x 0 (p (x 0)) 0 = x 0 + p (x 0) := by rw [moved_eq]; simp
      have hJ : differencesAt c (fun x => ⟨fun _ => f (x 0), 0⟩) (fun i => p (x i)) x = Matrix.of fun _ _ => σ := by
        ext i k
        rw [Subsingleton.elim i 0, Subsingleton.elim k 0]
        change (updateAt c _ (moved x 0 (p (x 0))) 0 - updateAt c _ x 0) / p (x 0) = σ
        rw [hupdate, hupdate, hmv]
      have hdet : (Matrix.of fun _ _ => σ : Mat ℝ 1).det ≠ 0 := by rw [Matrix.det_fin_one]; exact hσ0.ne'
      have hx' : x - (Matrix.of fun _ _ => σ : Mat ℝ 1)⁻¹ *ᵥ (fun _ => f (x 0)) = fun _ => x 0 - f (x 0) / σ := by
        have e : (fun _ => f (x 0) : Vec ℝ 1) = (Matrix.of fun _ _ => σ : Mat ℝ 1) *ᵥ fun _ => f (x 0) / σ := by
          funext i
          change _ = ∑ k : Fin 1, σ * (f (x 0) / σ)
          rw [Fin.sum_univ_one, mul_div_cancel₀ _ hσ0.ne']
        rw [e, Matrix.mulVec_mulVec, ex_inv_mul hdet, Matrix.one_mulVec]
        funext i
        rw [Subsingleton.elim i 0]
        rfl
      have hfx := hge _ hx1
      have hlow : r ≤ x 0 - f (x 0) / σ := Monotone.secant_ge hf hmono hr hx1 hp0
      have hdec : x 0 - f (x 0) / σ ≤ x 0 := by have := div_nonneg hfx hσ0.le; linarith
      have hfdec : f (x 0 - f (x 0) / σ) ≤ f (x 0) := hmono.monotone hdec
      have hbase : ∀ z, Base x (fun i => p (x i)) z → x 0 ≤ z 0 ∧ z 0 ≤ x 0 + p (x 0) := by
        rintro z (rfl | ⟨i, rfl⟩)
        · exact ⟨le_refl _, by linarith⟩
        · rw [Subsingleton.elim i 0, hmv]
          exact ⟨by linarith, le_refl _⟩
      refine ⟨fun i => p (x i), Matrix.of fun _ _ => σ, fun _ => x 0 - f (x 0) / σ, ?_, hdet, ?_, ?_, ?_, hlow,
        hdec.trans hx2, ?_⟩
      · rw [← hJ]
        exact .fd (fromFunction_underived _ 0) hpert (fun i => by rw [Subsingleton.elim i 0]; exact hp0.ne') fun _ => trivial
      · rw [hupdate, hx']
      · intro z hz i
        rw [Subsingleton.elim i 0]
        obtain ⟨hz1, hz2⟩ := hbase z hz
        exact hlim _ _ (by linarith) (by linarith) hlow (hdec.trans hx2)
      · intro _ z hz
        obtain ⟨hz1, hz2⟩ := hbase z hz
        rw [herr _ (hge _ hlow), herr _ (hge _ (hx1.trans hz1))]
        exact hfdec.trans (hmono.monotone hz1)
      · have hσb : σ ≤ b := by
          have := Monotone.slope_le hf (x := x 0) (a := x0 + P) (b := x0 + P + 1) hp0 (by linarith) (by linarith)
          rw [add_sub_cancel_left, div_one] at this
          exact this
        have h6 : f (x 0) ≤ b * (f (x 0) / σ) := by
          have := mul_le_mul_of_nonneg_right hσb (div_nonneg hfx hσ0.le)
          rw [mul_div_cancel₀ _ hσ0.ne'] at this
          exact this
        have h7 : (k : ℝ) * f (x 0 - f (x 0) / σ) ≤ k * f (x 0) := mul_le_mul_of_nonneg_left hfdec (Nat.cast_nonneg k)
        push_cast
        linarith)
    (fun x hx => by
      obtain ⟨hx1, hx2, hx3⟩ := hx
      rw [herr _ (hge _ hx1), ht]
      have hb0 : 0 < b := sub_pos.2 (hmono (by linarith))
      have hN1 : (0 : ℝ) < N := by exact_mod_cast hN0
      have : b * (x0 - x 0) ≤ b * (x0 - r) := mul_le_mul_of_nonneg_left (by linarith) hb0.le
      refine le_of_mul_le_mul_left ?_ hN1
      linarith) s hs
  obtain rfl : s'.inputs = x := h3.iteratives
  obtain ⟨h6, h7, -⟩ := h4
  rw [herr _ (hge _ h6), ht] at h5
  exact ⟨st', s', h1, h2, h6, h7, hge _ h6, h5⟩

/-! ### The hypotheses can be met -/

namespace DemoReal

/-- `eˣ + 2x - y = e + 1`, `e^y + 2y - x = e + 1`. -/
noncomputable def coupled (x : Vec ℝ 2) : Vec ℝ 2 :=
  ![Real.exp (x 0) + 2 * x 0 - x 1 - (Real.exp 1 + 1), Real.exp (x 1) + 2 * x 1 - x 0 - (Real.exp 1 + 1)]

noncomputable def coupledJac (x : Vec ℝ 2) : Mat ℝ 2 := !![Real.exp (x 0) + 2, -1; -1, Real.exp (x 1) + 2]

theorem exp_tangent (a b : ℝ) : Real.exp a + Real.exp a * (b - a) ≤ Real.exp b := by
  have h := mul_le_mul_of_nonneg_left (Real.add_one_le_exp (b - a)) (Real.exp_pos a).le
  rw [← Real.exp_add, add_sub_cancel] at h
  linarith

theorem coupled_convex : OrderConvex coupled coupledJac := by
  have hdet : ∀ x, 0 < (coupledJac x).det := by
    intro x
    rw [coupledJac, Matrix.det_fin_two_of]
    have := Real.exp_pos (x 0)
    have := Real.exp_pos (x 1)
    nlinarith [mul_pos (Real.exp_pos (x 0)) (Real.exp_pos (x 1))]
  refine ⟨fun x y i => ?_, fun x => (hdet x).ne', fun x i k => ?_, ?_⟩
  · have h0 := exp_tangent (x 0) (y 0)
    have h1 := exp_tangent (x 1) (y 1)
    fin_cases i <;> simp [coupled, coupledJac, Matrix.mulVec, dotProduct, Fin.sum_univ_two] <;> linarith
  · have e : (coupledJac x)⁻¹ = (coupledJac x).det⁻¹ • !![Real.exp (x 1) + 2, 1; 1, Real.exp (x 0) + 2] := by
      rw [Matrix.inv_def, coupledJac, Matrix.adjugate_fin_two_of, Ring.inverse_eq_inv', neg_neg]
    rw [e, Matrix.smul_apply, smul_eq_mul]
    refine mul_nonneg (inv_nonneg.2 (hdet x).le) ?_
    have := Real.exp_pos (x 0)
    have := Real.exp_pos (x 1)
    fin_cases i <;> fin_cases k <;> simp <;> linarith
  · refine continuous_matrix fun i k => ?_
    fin_cases i <;> fin_cases k <;> simp [coupledJac] <;> fun_prop

/-- Wide limits. -/
noncomputable def wide : IterativeParamsFD ℝ := ⟨⟨1000, 1000, -1000, 1000⟩, .Sum, 1 / 100, 1 / 100⟩

theorem wide_free {v w : ℝ} (hv : 1 / 2 ≤ |v|) (hw : |w| ≤ 200) (hv' : |v| ≤ 200) :
    wide.toIterative.stepLimitation v (w - v) = w := by
  have h1 := abs_le.1 hw
  have h2 := abs_le.1 hv'
  have hstep : |w - v| ≤ min 1000 (1000 * |v|) := by
    have : |w - v| ≤ 400 := abs_le.2 ⟨by linarith, by linarith⟩
    exact le_min (by linarith) (by linarith)
  change min (max (v + min (min 1000 (1000 * |v|)) |w - v| * (if 0 ≤ w - v then 1 else -1)) (-1000)) 1000 = w
  have hsd : |w - v| * (if 0 ≤ w - v then 1 else -1) = w - v := by
    split
    · rename_i h; rw [abs_of_nonneg h, mul_one]
    · rename_i h; rw [abs_of_neg (not_le.1 h)]; ring
  rw [min_eq_right hstep, hsd, add_sub_cancel, max_eq_left (by linarith), min_eq_left (by linarith)]

/-- The system is solved from `(2, 3)`, for every tolerance. -/
example (tol : ℝ) (htol : 0 < tol) : ∃ N, ∀ s : AdapterState ℝ 2, s.right = 0 → ∃ st' s',
    solve ⟨⟨2, tol, N, .NewtonRaphson, false⟩, ![2, 3], fun _ => wide.toIterative, ⟨fun _ => .Abs, fun _ => .Abs⟩,
      exactLinAlg ℝ 2⟩ (fromFunctionAndJacobian coupled coupledJac) .new s = .ok (st', s', .ok ()) ∧
      ∀ i, |coupled s'.inputs i| ≤ tol := by
  have hroot : coupled (fun _ => 1) = 0 := by
    funext i
    fin_cases i <;> simp [coupled] <;> ring
  obtain ⟨N, hN⟩ := C86_convex coupled coupledJac coupled_convex (fun _ => 1) hroot ![2, 3] tol htol
  refine ⟨N, fun s hs => ?_⟩
  have hnn : ∀ i, 0 ≤ coupled ![2, 3] i := by
    have h2 := exp_tangent 1 2
    have h3 := exp_tangent 1 3
    have := Real.add_one_le_exp (1 : ℝ)
    intro i
    fin_cases i <;> simp [coupled] <;> linarith
  obtain ⟨st', s', h1, h2, -⟩ := hN ⟨⟨2, tol, N, .NewtonRaphson, false⟩, ![2, 3], fun _ => wide.toIterative,
    ⟨fun _ => .Abs, fun _ => .Abs⟩, exactLinAlg ℝ 2⟩
    ⟨exactLinAlg_isExact ℝ 2, rfl, rfl, fun _ => rfl, fun _ => rfl⟩ rfl rfl (le_refl _) (fun _ => 1) (fun _ => 3)
    (fun i => by fin_cases i <;> norm_num) (fun _ => le_refl _)
    (fun i => (Monotone.next_le coupled_convex hnn i).trans (by fin_cases i <;> norm_num))
    (fun i v w hv hv' hw hw' => wide_free (by rw [abs_of_nonneg (by linarith)]; linarith)
      (abs_le.2 ⟨by linarith, by linarith⟩) (abs_le.2 ⟨by linarith, by linarith⟩)) s hs
  exact ⟨st', s', h1, h2⟩

/-- `eˣ = 2` from 3 with finite differences, damping on: the logarithm of two. -/
example (N : ℕ) (hN0 : 0 < N) (hN : (Real.exp 5 - Real.exp 4) * 3 ≤ N * (1 / 1000)) (s : AdapterState ℝ 1)
    (hs : s.right = 0) : ∃ st' s',
    solve ⟨⟨1, 1 / 1000, N, .NewtonRaphson, true⟩, fun _ => 3, fun _ => wide.toIterative, ⟨fun _ => .Abs, fun _ => .Abs⟩,
      exactLinAlg ℝ 1⟩ (fromFunction fun x _ => Real.exp (x 0) - 2) .new s = .ok (st', s', .ok ()) ∧
      Real.log 2 ≤ s'.inputs 0 ∧ Real.exp (s'.inputs 0) ≤ 2 + 1 / 1000 := by
  have hlog1 : 1 / 2 ≤ Real.log 2 := by
    have := Real.one_sub_inv_le_log_of_pos (two_pos : (0 : ℝ) < 2)
    norm_num at this
    linarith
  have hlog2 : Real.log 2 ≤ 3 := by
    have := Real.log_le_sub_one_of_pos (two_pos : (0 : ℝ) < 2)
    linarith
  have hexp : Real.exp 4 < Real.exp 5 := Real.exp_lt_exp.2 (by norm_num)
  have hpert : ∀ v, Real.log 2 ≤ v → v ≤ 3 → 0 < wide.computePerturbation v ∧ wide.computePerturbation v ≤ 1 := by
    intro v hv hv'
    change 0 < 1 / 100 + |v| * (1 / 100) ∧ 1 / 100 + |v| * (1 / 100) ≤ 1
    rw [abs_of_nonneg (by linarith)]
    constructor <;> linarith
  obtain ⟨st', s', h1, -, h3, -, -, h6⟩ := C86_finite_differences (fun x => Real.exp x - 2)
    (ConvexOn.add_const convexOn_exp (-2) :) (fun a b h => sub_lt_sub_right (Real.exp_lt_exp.2 h) 2) (Real.log 2)
    (by rw [Real.exp_log two_pos, sub_self]) 3 hlog2 1 (1 / 1000) N hN0
    (by
      rw [show (3 : ℝ) + 1 + 1 = 5 by norm_num, show (3 : ℝ) + 1 = 4 by norm_num, sub_sub_sub_cancel_right]
      refine le_trans (mul_le_mul_of_nonneg_left ?_ (sub_nonneg.2 hexp.le)) hN
      linarith) (by norm_num)
    ⟨⟨1, 1 / 1000, N, .NewtonRaphson, true⟩, fun _ => 3, fun _ => wide.toIterative, ⟨fun _ => .Abs, fun _ => .Abs⟩,
      exactLinAlg ℝ 1⟩ (exactLinAlg_isExact ℝ 1) rfl (fun _ => rfl) (fun _ => rfl) rfl rfl (le_refl _)
    wide.computePerturbation rfl hpert
    (fun v w hv hv' hw hw' => wide_free (by rw [abs_of_nonneg (by linarith)]; linarith)
      (abs_le.2 ⟨by linarith, by linarith⟩) (abs_le.2 ⟨by linarith, by linarith⟩)) s hs
  exact ⟨st', s', h1, h3, by linarith⟩

end DemoReal
end Nrf
