import Verif.Proofs.BroydenRun
import Verif.Props.C69

/-!
# C71: Newton-Raphson solves the cases 5 to 8 from the documented starting point
-/

namespace Nrf
open Spec TestCases
open scoped Exact
open Matrix

section
variable {K : Type} [Field K] [LinearOrder K] [IsStrictOrderedRing K]

/-- Exact arithmetic, any dimension `k + 2`, any `alpha` in `[-1, 0)`, started at `(-1, …, -1)`, without damping, with
limits that do not cut steps between `-1` and `0`: if a root without positive entry exists, the solve succeeds within `N`
iterations, where `N` needs `n (3 - 2 alpha) |alpha| ^ (2 ^ N) ≤ |alpha| tolerance`.  The result lies between the
starting point and the root, within the tolerance of the root, and the distance is squared by every iteration. -/
theorem C71_cases5to8 {k : Nat} (alpha : K) (hα : alpha < 0) (hα1 : -1 ≤ alpha) (root : Vec K (k + 2))
    (hroot : broyden alpha 1 root = 0) (hneg : ∀ i, root i ≤ 0)
    (c : Config K (k + 2)) (hc : PlainNewton c) (hguess : c.guess = broydenInit (k + 2))
    (hlim : ∀ i v w, -1 ≤ v → v ≤ w → w ≤ 0 → (c.iters i).stepLimitation v (w - v) = w)
    (N : Nat) (hN : N ≤ c.params.maxIter)
    (htol : (k + 2 : ℕ) * ((3 - 2 * alpha) * (-alpha) ^ 2 ^ N) ≤ -alpha * c.params.tolerance)
    (s : AdapterState K (k + 2)) (hs : s.right = 0) :
    ∃ st' s', solve c (fromFunctionAndJacobian (broyden alpha 1) (broydenJac alpha)) .new s = .ok (st', s', .ok ()) ∧
      st'.iter ≤ N ∧ ∀ i, -1 ≤ s'.inputs i ∧ s'.inputs i ≤ root i ∧ root i - s'.inputs i ≤ c.params.tolerance ∧
        -alpha * (root i - s'.inputs i) ≤ (-alpha) ^ 2 ^ st'.iter := by
  have hpos : 0 < -alpha := neg_pos.2 hα
  have htol0 : 0 ≤ c.params.tolerance := by
    have h1 : 0 ≤ (k + 2 : ℕ) * ((3 - 2 * alpha) * (-alpha) ^ 2 ^ N) := by
      have : 0 ≤ 3 - 2 * alpha := by linarith
      positivity
    by_contra hlt
    have := mul_neg_of_pos_of_neg hpos (not_le.1 hlt)
    linarith
  obtain ⟨st', s', h1, h2, ⟨E, hE, hEle, h3⟩, h4⟩ := newton_run_function hc (broyden alpha 1) (broydenJac alpha)
    (fun j x => ∃ E, 0 ≤ E ∧ -alpha * E ≤ (-alpha) ^ 2 ^ j ∧ Below alpha root E x) N hN
    ⟨1, zero_le_one, by simp, by rw [hguess]; exact below_start hα hneg hroot⟩
    (fun j x _ hI => by
      obtain ⟨E, hE, hEle, hx⟩ := hI
      have hdet := below_det hα hneg hx
      refine ⟨hdet, (broydenJac alpha x)⁻¹ *ᵥ (- broyden alpha 1 x), ?_, ?_⟩
      · rw [Matrix.mulVec_mulVec, Matrix.mul_nonsing_inv _ (isUnit_iff_ne_zero.2 hdet), Matrix.one_mulVec]
      · set d := (broydenJac alpha x)⁻¹ *ᵥ (- broyden alpha 1 x) with hd
        have hJd : broydenJac alpha x *ᵥ d = - broyden alpha 1 x := by
          rw [hd, Matrix.mulVec_mulVec, Matrix.mul_nonsing_inv _ (isUnit_iff_ne_zero.2 hdet), Matrix.one_mulVec]
        obtain ⟨h1, h2⟩ := below_step hα hroot hneg hE hx hJd
        refine ⟨fun i => ?_, _, mul_nonneg hpos.le (sq_nonneg E), ?_, h1⟩
        · have l1 := forall_entry (P := fun y => -1 ≤ y) hx.lower i
          have l2 := forall_entry (P := fun y => 0 ≤ y) h2 i
          have l3 := below_nonpos hneg h1 i
          rw [entry_of_lt _ i.2] at l3
          have := hlim i (x i) (x i + d i) l1 (by linarith) l3
          rwa [add_sub_cancel_left] at this
        · calc -alpha * (-alpha * E ^ 2) = (-alpha * E) ^ 2 := by ring
            _ ≤ ((-alpha) ^ 2 ^ j) ^ 2 := pow_le_pow_left₀ (mul_nonneg hpos.le hE) hEle 2
            _ = (-alpha) ^ 2 ^ (j + 1) := by rw [← pow_mul, pow_succ])
    (fun x hI i => by
      obtain ⟨E, hE, hEle, hx⟩ := hI
      obtain ⟨r1, r2⟩ := below_residual hα hroot hneg hx i
      rw [abs_of_nonneg r1]
      refine r2.trans ?_
      have : -alpha * ((k + 2 : ℕ) * ((3 - 2 * alpha) * E)) ≤ -alpha * c.params.tolerance := by
        refine le_trans ?_ htol
        have e : -alpha * ((k + 2 : ℕ) * ((3 - 2 * alpha) * E)) = (k + 2 : ℕ) * ((3 - 2 * alpha) * (-alpha * E)) := by ring
        rw [e]
        have h0 : 0 ≤ 3 - 2 * alpha := by linarith
        exact mul_le_mul_of_nonneg_left (mul_le_mul_of_nonneg_left hEle h0) (Nat.cast_nonneg _)
      exact le_of_mul_le_mul_left this hpos) htol0 s hs
  refine ⟨st', s', h1, h2, fun i => ⟨?_, ?_, ?_, ?_⟩⟩
  · exact forall_entry (P := fun y => -1 ≤ y) h3.lower i
  · have := h3.upper i i.2
    rwa [entry_of_lt _ i.2, entry_of_lt _ i.2] at this
  · have := below_distance hα hroot hneg h3 htol0 h4 i i.2
    rwa [entry_of_lt _ i.2, entry_of_lt _ i.2] at this
  · have := h3.near i i.2
    rw [entry_of_lt _ i.2, entry_of_lt _ i.2] at this
    exact (mul_le_mul_of_nonneg_left this hpos.le).trans hEle

end

private theorem apply_solution {k : Nat} {alpha a b d : ℝ} (h : Belongs alpha a b d) (h1 : -1 ≤ alpha)
    (c : Config ℝ (k + 2)) (hc : PlainNewton c) (hguess : c.guess = broydenInit (k + 2))
    (hlim : ∀ i v w, -1 ≤ v → v ≤ w → w ≤ 0 → (c.iters i).stepLimitation v (w - v) = w)
    (N : Nat) (hN : N ≤ c.params.maxIter) (ht : c.params.tolerance = 1 / 10 ^ 6)
    (hsmall : (k + 2 : ℕ) * ((3 - 2 * alpha) * (-alpha) ^ 2 ^ N) ≤ -alpha * (1 / 10 ^ 6))
    (s : AdapterState ℝ (k + 2)) (hs : s.right = 0) :
    ∃ st' s', solve c (fromFunctionAndJacobian (broyden alpha 1) (broydenJac alpha)) .new s = .ok (st', s', .ok ()) ∧
      st'.iter ≤ N ∧ ∀ i, |s'.inputs i - solution Real.sqrt a b d (k + 2) i| ≤ 1 / 10 ^ 6 := by
  obtain ⟨st', s', g1, g2, g3⟩ := C71_cases5to8 alpha h.neg h1 (solution Real.sqrt a b d (k + 2)) (solution_root h)
    (fun i => (chain_spec h _).2.1.le) c hc hguess hlim N hN (by rw [ht]; exact hsmall) s hs
  refine ⟨st', s', g1, g2, fun i => ?_⟩
  obtain ⟨-, l2, l3, -⟩ := g3 i
  rw [ht] at l3
  rw [abs_sub_comm, abs_of_nonneg (by linarith)]
  exact l3

/-- What the tests `broyden_case5_jac` to `broyden_case8_jac` of `tests/solver/newton_raphson/broyden.rs` assert, with
the tolerance `1e-6` of `default_with_guess`, in exact arithmetic: at most 4 iterations for case 5, 5 for the others
(of the 50 allowed). -/
theorem C71_case5 (c : Config ℝ 5) (hc : PlainNewton c) (hguess : c.guess = broydenInit 5)
    (hlim : ∀ i v w, -1 ≤ v → v ≤ w → w ≤ 0 → (c.iters i).stepLimitation v (w - v) = w)
    (ht : c.params.tolerance = 1 / 10 ^ 6) (hN : 4 ≤ c.params.maxIter) (s : AdapterState ℝ 5) (hs : s.right = 0) :
    ∃ st' s', solve c (fromFunctionAndJacobian broydenCase5 broydenCase5Jac) .new s = .ok (st', s', .ok ()) ∧
      st'.iter ≤ 4 ∧ ∀ i, |s'.inputs i - solutionCase5 Real.sqrt i| ≤ 1 / 10 ^ 6 :=
  apply_solution (k := 3) belongs5 (by simp only [alpha5, ex_neg, ex_dec]; norm_num) c hc hguess hlim 4 hN ht
    (by simp only [alpha5, ex_neg, ex_dec]; norm_num) s hs

theorem C71_case6 (c : Config ℝ 5) (hc : PlainNewton c) (hguess : c.guess = broydenInit 5)
    (hlim : ∀ i v w, -1 ≤ v → v ≤ w → w ≤ 0 → (c.iters i).stepLimitation v (w - v) = w)
    (ht : c.params.tolerance = 1 / 10 ^ 6) (hN : 5 ≤ c.params.maxIter) (s : AdapterState ℝ 5) (hs : s.right = 0) :
    ∃ st' s', solve c (fromFunctionAndJacobian broydenCase6 broydenCase6Jac) .new s = .ok (st', s', .ok ()) ∧
      st'.iter ≤ 5 ∧ ∀ i, |s'.inputs i - solutionCase6 Real.sqrt i| ≤ 1 / 10 ^ 6 :=
  apply_solution (k := 3) belongs6 (by simp only [alpha6, ex_neg, ex_dec]; norm_num) c hc hguess hlim 5 hN ht
    (by simp only [alpha6, ex_neg, ex_dec]; norm_num) s hs

theorem C71_case7 (c : Config ℝ 10) (hc : PlainNewton c) (hguess : c.guess = broydenInit 10)
    (hlim : ∀ i v w, -1 ≤ v → v ≤ w → w ≤ 0 → (c.iters i).stepLimitation v (w - v) = w)
    (ht : c.params.tolerance = 1 / 10 ^ 6) (hN : 5 ≤ c.params.maxIter) (s : AdapterState ℝ 10) (hs : s.right = 0) :
    ∃ st' s', solve c (fromFunctionAndJacobian broydenCase7 broydenCase7Jac) .new s = .ok (st', s', .ok ()) ∧
      st'.iter ≤ 5 ∧ ∀ i, |s'.inputs i - solutionCase7 Real.sqrt i| ≤ 1 / 10 ^ 6 :=
  apply_solution (k := 8) belongs6 (by simp only [alpha6, ex_neg, ex_dec]; norm_num) c hc hguess hlim 5 hN ht
    (by simp only [alpha6, ex_neg, ex_dec]; norm_num) s hs

theorem C71_case8 (c : Config ℝ 20) (hc : PlainNewton c) (hguess : c.guess = broydenInit 20)
    (hlim : ∀ i v w, -1 ≤ v → v ≤ w → w ≤ 0 → (c.iters i).stepLimitation v (w - v) = w)
    (ht : c.params.tolerance = 1 / 10 ^ 6) (hN : 5 ≤ c.params.maxIter) (s : AdapterState ℝ 20) (hs : s.right = 0) :
    ∃ st' s', solve c (fromFunctionAndJacobian broydenCase8 broydenCase8Jac) .new s = .ok (st', s', .ok ()) ∧
      st'.iter ≤ 5 ∧ ∀ i, |s'.inputs i - solutionCase8 Real.sqrt i| ≤ 1 / 10 ^ 6 :=
  apply_solution (k := 18) belongs6 (by simp only [alpha6, ex_neg, ex_dec]; norm_num) c hc hguess hlim 5 hN ht
    (by simp only [alpha6, ex_neg, ex_dec]; norm_num) s hs

namespace Demo

/-- The configuration of the tests, with limits: steps of length at most 1 and at most the value, in `[-1, 1]`. -/
noncomputable def monotone (n : Nat) : Config ℝ n where
  params := { problemSize := n, tolerance := 1 / 10 ^ 6, maxIter := 50, method := .NewtonRaphson, damping := false }
  guess := broydenInit n
  iters := fun _ => IterativeParams.toIterative { maxStepAbs := 1, maxStepRel := 1, minValue := -1, maxValue := 1 }
  res := { stop := fun _ => .Abs, upd := fun _ => .Abs }
  la := exactLinAlg ℝ n

theorem monotone_newton (n : Nat) : PlainNewton (monotone n) :=
  ⟨exactLinAlg_isExact ℝ n, rfl, rfl, fun _ => rfl, fun _ => rfl⟩

theorem monotone_limits (n : Nat) (i : Fin n) (v w : ℝ) (h1 : -1 ≤ v) (h2 : v ≤ w) (h3 : w ≤ 0) :
    ((monotone n).iters i).stepLimitation v (w - v) = w := by
  change min (max (v + min (min 1 (1 * |v|)) |w - v| * (if 0 ≤ w - v then 1 else -1)) (-1)) 1 = w
  rw [if_pos (by linarith), abs_of_nonneg (by linarith : 0 ≤ w - v), abs_of_nonpos (by linarith : v ≤ 0),
    one_mul, min_eq_right (show -v ≤ (1 : ℝ) by linarith), min_eq_right (show w - v ≤ -v by linarith), mul_one,
    add_sub_cancel, max_eq_left (show -1 ≤ w by linarith), min_eq_left (show w ≤ 1 by linarith)]

/-- Case 8 with real limits. -/
example : ∃ st' s', solve (monotone 20) (fromFunctionAndJacobian broydenCase8 broydenCase8Jac) .new ⟨0, 0, 0⟩ =
      .ok (st', s', .ok ()) ∧ st'.iter ≤ 5 ∧ ∀ i, |s'.inputs i - solutionCase8 Real.sqrt i| ≤ 1 / 10 ^ 6 :=
  C71_case8 (monotone 20) (monotone_newton 20) rfl (monotone_limits 20) rfl (by decide) _ rfl

end Demo
end Nrf
