import Verif.Proofs.NewtonRun
import Verif.Model.TestCases
import Mathlib.Tactic.FinCases
import Mathlib.Tactic.Ring
import Mathlib.Tactic.Linarith
import Mathlib.Tactic.FieldSimp
import Mathlib.Tactic.NormNum
import Mathlib.Data.Rat.Cast.Order

/-!
# C72: Newton-Raphson solves case 9 from every guess in two iterations
-/

namespace Nrf
open Spec TestCases
open scoped Exact
open Matrix

section
variable {K : Type} [Field K] [LinearOrder K] [IsStrictOrderedRing K]

/-- What the solve of case 9 returns: `x = 1` after one iteration, the solution after two, and in any case the
residuals are within tolerance. -/
def Spec.SolvesCase9 {EI EU : Type} (c : Config K 2) (m : UserModel K 2 EI EU (AdapterState K 2)) (s : AdapterState K 2) :
    Prop :=
  ∃ st' s', solve c m .new s = .ok (st', s', .ok ()) ∧ st'.iter ≤ 2 ∧ (1 ≤ st'.iter → s'.inputs 0 = 1) ∧
    (st'.iter = 2 → s'.inputs = ![1, 1]) ∧
    |10 * (s'.inputs 1 - s'.inputs 0 ^ 2)| ≤ c.params.tolerance ∧ |1 - s'.inputs 0| ≤ c.params.tolerance

private theorem case9_zero (x : Vec K 2) : broydenCase9 x 0 = 10 * (x 1 - x 0 ^ 2) := by
  change ((10 : ℕ) / 10 ^ 0 : K) * (x 1 - x 0 * x 0) = _
  simp; ring

private theorem case9_one (x : Vec K 2) : broydenCase9 x 1 = 1 - x 0 := rfl

private theorem run {EI EU : Type} {c : Config K 2} (hc : PlainNewton c)
    (hlim : ∀ i v d, (c.iters i).stepLimitation v d = v + d) (htol : 0 ≤ c.params.tolerance)
    (hmax : 2 ≤ c.params.maxIter) (m : UserModel K 2 EI EU (AdapterState K 2))
    (hin : ∀ s : AdapterState K 2, m.getIteratives s = s.inputs)
    (hf : Computes m (fun s => s.right = 0) (fun _ => True) (fun x => ⟨broydenCase9 x, 0⟩))
    (hJ : ∀ x, ∃ pert t, Source c m (fun s => s.right = 0) (fun _ => True) (fun x => ⟨broydenCase9 x, 0⟩) x pert
      !![t, 10; -1, 0])
    (s : AdapterState K 2) (hs : s.right = 0) : SolvesCase9 c m s := by
  obtain ⟨st', s', x, h1, h2, h3, h4, h5⟩ := newton_run hc.exact hc.method hc.damping hf
    (fun k x => (1 ≤ k → x 0 = 1) ∧ (k = 2 → x = ![1, 1])) 2 hmax (fun _ _ _ => trivial)
    ⟨fun h => absurd h (by decide), fun h => absurd h (by decide)⟩
    (fun k x hk hI => by
      obtain ⟨pert, t, hsrc⟩ := hJ x
      have hdet : (!![t, 10; -1, 0] : Mat K 2).det ≠ 0 := by
        rw [Matrix.det_fin_two]; simp
      set x' : Vec K 2 := ![1, x 1 + (t * (x 0 - 1) - 10 * (x 1 - x 0 ^ 2)) / 10] with hx'
      refine ⟨pert, !![t, 10; -1, 0], x', hsrc, hdet, ?_, ?_, ?_, ?_⟩
      · rw [hc.update]
        have e : broydenCase9 x = (!![t, 10; -1, 0] : Mat K 2) *ᵥ (x - x') := by
          funext i
          fin_cases i
          · change broydenCase9 x 0 = _
            rw [case9_zero]
            simp [Matrix.mulVec, dotProduct, Fin.sum_univ_two, hx']
            ring
          · change broydenCase9 x 1 = _
            rw [case9_one]
            simp [Matrix.mulVec, dotProduct, Fin.sum_univ_two, hx']
        rw [e, Matrix.mulVec_mulVec, ex_inv_mul hdet, Matrix.one_mulVec, sub_sub_cancel]
      · intro z _ i
        rw [hlim, add_sub_cancel]
      · intro _; rfl
      · intro h2
        have h0 : x 0 = 1 := hI.1 (by omega)
        funext i
        fin_cases i
        · rfl
        · change x 1 + (t * (x 0 - 1) - 10 * (x 1 - x 0 ^ 2)) / 10 = 1
          rw [h0]
          ring)
    (fun x hI => (amax_le_iff _ htol).2 fun i => by
      rw [hc.errors, abs_abs, hI.2 rfl]
      fin_cases i
      · change |broydenCase9 _ 0| ≤ _
        rw [case9_zero]; simpa using htol
      · change |broydenCase9 _ 1| ≤ _
        rw [case9_one]; simpa using htol) s hs
  have hx : s'.inputs = x := (hin s').symm.trans h3.iteratives
  subst hx
  have h6 : ∀ i, |broydenCase9 s'.inputs i| ≤ c.params.tolerance := fun i => by
    have := (abs_le_amax (errorsAt c (fun x => ⟨broydenCase9 x, 0⟩) s'.inputs) i).trans h5
    rw [hc.errors, abs_abs] at this
    exact this
  refine ⟨st', s', h1, h2, h4.1, h4.2, ?_, ?_⟩
  · rw [← case9_zero]; exact h6 0
  · exact h6 1

/-- Exact arithmetic, every guess, with the analytic Jacobian; no damping, no limits. -/
theorem C72_analytic (c : Config K 2) (hc : PlainNewton c)
    (hlim : ∀ i v d, (c.iters i).stepLimitation v d = v + d) (htol : 0 ≤ c.params.tolerance)
    (hmax : 2 ≤ c.params.maxIter) (s : AdapterState K 2) (hs : s.right = 0) :
    SolvesCase9 c (fromFunctionAndJacobian broydenCase9 broydenCase9Jac) s := by
  refine run hc hlim htol hmax _ (fun _ => rfl) (fromFunctionAndJacobian_computes broydenCase9 broydenCase9Jac 0)
    (fun x => ⟨0, -20 * x 0, ?_⟩) s hs
  have := Source.analytic (c := c) (D := fun _ => True) (x := x) (pert := 0) _
    (fromFunctionAndJacobian_differentiates broydenCase9 broydenCase9Jac 0)
  rw [hc.jacobian] at this
  have e : broydenCase9Jac x = !![-20 * x 0, 10; -1, 0] := by
    ext i j
    fin_cases i <;> fin_cases j <;> simp [broydenCase9Jac, ex_neg, ex_dec, ex_mul, ex_one, ex_zero]
  rwa [e] at this

/-- The same with finite differences: the error of the differences does not matter, whatever the perturbations. -/
theorem C72_finite_differences (c : Config K 2) (hc : PlainNewton c)
    (hlim : ∀ i v d, (c.iters i).stepLimitation v d = v + d)
    (hpert : ∀ i, ∃ p, (c.iters i).computePerturbation = some p ∧ ∀ v, p v ≠ 0) (htol : 0 ≤ c.params.tolerance)
    (hmax : 2 ≤ c.params.maxIter) (s : AdapterState K 2) (hs : s.right = 0) :
    SolvesCase9 c (fromFunction broydenCase9) s := by
  have hsome : ∀ i, (c.iters i).computePerturbation.isSome := fun i => by
    obtain ⟨p, h1, -⟩ := hpert i
    rw [h1]; rfl
  have hne : ∀ i v, (c.iters i).computePerturbation.get (hsome i) v ≠ 0 := fun i v => by
    obtain ⟨p, h1, h2⟩ := hpert i
    rw [congrFun (Option.get_of_eq_some (hsome i) h1) v]
    exact h2 v
  refine run hc hlim htol hmax _ (fun _ => rfl) (fromFunction_computes broydenCase9 0)
    (fun x => ⟨fun i => (c.iters i).computePerturbation.get (hsome i) (x i), ?_⟩) s hs
  set pert : Vec K 2 := fun i => (c.iters i).computePerturbation.get (hsome i) (x i) with hp
  refine ⟨-10 * (2 * x 0 + pert 0), ?_⟩
  have e : differencesAt c (fun x => ⟨broydenCase9 x, 0⟩) pert x = !![-10 * (2 * x 0 + pert 0), 10; -1, 0] := by
    have h0 : pert 0 ≠ 0 := hne 0 (x 0)
    have h1 : pert 1 ≠ 0 := hne 1 (x 1)
    have m0 : moved x 0 (pert 0) = ![x 0 + pert 0, x 1] := by
      rw [moved_eq]; funext i; fin_cases i <;> simp
    have m1 : moved x 1 (pert 1) = ![x 0, x 1 + pert 1] := by
      rw [moved_eq]; funext i; fin_cases i <;> simp
    ext i j
    unfold differencesAt
    rw [ex_div, ex_sub, hc.update, hc.update]
    fin_cases i <;> fin_cases j
    · change (broydenCase9 (moved x 0 (pert 0)) 0 - broydenCase9 x 0) / pert 0 = -10 * (2 * x 0 + pert 0)
      rw [m0, case9_zero, case9_zero, div_eq_iff h0]
      simp; ring
    · change (broydenCase9 (moved x 1 (pert 1)) 0 - broydenCase9 x 0) / pert 1 = 10
      rw [m1, case9_zero, case9_zero, div_eq_iff h1]
      simp; ring
    · change (broydenCase9 (moved x 0 (pert 0)) 1 - broydenCase9 x 1) / pert 0 = -1
      rw [m0, case9_one, case9_one, div_eq_iff h0]
      simp
    · change (broydenCase9 (moved x 1 (pert 1)) 1 - broydenCase9 x 1) / pert 1 = 0
      rw [m1, case9_one, case9_one, div_eq_iff h1]
      simp
  have := Source.fd (c := c) (D := fun _ => True) (x := x) (pert := pert) (fromFunction_underived broydenCase9 0)
    (by unfold computePerturbations; rw [dif_pos hsome]) (fun i => hne i (x i)) fun _ => trivial
  rwa [e] at this

end

namespace Demo

/-- No limits; a perturbation that is never zero. -/
def unlimited (n : Nat) (guess : Vec ℚ n) (tol : ℚ) : Config ℚ n where
  params := { problemSize := n, tolerance := tol, maxIter := 50, method := .NewtonRaphson, damping := false }
  guess := guess
  iters := fun _ => { stepLimitation := fun v d => v + d, computePerturbation := some fun v => 1 / 100 + |v| / 100,
                      withFiniteDiff := true }
  res := { stop := fun _ => .Abs, upd := fun _ => .Abs }
  la := exactLinAlg ℚ n

/-- From the documented starting point with tolerance zero: `(1, 1)` exactly, after two iterations, with finite
differences of large step. -/
example : ∃ st' s', solve (unlimited 2 initCase9 0) (fromFunction broydenCase9) .new ⟨0, 0, 0⟩ = .ok (st', s', .ok ()) ∧
    st'.iter ≤ 2 ∧ s'.inputs = ![1, 1] := by
  obtain ⟨st', s', h1, h2, h3, h4, h5, h6⟩ := C72_finite_differences (unlimited 2 initCase9 0)
    ⟨exactLinAlg_isExact ℚ 2, rfl, rfl, fun _ => rfl, fun _ => rfl⟩ (fun _ _ _ => rfl)
    (fun i => ⟨_, rfl, fun v => by have := abs_nonneg v; intro h; linarith⟩) (le_refl _) (by decide) ⟨0, 0, 0⟩ rfl
  refine ⟨st', s', h1, h2, ?_⟩
  have h6 : |1 - s'.inputs 0| ≤ 0 := h6
  have h5 : |10 * (s'.inputs 1 - s'.inputs 0 ^ 2)| ≤ 0 := h5
  have e0 : s'.inputs 0 = 1 := by
    have := abs_eq_zero.1 (le_antisymm h6 (abs_nonneg _)); linarith
  have e1 : s'.inputs 1 = 1 := by
    have := abs_eq_zero.1 (le_antisymm h5 (abs_nonneg _)); rw [e0] at this; linarith
  funext i
  fin_cases i
  · exact e0
  · exact e1

end Demo
end Nrf
