import Verif.Model.TestCases
import Verif.Proofs.Exact
import Verif.Props.C28
import Mathlib.Analysis.Calculus.FDeriv.Mul
import Mathlib.Analysis.Calculus.FDeriv.Pow
import Mathlib.Tactic.FinCases
import Mathlib.Tactic.Ring
import Mathlib.LinearAlgebra.Matrix.Block

set_option linter.unusedSectionVars false

namespace Nrf
open Spec TestCases
open scoped Exact
open Matrix

section
variable {K : Type} [Field K] [LinearOrder K] [IsStrictOrderedRing K] {k : Nat}

/-- An entry of a vector, zero past the end. -/
def entry {n : Nat} (x : Vec K n) (i : Nat) : K := if h : i < n then x ⟨i, h⟩ else 0

theorem entry_of_lt {n : Nat} (x : Vec K n) {i : Nat} (h : i < n) : entry x i = x ⟨i, h⟩ := dif_pos h
theorem entry_of_ge {n : Nat} (x : Vec K n) {i : Nat} (h : n ≤ i) : entry x i = 0 := dif_neg (by omega)

/-- Equation `i` before summation. -/
def link (alpha beta : K) (x : Vec K (k + 2)) (i : Nat) : K :=
  2 * entry x (i + 1) - (3 + alpha * entry x i) * entry x i - beta

theorem broydenAt_zero (alpha beta : K) (x : Vec K (k + 2)) (h : 0 < k + 2) :
    broydenAt alpha beta x 0 h = link alpha beta x 0 := by
  unfold broydenAt link
  rw [entry_of_lt x (show 0 < k + 2 by omega), entry_of_lt x (show 0 + 1 < k + 2 by omega)]
  change -((3 : ℕ) / 10 ^ 0 + alpha * x 0) * x 0 + 2 * x 1 - beta = _
  change _ = 2 * x 1 - (3 + alpha * x 0) * x 0 - beta
  simp
  ring

theorem broydenAt_succ (alpha beta : K) (x : Vec K (k + 2)) (i : Nat) (h : i + 1 < k + 2) :
    broydenAt alpha beta x (i + 1) h = broydenAt alpha beta x i (by omega) + link alpha beta x (i + 1) := by
  rw [broydenAt]
  unfold link
  rw [entry_of_lt x h]
  split
  · rename_i h'
    rw [entry_of_lt x (show i + 1 + 1 < k + 2 by omega)]
    change broydenAt alpha beta x i _ - ((3 : ℕ) / 10 ^ 0 + alpha * x ⟨i + 1, h⟩) * x ⟨i + 1, h⟩ + 2 * x ⟨i + 2, _⟩ - beta = _
    simp
    ring
  · rename_i h'
    rw [entry_of_ge x (show k + 2 ≤ i + 1 + 1 by omega)]
    change broydenAt alpha beta x i _ - ((3 : ℕ) / 10 ^ 0 + alpha * x ⟨i + 1, h⟩) * x ⟨i + 1, h⟩ - beta = _
    simp
    ring

/-- Row `i` of the Jacobian before summation. -/
def linkJac (alpha : K) (x : Vec K (k + 2)) (i : Nat) : Vec K (k + 2) := fun j =>
  if j.val = i then -3 - 2 * alpha * entry x i else if j.val = i + 1 then 2 else 0

theorem broydenJacAt_zero (alpha : K) (x : Vec K (k + 2)) (h : 0 < k + 2) :
    broydenJacAt alpha x 0 h = linkJac alpha x 0 := by
  funext j
  unfold broydenJacAt linkJac
  rw [entry_of_lt x (show 0 < k + 2 by omega)]
  change (if j.val = 0 then -((3 : ℕ) / 10 ^ 0 : K) - 2 * alpha * x 0 else if j.val = 1 then 2 else 0) =
    if j.val = 0 then -3 - 2 * alpha * x 0 else if j.val = 0 + 1 then 2 else 0
  simp

theorem broydenJacAt_succ (alpha : K) (x : Vec K (k + 2)) (i : Nat) (h : i + 1 < k + 2) :
    broydenJacAt alpha x (i + 1) h = linkJac alpha x (i + 1) + broydenJacAt alpha x i (by omega) := by
  funext j
  rw [broydenJacAt]
  unfold linkJac
  rw [entry_of_lt x h]
  change (if j.val = i + 1 then -((3 : ℕ) / 10 ^ 0 : K) - 2 * alpha * x ⟨i + 1, h⟩ else if j.val = i + 2 then 2 else 0) +
    broydenJacAt alpha x i _ j =
    (if j.val = i + 1 then -3 - 2 * alpha * x ⟨i + 1, h⟩ else if j.val = i + 1 + 1 then 2 else 0) + broydenJacAt alpha x i _ j
  simp

/-- A row of the Jacobian before summation, applied to a vector. -/
theorem linkJac_dot (alpha : K) (x v : Vec K (k + 2)) (i : Nat) (hi : i < k + 2) :
    ∑ j, linkJac alpha x i j * v j = (-3 - 2 * alpha * entry x i) * entry v i + 2 * entry v (i + 1) := by
  have h1 : ∀ j : Fin (k + 2), linkJac alpha x i j * v j =
      (if j = ⟨i, hi⟩ then (-3 - 2 * alpha * entry x i) * v j else 0) + (if j.val = i + 1 then 2 * v j else 0) := by
    intro j
    unfold linkJac
    by_cases h : j = ⟨i, hi⟩
    · simp [h]
    · have h' : j.val ≠ i := fun e => h (Fin.ext e)
      rw [if_neg h', if_neg h, zero_add]
      split <;> simp
  rw [Finset.sum_congr rfl fun j _ => h1 j, Finset.sum_add_distrib, Finset.sum_ite_eq' Finset.univ (⟨i, hi⟩ : Fin (k + 2)),
    if_pos (Finset.mem_univ _), entry_of_lt v hi]
  congr 1
  by_cases h : i + 1 < k + 2
  · rw [entry_of_lt v h, Finset.sum_eq_single (⟨i + 1, h⟩ : Fin (k + 2))]
    · simp
    · intro j _ hj
      exact if_neg fun e => hj (Fin.ext e)
    · simp
  · rw [entry_of_ge v (by omega), mul_zero]
    exact Finset.sum_eq_zero fun j _ => if_neg fun e => h (by have := j.2; omega)

theorem broyden_eq_zero (alpha beta : K) (x : Vec K (k + 2)) :
    broyden alpha beta x = 0 ↔ ∀ i < k + 2, link alpha beta x i = 0 := by
  constructor
  · intro h i hi
    have h' : ∀ i (hi : i < k + 2), broydenAt alpha beta x i hi = 0 := fun i hi => congrFun h ⟨i, hi⟩
    cases i with
    | zero => rw [← broydenAt_zero alpha beta x hi, h']
    | succ i =>
      have := broydenAt_succ alpha beta x i hi
      rw [h', h', zero_add] at this
      exact this.symm
  · intro h
    have h' : ∀ i (hi : i < k + 2), broydenAt alpha beta x i hi = 0 := by
      intro i
      induction i with
      | zero => intro hi; rw [broydenAt_zero, h 0 hi]
      | succ i ih => intro hi; rw [broydenAt_succ, ih, h _ hi, zero_add]
    exact funext fun i => h' i i.2

/-- The matrix of the summation. -/
def sums (n : Nat) : Mat K n := Matrix.of fun i j => if j ≤ i then 1 else 0

theorem sums_det (n : Nat) : (sums n : Mat K n).det = 1 := by
  rw [Matrix.det_of_lowerTriangular]
  · simp [sums]
  · intro i j h
    have : i < j := h
    simp [sums, not_le.2 this]

theorem broydenJac_eq (alpha : K) (x : Vec K (k + 2)) :
    broydenJac alpha x = sums (k + 2) * Matrix.of fun i : Fin (k + 2) => linkJac alpha x i := by
  have key : ∀ i (hi : i < k + 2) j, broydenJacAt alpha x i hi j =
      ∑ l : Fin (k + 2), (if l.val ≤ i then 1 else 0) * linkJac alpha x l j := by
    intro i
    induction i with
    | zero =>
      intro hi j
      rw [broydenJacAt_zero, Finset.sum_eq_single (0 : Fin (k + 2))]
      · simp
      · intro l _ hl
        rw [if_neg (by have : l.val ≠ 0 := fun e => hl (Fin.ext e); omega), zero_mul]
      · simp
    | succ i ih =>
      intro hi j
      rw [broydenJacAt_succ, Pi.add_apply, ih]
      have h1 : ∀ l : Fin (k + 2), (if l.val ≤ i + 1 then (1 : K) else 0) * linkJac alpha x l j =
          (if l = ⟨i + 1, hi⟩ then linkJac alpha x l j else 0) + (if l.val ≤ i then 1 else 0) * linkJac alpha x l j := by
        intro l
        by_cases h : l = ⟨i + 1, hi⟩
        · simp [h]
        · have h' : l.val ≠ i + 1 := fun e => h (Fin.ext e)
          rw [if_neg h, zero_add]
          congr 1
          by_cases h2 : l.val ≤ i
          · rw [if_pos h2, if_pos (by omega)]
          · rw [if_neg h2, if_neg (by omega)]
      rw [Finset.sum_congr rfl fun l _ => h1 l, Finset.sum_add_distrib, Finset.sum_ite_eq', if_pos (Finset.mem_univ _)]
  ext i j
  rw [Matrix.mul_apply]
  exact key i i.2 j

/-- The determinant of the Jacobian of the cases 5 to 8. -/
theorem broydenJac_det (alpha : K) (x : Vec K (k + 2)) :
    (broydenJac alpha x).det = ∏ i, (-3 - 2 * alpha * x i) := by
  rw [broydenJac_eq, Matrix.det_mul, sums_det, one_mul, Matrix.det_of_upperTriangular]
  · refine Finset.prod_congr rfl fun i _ => ?_
    simp only [Matrix.of_apply, linkJac, if_true, entry_of_lt x i.2]
  · intro i j h
    have h : j.val < i.val := h
    simp only [Matrix.of_apply, linkJac]
    rw [if_neg (by omega), if_neg (by omega)]

end

theorem entry_hasFDerivAt {n : Nat} (x : Vec ℝ n) (i : Nat) :
    ∃ L : Vec ℝ n →L[ℝ] ℝ, (∀ v, L v = entry v i) ∧ HasFDerivAt (fun y : Vec ℝ n => entry y i) L x := by
  by_cases h : i < n
  · refine ⟨ContinuousLinearMap.proj (R := ℝ) (φ := fun _ : Fin n => ℝ) ⟨i, h⟩, fun v => (entry_of_lt v h).symm, ?_⟩
    have : (fun y : Vec ℝ n => entry y i) = fun y => y ⟨i, h⟩ := funext fun y => entry_of_lt y h
    rw [this]
    exact (ContinuousLinearMap.proj (R := ℝ) (φ := fun _ : Fin n => ℝ) ⟨i, h⟩).hasFDerivAt
  · refine ⟨0, fun v => (entry_of_ge v (by omega)).symm, ?_⟩
    have : (fun y : Vec ℝ n => entry y i) = fun _ => 0 := funext fun y => entry_of_ge y (by omega)
    rw [this]
    exact hasFDerivAt_const _ _

theorem link_hasFDerivAt {k : Nat} (alpha beta : ℝ) (x : Vec ℝ (k + 2)) (i : Nat) (hi : i < k + 2) :
    ∃ L : Vec ℝ (k + 2) →L[ℝ] ℝ, (∀ v, L v = ∑ j, linkJac alpha x i j * v j) ∧
      HasFDerivAt (fun y => link alpha beta y i) L x := by
  obtain ⟨L0, h0, d0⟩ := entry_hasFDerivAt x i
  obtain ⟨L1, h1, d1⟩ := entry_hasFDerivAt x (i + 1)
  have := ((d1.const_mul 2).sub (((d0.const_mul alpha).const_add 3).mul d0)).sub_const beta
  refine ⟨_, fun v => ?_, this⟩
  rw [linkJac_dot alpha x v i hi]
  simp [h0, h1]
  ring

/-- The Jacobian of the cases 5 to 8 is the derivative. -/
theorem broyden_isJacobian {k : Nat} (alpha beta : ℝ) (x : Vec ℝ (k + 2)) :
    IsJacobian (broyden alpha beta) (broydenJac alpha x) x := by
  have key : ∀ (i : Nat) (hi : i < k + 2), ∃ L : Vec ℝ (k + 2) →L[ℝ] ℝ,
      (∀ v, L v = ∑ j, broydenJacAt alpha x i hi j * v j) ∧ HasFDerivAt (fun y => broydenAt alpha beta y i hi) L x := by
    intro i
    induction i with
    | zero =>
      intro hi
      rw [broydenJacAt_zero]
      simp only [broydenAt_zero]
      exact link_hasFDerivAt alpha beta x 0 hi
    | succ i ih =>
      intro hi
      rw [broydenJacAt_succ]
      simp only [broydenAt_succ]
      obtain ⟨L, h, d⟩ := ih (by omega)
      obtain ⟨L', h', d'⟩ := link_hasFDerivAt alpha beta x (i + 1) hi
      refine ⟨_, fun v => ?_, d.add d'⟩
      simp only [_root_.add_apply, h, h', Pi.add_apply, add_mul, Finset.sum_add_distrib]
      ring
  refine hasFDerivAt_pi'.2 fun i => ?_
  obtain ⟨L, h, d⟩ := key i i.2
  refine d.congr_fderiv (ContinuousLinearMap.ext fun v => ?_)
  rw [h]
  rfl

end Nrf
