import Verif.Proofs.TestLoops
import Verif.Proofs.Exact
import Verif.Model.TestCases
import Mathlib.Algebra.BigOperators.Group.Finset.Basic
import Mathlib.Tactic.Ring

/-!
# C107: The test functions as loops
-/

namespace Nrf

open Dyn (DVec DMat DynPanic)

section
variable {F : Type} [Scalar F]

/-- The loops of the cases 5 to 8 fill every entry with the value of the recursion, in any arithmetic. -/
theorem C107_values {k : Nat} (alpha beta : F) (x : Vec F (k + 2)) :
    TestLoops.broyden alpha beta ⟨k + 2, x⟩ = .ok ⟨k + 2, TestCases.broyden alpha beta x⟩ :=
  TestLoops.broyden_ok alpha beta x

/-- The loops of the Jacobian of the cases 5 to 8, which add the row above to every row. -/
theorem C107_jacobian {k : Nat} (alpha : F) (x : Vec F (k + 2)) :
    TestLoops.broydenJac alpha ⟨k + 2, x⟩ = .ok ⟨k + 2, TestCases.broydenJac alpha x⟩ :=
  TestLoops.broydenJac_ok alpha x

/-- The functions of the cases 5 to 8 and their Jacobians panic with an index exactly below dimension 2. -/
theorem C107_domain (alpha beta : F) (x : DVec F) :
    (x.len < 2 → TestLoops.broyden alpha beta x = .error .index ∧ TestLoops.broydenJac alpha x = .error .index) ∧
    (2 ≤ x.len → (∃ y, TestLoops.broyden alpha beta x = .ok y ∧ y.len = x.len) ∧
      ∃ j, TestLoops.broydenJac alpha x = .ok j ∧ j.len = x.len) := by
  obtain ⟨n, x⟩ := x
  constructor
  · intro (h : n < 2)
    obtain rfl | rfl : n = 0 ∨ n = 1 := by omega
    · exact ⟨rfl, rfl⟩
    · exact ⟨rfl, rfl⟩
  · intro (h : 2 ≤ n)
    obtain ⟨k, rfl⟩ : ∃ k, n = k + 2 := ⟨n - 2, by omega⟩
    exact ⟨⟨_, TestLoops.broyden_ok alpha beta x, rfl⟩, ⟨_, TestLoops.broydenJac_ok alpha x, rfl⟩⟩

/-- Cases 9 and 10: below dimension 2 they panic, above it they ignore the further entries. -/
theorem C107_plane (x : DVec F) :
    (x.len < 2 → TestLoops.broyden9 x = .error .index ∧ TestLoops.broyden10 x = .error .index) ∧
    (∀ h : 2 ≤ x.len, let y : Vec F 2 := ![x.val ⟨0, by omega⟩, x.val ⟨1, by omega⟩]
      TestLoops.broyden9 x = .ok ⟨2, TestCases.broydenCase9 y⟩ ∧
      TestLoops.broyden10 x = .ok ⟨2, TestCases.broydenCase10 y⟩) := by
  obtain ⟨n, x⟩ := x
  constructor
  · intro (h : n < 2)
    obtain rfl | rfl : n = 0 ∨ n = 1 := by omega
    · exact ⟨rfl, rfl⟩
    · exact ⟨rfl, rfl⟩
  · intro (h : 2 ≤ n) y
    constructor
    · unfold TestLoops.broyden9
      rw [TestLoops.get_ok (v := ⟨n, x⟩) (i := 1) (show 1 < n by omega),
        TestLoops.get_ok (v := ⟨n, x⟩) (i := 0) (show 0 < n by omega)]
      change Except.ok _ = _
      congr 1
      refine TestLoops.vec_ext (n := 2) fun i hi => ?_
      obtain rfl | rfl : i = 0 ∨ i = 1 := by omega
      · rfl
      · rfl
    · unfold TestLoops.broyden10
      rw [TestLoops.get_ok (v := ⟨n, x⟩) (i := 1) (show 1 < n by omega),
        TestLoops.get_ok (v := ⟨n, x⟩) (i := 0) (show 0 < n by omega)]
      change Except.ok _ = _
      congr 1
      refine TestLoops.vec_ext (n := 2) fun i hi => ?_
      obtain rfl | rfl : i = 0 ∨ i = 1 := by omega
      · rfl
      · rfl

/-- The polynomials: `square2` is a product of columns and panics unless there is one variable,
`root_with_high_derivative` panics without a variable and ignores further ones. -/
theorem C107_line (x : DVec F) :
    (x.len ≠ 1 → TestLoops.square2 x = .error .shape) ∧
    (∀ h : x.len = 1, TestLoops.square2 x = .ok ⟨1, TestCases.square2 fun _ => x.val ⟨0, by omega⟩⟩) ∧
    (x.len = 0 → TestLoops.highDerivative x = .error .index) ∧
    ∀ h : 1 ≤ x.len, TestLoops.highDerivative x = .ok ⟨1, TestCases.highDerivative fun _ => x.val ⟨0, by omega⟩⟩ := by
  obtain ⟨n, x⟩ := x
  refine ⟨fun h => if_neg h, ?_, ?_, ?_⟩
  · intro (h : n = 1)
    subst h
    change Except.ok _ = _
    congr 1
    refine TestLoops.vec_ext (n := 1) fun i hi => ?_
    obtain rfl : i = 0 := by omega
    rfl
  · intro (h : n = 0)
    subst h
    rfl
  · intro (h : 1 ≤ n)
    unfold TestLoops.highDerivative
    rw [TestLoops.get_ok (v := ⟨n, x⟩) (i := 0) (show 0 < n by omega)]
    change Except.ok _ = _
    congr 1
    refine TestLoops.vec_ext (n := 1) fun i hi => ?_
    obtain rfl : i = 0 := by omega
    rfl

/-- The Jacobians of cases 9 and 10: the first panics without a variable, the second below dimension 2. -/
theorem C107_plane_jacobian (x : DVec F) :
    (x.len = 0 → TestLoops.broyden9Jac x = .error .index) ∧
    (∀ h : 1 ≤ x.len, ∀ y : Vec F 2, y 0 = x.val ⟨0, by omega⟩ →
      TestLoops.broyden9Jac x = .ok ⟨2, TestCases.broydenCase9Jac y⟩) ∧
    (x.len < 2 → TestLoops.broyden10Jac x = .error .index) ∧
    ∀ h : 2 ≤ x.len, ∀ y : Vec F 2, y 1 = x.val ⟨1, by omega⟩ →
      TestLoops.broyden10Jac x = .ok ⟨2, TestCases.broydenCase10Jac y⟩ := by
  obtain ⟨n, x⟩ := x
  refine ⟨?_, ?_, ?_, ?_⟩
  · intro (h : n = 0)
    subst h
    rfl
  · intro (h : 1 ≤ n) y hy
    unfold TestLoops.broyden9Jac
    rw [TestLoops.get_ok (v := ⟨n, x⟩) (i := 0) (show 0 < n by omega), ← hy]
    change Except.ok _ = _
    congr 1
    refine TestLoops.mat_ext (n := 2) fun i hi j hj => ?_
    obtain rfl | rfl : i = 0 ∨ i = 1 := by omega
    all_goals obtain rfl | rfl : j = 0 ∨ j = 1 := by omega
    all_goals rfl
  · intro (h : n < 2)
    obtain rfl | rfl : n = 0 ∨ n = 1 := by omega
    · rfl
    · rfl
  · intro (h : 2 ≤ n) y hy
    unfold TestLoops.broyden10Jac
    rw [TestLoops.get_ok (v := ⟨n, x⟩) (i := 1) (show 1 < n by omega), ← hy]
    change Except.ok _ = _
    congr 1
    refine TestLoops.mat_ext (n := 2) fun i hi j hj => ?_
    obtain rfl | rfl : i = 0 ∨ i = 1 := by omega
    all_goals obtain rfl | rfl : j = 0 ∨ j = 1 := by omega
    all_goals rfl

/-- The derivatives of the polynomials panic without a variable and ignore further ones. -/
theorem C107_line_jacobian (x : DVec F) :
    (x.len = 0 → TestLoops.dsquare x = .error .index ∧ TestLoops.highDerivativeJac x = .error .index) ∧
    ∀ h : 1 ≤ x.len, let y : Vec F 1 := fun _ => x.val ⟨0, by omega⟩
      TestLoops.dsquare x = .ok ⟨1, TestCases.dsquare y⟩ ∧
      TestLoops.highDerivativeJac x = .ok ⟨1, TestCases.highDerivativeJac y⟩ := by
  obtain ⟨n, x⟩ := x
  constructor
  · intro (h : n = 0)
    subst h
    exact ⟨rfl, rfl⟩
  · intro (h : 1 ≤ n) y
    constructor
    · unfold TestLoops.dsquare
      rw [TestLoops.get_ok (v := ⟨n, x⟩) (i := 0) (show 0 < n by omega)]
      change Except.ok _ = _
      congr 1
      refine TestLoops.mat_ext (n := 1) fun i hi j hj => ?_
      obtain rfl : i = 0 := by omega
      obtain rfl : j = 0 := by omega
      rfl
    · unfold TestLoops.highDerivativeJac
      rw [TestLoops.get_ok (v := ⟨n, x⟩) (i := 0) (show 0 < n by omega)]
      change Except.ok _ = _
      congr 1
      refine TestLoops.mat_ext (n := 1) fun i hi j hj => ?_
      obtain rfl : i = 0 := by omega
      obtain rfl : j = 0 := by omega
      rfl

end

section
variable {K : Type} [Field K] [LinearOrder K] [IsStrictOrderedRing K]
open scoped Exact

/-- A vector continued by zeros. -/
def Spec.extend {n : Nat} (x : Vec K n) (j : Nat) : K := if h : j < n then x ⟨j, h⟩ else 0

/-- In exact arithmetic entry `i` is the sum of the first `i + 1` terms `2 x_{j+1} - (3 + α x_j) x_j - β`, with
`x_n = 0`: every equation contains all those before it. -/
theorem C107_formula {k : Nat} (alpha beta : K) (x : Vec K (k + 2)) :
    ∃ y : Vec K (k + 2), TestLoops.broyden alpha beta ⟨k + 2, x⟩ = .ok ⟨k + 2, y⟩ ∧
      ∀ i : Fin (k + 2), y i = ∑ j ∈ Finset.range (i + 1),
        (2 * Spec.extend x (j + 1) - (3 + alpha * Spec.extend x j) * Spec.extend x j - beta) := by
  refine ⟨_, C107_values alpha beta x, ?_⟩
  have key : ∀ i (h : i < k + 2), TestCases.broydenAt alpha beta x i h = ∑ j ∈ Finset.range (i + 1),
      (2 * Spec.extend x (j + 1) - (3 + alpha * Spec.extend x j) * Spec.extend x j - beta) := by
    intro i
    induction i with
    | zero =>
      intro h
      rw [Finset.sum_range_one]
      have e0 : Spec.extend x 0 = x 0 := dif_pos (by omega)
      have e1 : Spec.extend x (0 + 1) = x 1 := dif_pos (by omega)
      rw [e0, e1]
      simp only [TestCases.broydenAt, ex_dec, ex_neg, ex_mul, ex_add, ex_sub, ex_two, Nat.cast_ofNat, pow_zero, div_one]
      ring
    | succ i ih =>
      intro h
      rw [Finset.sum_range_succ, ← ih (by omega)]
      have e0 : Spec.extend x (i + 1) = x ⟨i + 1, h⟩ := dif_pos h
      rw [e0]
      rw [TestCases.broydenAt]
      by_cases h' : i + 1 < k + 1
      · have e1 : Spec.extend x (i + 1 + 1) = x ⟨i + 2, by omega⟩ := dif_pos (by omega)
        rw [dif_pos h', e1]
        simp only [TestCases.bend, ex_dec, ex_neg, ex_mul, ex_add, ex_sub, ex_two, Nat.cast_ofNat, pow_zero, div_one]
        ring
      · have e1 : Spec.extend x (i + 1 + 1) = 0 := dif_neg (by omega)
        rw [dif_neg h', e1]
        simp only [TestCases.bend, ex_dec, ex_neg, ex_mul, ex_add, ex_sub, ex_two, Nat.cast_ofNat, pow_zero, div_one]
        ring
  exact fun i => key i i.2

/-- The hypotheses are met by the documented start of case 5, and one entry of the result. -/
example : (match TestLoops.broyden (-1 / 10 : ℚ) 1 ⟨5, TestCases.broydenInit 5⟩ with
    | .ok y => decide (y.len = 5) && (if h : 4 < y.len then decide (y.val ⟨4, h⟩ = 5 / 2) else false)
    | .error _ => false) = true ∧ 2 ≤ (⟨5, TestCases.broydenInit 5⟩ : DVec ℚ).len := by decide +kernel

/-- One variable is not enough, for the functions of two. -/
example : TestLoops.broyden (1 : ℚ) 1 ⟨1, 0⟩ = .error .index ∧ TestLoops.broyden9 (⟨1, 0⟩ : DVec ℚ) = .error .index ∧
    TestLoops.square2 (⟨2, 0⟩ : DVec ℚ) = .error .shape :=
  ⟨((C107_domain _ _ _).1 (by decide)).1, ((C107_plane _).1 (by decide)).1, (C107_line _).1 (by decide)⟩

end
end Nrf
