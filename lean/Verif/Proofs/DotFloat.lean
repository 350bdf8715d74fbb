import Verif.Proofs.SqrtFloat
import Mathlib.Algebra.BigOperators.Fin
import Mathlib.Algebra.Order.BigOperators.Group.Finset

/-!
# The rounding errors of nalgebra's sums of products in binary64
-/

set_option linter.unusedSectionVars false

namespace Nrf
open Fl

/-- One addition of a product. -/
theorem dot_step {u τ acc s t p T A B k : ℚ} (hu : 0 < u) (hτ : 0 ≤ τ) (hk : 0 ≤ k) (hku : (3 * k + 3) * u ≤ 1) (hA : |s| ≤ A)
    (hacc : |acc - s| ≤ 3 * k * u * A + 2 * k * τ) (ht : |t - p| ≤ |p| * u + τ) (hB : B = A + |p|)
    (hT : |T - (t + acc)| ≤ |t + acc| * u) :
    |T - (s + p)| ≤ 3 * (k + 1) * u * B + 2 * (k + 1) * τ ∧ |s + p| ≤ B := by
  have hA0 : 0 ≤ A := (_root_.abs_nonneg _).trans hA
  have hp := _root_.abs_nonneg p
  have hsp : |s + p| ≤ B := (abs_add_le _ _).trans (by linarith)
  refine ⟨?_, hsp⟩
  have e1 : T - (s + p) = (T - (t + acc)) + ((acc - s) + (t - p)) := by ring
  have e2 : t + acc = ((acc - s) + (t - p)) + (s + p) := by ring
  have h1 : |(acc - s) + (t - p)| ≤ 3 * k * u * A + 2 * k * τ + (|p| * u + τ) :=
    (abs_add_le _ _).trans (add_le_add hacc ht)
  have h2 : |t + acc| ≤ 3 * k * u * A + 2 * k * τ + (|p| * u + τ) + B := by
    rw [e2]
    exact (abs_add_le _ _).trans (add_le_add h1 hsp)
  rw [e1]
  refine (abs_add_le _ _).trans ?_
  have h3 := mul_le_mul_of_nonneg_right h2 hu.le
  have hAB : A ≤ B := by linarith
  have hB0 : 0 ≤ B := hA0.trans hAB
  have h4 : 3 * k * u * A ≤ 3 * k * u * B := mul_le_mul_of_nonneg_left hAB (by positivity)
  have h5 : |p| * u ≤ B * u := mul_le_mul_of_nonneg_right (by linarith) hu.le
  set W := 3 * k * u * B + 2 * k * τ + (B * u + τ) with hW
  have h6 : 3 * k * u * A + 2 * k * τ + (|p| * u + τ) ≤ W := by rw [hW]; linarith
  have h7 : W * u ≤ B * u + τ := by
    have h8 := mul_le_mul_of_nonneg_right hku (_root_.mul_nonneg hB0 hu.le)
    have h9 := mul_le_mul_of_nonneg_right hku hτ
    have h10 : 0 ≤ k * u * τ := by positivity
    have h11 : 0 ≤ u * τ := by positivity
    have h12 : 0 ≤ B * u * u := by positivity
    rw [hW]
    nlinarith
  have h13 := mul_le_mul_of_nonneg_right h6 hu.le
  have e3 : 3 * (k + 1) * u * B + 2 * (k + 1) * τ = W + (2 * (B * u) + τ) := by rw [hW]; ring
  rw [e3]
  linarith

private theorem tiny : (3 * (2 : ℚ) ^ 40 + 3) * 2 ^ (-53 : ℤ) ≤ 1 := by norm_num

/-- A rounded product. -/
theorem product_error {a b : F64} (ha : a.IsFinite) (hb : b.IsFinite) (h : |a.val * b.val| ≤ 2 ^ 1000) :
    (Fl.mul a b).IsFinite ∧
      |(Fl.mul a b).val - a.val * b.val| ≤ |a.val * b.val| * 2 ^ (-53 : ℤ) + 2 ^ (-1075 : ℤ) := by
  obtain ⟨f, v⟩ := f64_mul ha hb (h.trans (pow_le_pow_right₀ (by norm_num) (by norm_num)))
  refine ⟨f, ?_⟩
  rw [v]
  rcases Binary64.rnd_error (a.val * b.val) with h | ⟨-, h⟩
  · exact h.trans (le_add_of_nonneg_right (Binary64.two_zpow_pos _).le)
  · exact h.trans (le_add_of_nonneg_left (_root_.mul_nonneg (_root_.abs_nonneg _) (Binary64.two_zpow_pos _).le))

/-- The sum of the exact products, and of their absolute values. -/
def exactSum (l : List (F64 × F64)) : ℚ := (l.map fun p => p.1.val * p.2.val).sum
def absSum (l : List (F64 × F64)) : ℚ := (l.map fun p => |p.1.val * p.2.val|).sum

theorem absSum_nonneg (l : List (F64 × F64)) : 0 ≤ absSum l := by
  unfold absSum
  refine List.sum_nonneg ?_
  intro x hx
  obtain ⟨p, -, rfl⟩ := List.mem_map.1 hx
  exact _root_.abs_nonneg _

theorem fold_error (l : List (F64 × F64)) : ∀ (acc : F64) (s A : ℚ) (k : ℕ), acc.IsFinite →
    |acc.val - s| ≤ 3 * k * 2 ^ (-53 : ℤ) * A + 2 * k * 2 ^ (-1075 : ℤ) → |s| ≤ A →
    (∀ p ∈ l, p.1.IsFinite ∧ p.2.IsFinite) → A + absSum l ≤ 2 ^ 1000 → k + l.length ≤ 2 ^ 40 →
    ((l.map fun p => Fl.mul p.1 p.2).foldl (fun acc t => Fl.add t acc) acc).IsFinite ∧
      |((l.map fun p => Fl.mul p.1 p.2).foldl (fun acc t => Fl.add t acc) acc).val - (s + exactSum l)| ≤
        3 * (k + l.length : ℕ) * 2 ^ (-53 : ℤ) * (A + absSum l) + 2 * (k + l.length : ℕ) * 2 ^ (-1075 : ℤ) := by
  induction l with
  | nil =>
    intro acc s A k hacc he _ _ _ _
    refine ⟨hacc, ?_⟩
    simpa [exactSum, absSum] using he
  | cons p l ih =>
    intro acc s A k hacc he hs hf hA hk
    obtain ⟨hp1, hp2⟩ := hf p (List.mem_cons_self ..)
    have hl0 := absSum_nonneg l
    have hA0 : 0 ≤ A := (_root_.abs_nonneg _).trans hs
    have eA : absSum (p :: l) = |p.1.val * p.2.val| + absSum l := by simp [absSum]
    have eS : exactSum (p :: l) = p.1.val * p.2.val + exactSum l := by simp [exactSum]
    rw [eA] at hA
    have hpb := _root_.abs_nonneg (p.1.val * p.2.val)
    obtain ⟨ft, et⟩ := product_error hp1 hp2 (by linarith)
    have hkq : (k : ℚ) ≤ 2 ^ 40 := by
      have : k ≤ 2 ^ 40 := by omega
      exact_mod_cast this
    have hk0 : (0 : ℚ) ≤ k := Nat.cast_nonneg k
    have hu : (0 : ℚ) < 2 ^ (-53 : ℤ) := Binary64.two_zpow_pos _
    have hτ : (0 : ℚ) ≤ 2 ^ (-1075 : ℤ) := (Binary64.two_zpow_pos _).le
    have hτ1 : (2 : ℚ) ^ (-1075 : ℤ) ≤ 1 := by
      refine (zpow_le_zpow_right₀ (by norm_num) (by norm_num : (-1075 : ℤ) ≤ 0)).trans ?_
      rw [zpow_zero]
    have hku : (3 * (k : ℚ) + 3) * 2 ^ (-53 : ℤ) ≤ 1 :=
      (mul_le_mul_of_nonneg_right (by linarith) hu.le).trans tiny
    -- the addition does not overflow
    have hsum : |(Fl.mul p.1 p.2).val + acc.val| ≤ 2 ^ 1023 := by
      have h1 : (Fl.mul p.1 p.2).val + acc.val =
          ((acc.val - s) + ((Fl.mul p.1 p.2).val - p.1.val * p.2.val)) + (s + p.1.val * p.2.val) := by ring
      rw [h1]
      refine (abs_add_le _ _).trans ?_
      have h2 := (abs_add_le (acc.val - s) ((Fl.mul p.1 p.2).val - p.1.val * p.2.val)).trans (add_le_add he et)
      have h3 := abs_add_le s (p.1.val * p.2.val)
      have h4 : 3 * (k : ℚ) * 2 ^ (-53 : ℤ) * A ≤ A := by
        have : 3 * (k : ℚ) * 2 ^ (-53 : ℤ) ≤ 1 := le_trans (mul_le_mul_of_nonneg_right (by linarith) hu.le) hku
        calc 3 * (k : ℚ) * 2 ^ (-53 : ℤ) * A ≤ 1 * A := mul_le_mul_of_nonneg_right this hA0
          _ = A := _root_.one_mul A
      have h5 : |p.1.val * p.2.val| * 2 ^ (-53 : ℤ) ≤ |p.1.val * p.2.val| := by
        have : |p.1.val * p.2.val| * 2 ^ (-53 : ℤ) ≤ |p.1.val * p.2.val| * 1 :=
          mul_le_mul_of_nonneg_left (by norm_num) hpb
        rwa [_root_.mul_one] at this
      have h6 : 2 * (k : ℚ) * 2 ^ (-1075 : ℤ) ≤ 2 ^ 41 := by
        have h7 : 2 * (k : ℚ) * 2 ^ (-1075 : ℤ) ≤ 2 * (k : ℚ) * 1 := mul_le_mul_of_nonneg_left hτ1 (by linarith)
        have h8 : (2 : ℚ) ^ 41 = 2 * 2 ^ 40 := by norm_num
        rw [h8]
        linarith
      have h9 : (2 : ℚ) ^ 41 ≤ 2 ^ 1000 := pow_le_pow_right₀ (by norm_num) (by norm_num)
      have h10 : (1 : ℚ) ≤ 2 ^ 1000 := one_le_pow₀ (by norm_num)
      have h11 : (8 : ℚ) * 2 ^ 1000 ≤ 2 ^ 1023 := by
        have : (8 : ℚ) * 2 ^ 1000 = 2 ^ 1003 := by rw [pow_add 2 1000 3]; ring
        rw [this]
        exact pow_le_pow_right₀ (by norm_num) (by norm_num)
      refine le_trans ?_ h11
      generalize (2 : ℚ) ^ 1000 = P at *
      generalize (2 : ℚ) ^ (-1075 : ℤ) = τ at *
      generalize (2 : ℚ) ^ (-53 : ℤ) = u at *
      clear h11
      linarith
    obtain ⟨fn, vn⟩ := f64_add ft hacc hsum
    have en := Binary64.rnd_add_error (Fl.val_fixed (Fl.mul p.1 p.2)) (Fl.val_fixed acc)
    change (Fl.add (Fl.mul p.1 p.2) acc).val = Binary64.rnd ((Fl.mul p.1 p.2).val + acc.val) at vn
    rw [← vn] at en
    obtain ⟨h1, h2⟩ := dot_step (B := A + |p.1.val * p.2.val|) hu hτ hk0 hku hs he et rfl en
    obtain ⟨h3, h4⟩ := ih (Fl.add (Fl.mul p.1 p.2) acc) (s + p.1.val * p.2.val) (A + |p.1.val * p.2.val|) (k + 1) fn
      (by push_cast; exact h1) h2 (fun q hq => hf q (List.mem_cons_of_mem _ hq)) (by linarith)
      (by rw [List.length_cons] at hk; omega)
    refine ⟨h3, ?_⟩
    rw [eA, eS, List.length_cons, show k + (l.length + 1) = k + 1 + l.length by omega, ← _root_.add_assoc s, ← _root_.add_assoc A]
    exact h4

/-- The sums of products of `gemv` in binary64. -/
theorem gemvDot_error {n : Nat} (hn : n ≤ 2 ^ 40) (a b : Vec F64 n) (ha : ∀ i, (a i).IsFinite) (hb : ∀ i, (b i).IsFinite)
    (h : ∑ i, |(a i).val * (b i).val| ≤ 2 ^ 1000) :
    (gemvDot a b).IsFinite ∧ |(gemvDot a b).val - ∑ i, (a i).val * (b i).val| ≤
      3 * n * 2 ^ (-53 : ℤ) * ∑ i, |(a i).val * (b i).val| + 2 * n * 2 ^ (-1075 : ℤ) := by
  have e1 : (List.ofFn fun j => a j *ᶠ b j) = (List.ofFn fun j => (a j, b j)).map fun p => Fl.mul p.1 p.2 := by
    rw [List.map_ofFn]; rfl
  have e2 : ∑ i, |(a i).val * (b i).val| = absSum (List.ofFn fun j => (a j, b j)) := by
    unfold absSum
    rw [List.map_ofFn, List.sum_ofFn]; rfl
  have e3 : ∑ i, (a i).val * (b i).val = exactSum (List.ofFn fun j => (a j, b j)) := by
    unfold exactSum
    rw [List.map_ofFn, List.sum_ofFn]; rfl
  have e4 : (List.ofFn fun j => (a j, b j)).length = n := List.length_ofFn
  have hf : ∀ p ∈ List.ofFn fun j => (a j, b j), p.1.IsFinite ∧ p.2.IsFinite := by
    intro p hp
    obtain ⟨j, rfl⟩ := (List.mem_ofFn ..).1 hp
    exact ⟨ha j, hb j⟩
  unfold gemvDot
  rw [e1, e2, e3]
  rw [e2] at h
  generalize List.ofFn (fun j => (a j, b j)) = l at *
  cases l with
  | nil =>
    cases e4
    refine ⟨trivial, ?_⟩
    simp [exactSum, absSum, Scalar.zero, Fl.val]
  | cons p l =>
    obtain ⟨hp1, hp2⟩ := hf p (List.mem_cons_self ..)
    have hl0 := absSum_nonneg l
    have eA : absSum (p :: l) = |p.1.val * p.2.val| + absSum l := by simp [absSum]
    have eS : exactSum (p :: l) = p.1.val * p.2.val + exactSum l := by simp [exactSum]
    rw [eA] at h
    obtain ⟨ft, et⟩ := product_error hp1 hp2 (by linarith)
    have hpb := _root_.abs_nonneg (p.1.val * p.2.val)
    have hu : (0 : ℚ) < 2 ^ (-53 : ℤ) := Binary64.two_zpow_pos _
    have hτ : (0 : ℚ) ≤ 2 ^ (-1075 : ℤ) := (Binary64.two_zpow_pos _).le
    have key := fold_error l (Fl.mul p.1 p.2) (p.1.val * p.2.val) |p.1.val * p.2.val| 1 ft (by
      refine et.trans ?_
      push_cast
      have := _root_.mul_nonneg hu.le hpb
      generalize (2 : ℚ) ^ (-1075 : ℤ) = τ at *
      generalize (2 : ℚ) ^ (-53 : ℤ) = u at *
      linarith) le_rfl (fun q hq => hf q (List.mem_cons_of_mem _ hq)) h (by rw [List.length_cons] at e4; omega)
    rw [eA, eS, ← e4, List.length_cons, _root_.add_comm l.length 1]
    exact key

end Nrf
