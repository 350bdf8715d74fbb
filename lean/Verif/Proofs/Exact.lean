import Verif.Spec.Exact
import Mathlib.Tactic.Linarith
import Mathlib.Tactic.Ring
import Mathlib.Tactic.FieldSimp

/-!
# Rewriting the model in exact arithmetic
-/

namespace Nrf
open scoped Exact

section
variable {K : Type} [Field K] [LinearOrder K]

theorem ex_add (a b : K) : Scalar.add a b = a + b := rfl
theorem ex_sub (a b : K) : Scalar.sub a b = a - b := rfl
theorem ex_mul (a b : K) : Scalar.mul a b = a * b := rfl
theorem ex_div (a b : K) : Scalar.div a b = a / b := rfl
theorem ex_neg (a : K) : Scalar.neg a = -a := rfl
theorem ex_abs (a : K) : Scalar.abs a = |a| := rfl
theorem ex_signum (a : K) : Scalar.signum a = if 0 ≤ a then 1 else -1 := rfl
theorem ex_min (a b : K) : Scalar.min a b = min a b := rfl
theorem ex_max (a b : K) : Scalar.max a b = max a b := rfl
theorem ex_lt (a b : K) : (Scalar.lt a b = true) ↔ a < b := by
  change (decide (a < b) = true) ↔ _
  simp
theorem ex_le (a b : K) : (Scalar.le a b = true) ↔ a ≤ b := by
  change (decide (a ≤ b) = true) ↔ _
  simp
theorem ex_lt_false (a b : K) : (Scalar.lt a b = false) ↔ b ≤ a := by
  change (decide (a < b) = false) ↔ _
  simp
theorem ex_le_false (a b : K) : (Scalar.le a b = false) ↔ b < a := by
  change (decide (a ≤ b) = false) ↔ _
  simp
theorem ex_zero : (Scalar.zero : K) = 0 := rfl
theorem ex_one : (Scalar.one : K) = 1 := rfl
theorem ex_two : (Scalar.two : K) = 2 := rfl
theorem ex_dec (m e : Nat) : (Scalar.dec m e : K) = (m : K) / 10 ^ e := rfl

theorem normalization_exact (x y : K) (meth : NormalizationMethod) :
    normalization x y meth = Spec.residual meth x y := by
  cases meth <;> rfl

end

section
variable {K : Type} [Field K] [LinearOrder K] [IsStrictOrderedRing K]

theorem foldl_simdMax_le_iff (l : List K) : ∀ (a t : K),
    l.foldl (fun a b => simdMax a (Scalar.abs b)) a ≤ t ↔ a ≤ t ∧ ∀ b ∈ l, |b| ≤ t := by
  induction l with
  | nil => intro a t; simp
  | cons b l ih =>
    intro a t
    have hm : simdMax a (Scalar.abs b) ≤ t ↔ a ≤ t ∧ |b| ≤ t := by
      unfold simdMax
      by_cases h : Scalar.le (Scalar.abs b) a = true
      · rw [if_pos h]
        have h : |b| ≤ a := (ex_le _ _).1 h
        exact ⟨fun h' => ⟨h', h.trans h'⟩, fun h' => h'.1⟩
      · rw [if_neg h]
        have h : a < |b| := (ex_le_false _ _).1 (Bool.eq_false_iff.2 h)
        exact ⟨fun h' => ⟨(le_of_lt h).trans h', h'⟩, fun h' => h'.2⟩
    simp only [List.foldl_cons, List.mem_cons, forall_eq_or_imp]
    rw [ih, hm]
    tauto

/-- `amax` is below `t` exactly when every component is (for `0 ≤ t`). -/
theorem amax_le_iff {n : Nat} (v : Vec K n) {t : K} (ht : 0 ≤ t) :
    amax v ≤ t ↔ ∀ i, |v i| ≤ t := by
  unfold amax
  split
  · rename_i h
    have hn : n = 0 := by simpa using congrArg List.length h
    subst hn
    change |(0 : K)| ≤ t ↔ _
    simpa using ht
  · rename_i e es h
    have hmem : ∀ x, x ∈ e :: es ↔ ∃ i, v i = x := by
      intro x; rw [← h]; simp [List.mem_ofFn, eq_comm]
    rw [foldl_simdMax_le_iff]
    constructor
    · rintro ⟨h1, h2⟩ i
      rcases List.mem_cons.1 ((hmem (v i)).2 ⟨i, rfl⟩) with h' | h'
      · rw [h']; exact h1
      · exact h2 _ h'
    · intro h'
      refine ⟨?_, ?_⟩
      · obtain ⟨i, hi⟩ := (hmem e).1 (by simp)
        have := h' i; rw [hi] at this; exact this
      · intro b hb
        obtain ⟨i, hi⟩ := (hmem b).1 (by simp [hb])
        have := h' i; rw [hi] at this; exact this

theorem abs_le_amax {n : Nat} (v : Vec K n) (i : Fin n) : |v i| ≤ amax v := by
  have h0 : 0 ≤ amax v := by
    unfold amax
    split
    · change (0 : K) ≤ |0|; simp
    · rename_i e es h
      have := (foldl_simdMax_le_iff es (Scalar.abs e) _).1 (le_refl _)
      exact (abs_nonneg e).trans this.1
  exact (amax_le_iff v h0).1 (le_refl _) i

theorem amax_nonneg {n : Nat} (v : Vec K n) : 0 ≤ amax v := by
  unfold amax
  split
  · change (0 : K) ≤ |0|; simp
  · rename_i e es h
    have := (foldl_simdMax_le_iff es (Scalar.abs e) _).1 (le_refl _)
    exact (abs_nonneg e).trans this.1

theorem evaluateStopping_exact {n : Nat} (r : ResConf n) (v : ResidualsValues K n) (i : Fin n) :
    r.evaluateStopping v i = |Spec.residual (r.stop i) (v.left i) (v.right i)| := by
  change |normalization (v.left i) (v.right i) (r.stop i)| = _
  rw [normalization_exact]

theorem evaluateUpdate_exact {n : Nat} (r : ResConf n) (v : ResidualsValues K n) (i : Fin n) :
    r.evaluateUpdate v i = Spec.residual (r.upd i) (v.left i) (v.right i) :=
  normalization_exact _ _ _

/-- The stopping test in mathematical terms. -/
theorem stopping_iff {n : Nat} (r : ResConf n) (v : ResidualsValues K n) {t : K} (ht : 0 ≤ t) :
    Scalar.lt t (amax (r.evaluateStopping v)) = false ↔
      ∀ i, |Spec.residual (r.stop i) (v.left i) (v.right i)| ≤ t := by
  rw [ex_lt_false, amax_le_iff _ ht]
  simp only [evaluateStopping_exact, abs_abs]

theorem stopping_le {n : Nat} (r : ResConf n) (v : ResidualsValues K n) {t : K}
    (h : Scalar.lt t (amax (r.evaluateStopping v)) = false) (i : Fin n) :
    |Spec.residual (r.stop i) (v.left i) (v.right i)| ≤ t :=
  (stopping_iff r v ((amax_nonneg _).trans ((ex_lt_false _ _).1 h))).1 h i

end
end Nrf
