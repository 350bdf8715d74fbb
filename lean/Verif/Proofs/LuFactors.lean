import Verif.Proofs.LuFloat

/-!
# The factors computed by the LU factorization in binary64
-/

set_option linter.unusedSectionVars false

namespace Nrf
open Fl

section
variable {n : Nat}

/-- The values of a matrix of doubles. -/
noncomputable def vals (M : Mat F64 n) : Mat ℝ n := fun r k => rv (M r k)

/-! ## The pivot -/

theorem fl_abs_lt {a b : F64} (ha : a.IsFinite) (hb : b.IsFinite) :
    Scalar.lt (Scalar.abs a) (Scalar.abs b) = true ↔ |rv a| < |rv b| := by
  change Fl.ltb (Fl.abs a) (Fl.abs b) = true ↔ _
  rw [fl_ltb_val (abs_finite ha) (abs_finite hb), ← rv_abs, ← rv_abs]
  exact (Rat.cast_lt (K := ℝ)).symm

theorem fl_pivot_fold (f : Fin n → F64) (hf : ∀ r, (f r).IsFinite) (l : List (Fin n)) (p : Fin n) :
    let q := l.foldl (fun p r => if Scalar.lt (Scalar.abs (f p)) (Scalar.abs (f r)) then r else p) p
    (q = p ∨ q ∈ l) ∧ |rv (f p)| ≤ |rv (f q)| ∧ ∀ r ∈ l, |rv (f r)| ≤ |rv (f q)| := by
  induction l generalizing p with
  | nil => exact ⟨.inl rfl, le_refl _, fun r hr => absurd hr (List.not_mem_nil)⟩
  | cons a l ih =>
    intro q
    by_cases h : Scalar.lt (Scalar.abs (f p)) (Scalar.abs (f a)) = true
    · have hq : q = l.foldl (fun p r => if Scalar.lt (Scalar.abs (f p)) (Scalar.abs (f r)) then r else p) a := by
        simp only [q, List.foldl_cons, if_pos h]
      obtain ⟨h1, h2, h3⟩ := ih a
      rw [← hq] at h1 h2 h3
      have hlt := (fl_abs_lt (hf p) (hf a)).1 h
      refine ⟨.inr ?_, hlt.le.trans h2, ?_⟩
      · rcases h1 with h1 | h1
        · rw [h1]; exact List.mem_cons_self
        · exact List.mem_cons_of_mem _ h1
      · intro r hr
        rcases List.mem_cons.1 hr with rfl | hr
        · exact h2
        · exact h3 r hr
    · have hq : q = l.foldl (fun p r => if Scalar.lt (Scalar.abs (f p)) (Scalar.abs (f r)) then r else p) p := by
        simp only [q, List.foldl_cons, if_neg h]
      obtain ⟨h1, h2, h3⟩ := ih p
      rw [← hq] at h1 h2 h3
      have hle : |rv (f a)| ≤ |rv (f p)| := not_lt.1 fun hh => h ((fl_abs_lt (hf p) (hf a)).2 hh)
      refine ⟨?_, h2, ?_⟩
      · rcases h1 with h1 | h1
        · exact .inl h1
        · exact .inr (List.mem_cons_of_mem _ h1)
      · intro r hr
        rcases List.mem_cons.1 hr with rfl | hr
        · exact hle.trans h2
        · exact h3 r hr

theorem fl_le_pivotRow {A : Mat F64 n} (hA : ∀ r k, (A r k).IsFinite) (i : Fin n) : i ≤ pivotRow A i := by
  rcases (fl_pivot_fold (fun r => A r i) (fun r => hA r i) ((List.finRange n).filter (i < ·)) i).1 with h | h
  · exact h.symm.le
  · have := (List.mem_filter.1 h).2
    exact (of_decide_eq_true this).le

theorem fl_abs_le_pivotRow {A : Mat F64 n} (hA : ∀ r k, (A r k).IsFinite) (i r : Fin n) (h : i ≤ r) :
    |rv (A r i)| ≤ |rv (A (pivotRow A i) i)| := by
  rcases eq_or_lt_of_le h with rfl | h
  · exact (fl_pivot_fold (fun r => A r i) (fun r => hA r i) ((List.finRange n).filter (i < ·)) i).2.1
  · exact (fl_pivot_fold (fun r => A r i) (fun r => hA r i) ((List.finRange n).filter (i < ·)) i).2.2 r
      (List.mem_filter.2 ⟨List.mem_finRange r, decide_eq_true h⟩)

/-! ## The invariant -/

/-- The products of the `i` finished columns and rows, plus the rest. -/
noncomputable def partialProduct (i : Nat) (M : Mat F64 n) (r k : Fin n) : ℝ :=
  ∑ j : Fin n, (if j.val < i then lowerPart (vals M) r j * upperPart (vals M) j k else 0) +
    (if i ≤ r.val ∧ i ≤ k.val then rv (M r k) else 0)

/-- After `i` steps on a matrix whose entries are at most `α`. -/
structure LuInv (J : Mat F64 n) (α β : ℝ) (i : Nat) (s : Mat F64 n × (Fin n → Fin n)) : Prop where
  bij : Function.Bijective s.2
  finite : ∀ r k, (s.1 r k).IsFinite
  lower : ∀ r j : Fin n, j.val < i → j < r → |rv (s.1 r j)| ≤ 1 + 3 * ur
  upper : ∀ r k : Fin n, r ≤ k ∨ i ≤ k.val → |rv (s.1 r k)| ≤ 3 ^ i * α
  pivots : ∀ j : Fin n, j.val < i → 1 ≤ 2 * β * |rv (s.1 j j)|
  error : ∀ r k, |rv (J (s.2 r) k) - partialProduct i s.1 r k| ≤ 3 * ur * (3 ^ i * α)

variable {J : Mat F64 n} {α β : ℝ}

theorem luInv_start (hf : ∀ r k, (J r k).IsFinite) (hα : 0 ≤ α) (hJ : ∀ r k, |rv (J r k)| ≤ α) :
    LuInv J α β 0 (J, fun r => r) where
  bij := Function.bijective_id
  finite := hf
  lower := fun _ _ h => absurd h (Nat.not_lt_zero _)
  upper := fun r k _ => by rw [pow_zero, _root_.one_mul]; exact hJ r k
  pivots := fun _ h => absurd h (Nat.not_lt_zero _)
  error := fun r k => by
    have e : partialProduct 0 J r k = rv (J r k) := by simp [partialProduct]
    rw [e, sub_self, abs_zero]
    have := ur_pos
    positivity

theorem luInv_swap {i : Fin n} {s : Mat F64 n × (Fin n → Fin n)} (h : LuInv J α β i s) (p : Fin n) (hp : i ≤ p) :
    LuInv J α β i (swapRows s.1 i p, fun r => s.2 (Equiv.swap i p r)) := by
  have hsw : ∀ r : Fin n, i.val ≤ r.val → i.val ≤ (Equiv.swap i p r).val := by
    intro r hr
    rw [Equiv.swap_apply_def]
    split_ifs
    · exact hp
    · exact le_refl _
    · exact hr
  have hlow : ∀ r : Fin n, r.val < i.val → Equiv.swap i p r = r := by
    intro r hr
    apply Equiv.swap_apply_of_ne_of_ne
    · rintro rfl; exact lt_irrefl _ hr
    · rintro rfl; exact absurd hr (not_lt.2 hp)
  have hprod : ∀ r k, partialProduct i.val (swapRows s.1 i p) r k = partialProduct i.val s.1 (Equiv.swap i p r) k := by
    intro r k
    unfold partialProduct
    congr 1
    · apply Finset.sum_congr rfl
      intro j _
      by_cases hj : j.val < i.val
      · rw [if_pos hj, if_pos hj]
        congr 1
        · unfold lowerPart vals swapRows
          by_cases hr : r.val < i.val
          · simp only [hlow r hr]
          · have h1 := hsw r (not_lt.1 hr)
            have h2 : j < Equiv.swap i p r := Fin.lt_def.2 (lt_of_lt_of_le hj h1)
            have h3 : j < r := Fin.lt_def.2 (lt_of_lt_of_le hj (not_lt.1 hr))
            rw [if_pos h2, if_pos h3]
        · unfold upperPart vals swapRows
          simp only [hlow j hj]
      · rw [if_neg hj, if_neg hj]
    · by_cases hr : r.val < i.val
      · rw [hlow r hr, if_neg (fun h => absurd h.1 (not_le.2 hr)), if_neg (fun h => absurd h.1 (not_le.2 hr))]
      · have h1 := hsw r (not_lt.1 hr)
        simp only [h1, not_lt.1 hr, true_and]
        rfl
  refine ⟨h.bij.comp (Equiv.swap i p).bijective, fun r k => h.finite _ k, ?_, ?_, ?_, ?_⟩
  · intro r j hj hjr
    change |rv (s.1 (Equiv.swap i p r) j)| ≤ _
    refine h.lower _ j hj ?_
    by_cases hr : r.val < i.val
    · rwa [hlow r hr]
    · exact Fin.lt_def.2 (lt_of_lt_of_le hj (hsw r (not_lt.1 hr)))
  · intro r k hk
    change |rv (s.1 (Equiv.swap i p r) k)| ≤ _
    by_cases hik : i.val ≤ k.val
    · exact h.upper _ k (.inr hik)
    · have hrk : r ≤ k := hk.resolve_right hik
      rw [hlow r (lt_of_le_of_lt (Fin.le_def.1 hrk) (not_le.1 hik))]
      exact h.upper r k (.inl hrk)
  · intro j hj
    change 1 ≤ 2 * β * |rv (s.1 (Equiv.swap i p j) j)|
    rw [hlow j hj]
    exact h.pivots j hj
  · intro r k
    rw [hprod]
    exact h.error (Equiv.swap i p r) k

/-- The products after an elimination. -/
theorem partialProduct_gauss (M : Mat F64 n) (i r k : Fin n) :
    partialProduct (i.val + 1) (gaussStep M i) r k = partialProduct i.val M r k +
      (if i < r ∧ i ≤ k then (if k = i then rv (gaussStep M i r i) * rv (M i i) - rv (M r i)
        else rv (gaussStep M i r i) * rv (M i k) + rv (gaussStep M i r k) - rv (M r k)) else 0) := by
  unfold partialProduct
  rw [sum_if_succ (fun j => lowerPart (vals (gaussStep M i)) r j * upperPart (vals (gaussStep M i)) j k) i, add_assoc,
    add_assoc]
  congr 1
  · apply Finset.sum_congr rfl
    intro j _
    by_cases hj : j.val < i.val
    · rw [if_pos hj, if_pos hj]
      have hji : ¬ i < j := fun hh => absurd (Fin.lt_def.1 hh) (by omega)
      have hjn : j ≠ i := fun hh => absurd (congrArg Fin.val hh) (by omega)
      have e1 : gaussStep M i r j = M r j := by
        unfold gaussStep; split_ifs <;> rfl
      have e2 : gaussStep M i j k = M j k := by
        unfold gaussStep; rw [if_neg hji]
      unfold lowerPart upperPart vals
      rw [e1, e2]
    · rw [if_neg hj, if_neg hj]
  · have hii : gaussStep M i i k = M i k := by unfold gaussStep; rw [if_neg (lt_irrefl _)]
    unfold lowerPart upperPart vals
    rw [hii]
    rcases lt_trichotomy r i with hr | rfl | hr
    · have h3 : r.val < i.val := hr
      rw [if_neg (not_lt.2 hr.le), if_neg hr.ne', zero_mul, zero_add, if_neg (by omega), if_neg (by omega),
        if_neg (fun h => absurd h.1 (not_lt.2 hr.le)), add_zero]
    · have h5 : ¬ (r.val + 1 ≤ r.val ∧ r.val + 1 ≤ k.val) := by omega
      have h6 : ¬ (r < r ∧ r ≤ k) := fun h => lt_irrefl _ h.1
      rw [if_neg h5, if_neg h6, if_neg (lt_irrefl _), if_pos rfl, _root_.one_mul, add_zero, add_zero]
      by_cases hk : r ≤ k
      · rw [if_pos hk, if_pos ⟨le_refl _, hk⟩]
      · rw [if_neg hk, if_neg (fun hh => hk hh.2)]
    · have h3 : i.val < r.val := hr
      rw [if_pos hr]
      rcases lt_trichotomy k i with hk | rfl | hk
      · have h4 : k.val < i.val := hk
        rw [if_neg (not_le.2 hk), mul_zero, if_neg (by omega), if_neg (by omega), if_neg (fun h => absurd h.2 (not_le.2 hk))]
      · have h5 : ¬ (k.val + 1 ≤ r.val ∧ k.val + 1 ≤ k.val) := by omega
        have h6 : k.val ≤ r.val ∧ k.val ≤ k.val := ⟨h3.le, le_rfl⟩
        have h7 : k < r ∧ k ≤ k := ⟨hr, le_rfl⟩
        rw [if_neg h5, if_pos h6, if_pos h7, if_pos (le_refl _), if_pos rfl]
        ring
      · have h4 : i.val < k.val := hk
        rw [if_pos hk.le, if_pos (by omega), if_pos (by omega), if_pos ⟨hr, hk.le⟩, if_neg hk.ne']
        ring

theorem luInv_gauss {i : Fin n} {s : Mat F64 n × (Fin n → Fin n)} (h : LuInv J α β i s)
    (hG : 2 ^ (-900 : ℤ) ≤ α) (hG2 : 3 ^ i.val * α ≤ 2 ^ 900) (hβ : 2 * β ≤ 2 ^ 900)
    (hpiv : ∀ r, i ≤ r → |rv (s.1 r i)| ≤ |rv (s.1 i i)|) (hp : 1 ≤ 2 * β * |rv (s.1 i i)|) :
    LuInv J α β (i.val + 1) (gaussStep s.1 i, s.2) := by
  have hu := ur_pos
  have hu1 := ur_small
  have hα : 0 < α := lt_of_lt_of_le (zpow_pos (by norm_num) _) hG
  set G := 3 ^ i.val * α with hGd
  have hG0 : 0 < G := by positivity
  have hGl : 2 ^ (-900 : ℤ) ≤ G := by
    refine hG.trans ?_
    have : 1 * α ≤ 3 ^ i.val * α := mul_le_mul_of_nonneg_right (one_le_pow₀ (by norm_num)) hα.le
    linarith
  have e3 : 3 ^ (i.val + 1) * α = 3 * G := by rw [pow_succ, hGd]; ring
  have hpp : |rv (s.1 i i)| ≤ G := h.upper i i (.inl le_rfl)
  have hpl : 2 ^ (-900 : ℤ) ≤ |rv (s.1 i i)| := by
    have h1 : 2 * β * |rv (s.1 i i)| ≤ 2 ^ 900 * |rv (s.1 i i)| := mul_le_mul_of_nonneg_right hβ (_root_.abs_nonneg _)
    have h2 := hp.trans h1
    have h3 : (0 : ℝ) < 2 ^ (-900 : ℤ) := zpow_pos (by norm_num) _
    have h4 := mul_le_mul_of_nonneg_left h2 h3.le
    have e : (2 : ℝ) ^ (-900 : ℤ) * (2 ^ 900 * |rv (s.1 i i)|) = |rv (s.1 i i)| := by
      rw [← _root_.mul_assoc, ← zpow_natCast, ← zpow_add₀ (by norm_num)]
      norm_num
    rw [e, _root_.mul_one] at h4
    exact h4
  -- the multipliers
  have hmul : ∀ r, i < r → (gaussStep s.1 i r i).IsFinite ∧ |rv (gaussStep s.1 i r i)| ≤ 1 + 3 * ur ∧
      |rv (s.1 r i) - rv (gaussStep s.1 i r i) * rv (s.1 i i)| ≤ 3 * ur * G := by
    intro r hr
    have e : gaussStep s.1 i r i = Fl.mul (s.1 r i) (Fl.div Fl.one (s.1 i i)) := by
      unfold gaussStep; rw [if_pos hr, if_pos rfl]; rfl
    rw [e]
    obtain ⟨h1, h2, h3⟩ := multiplier_step (h.finite i i) (h.finite r i) hpl (hpp.trans hG2) (hpiv r hr.le)
    exact ⟨h1, h2, h3.trans (mul_le_mul_of_nonneg_left hpp (by positivity))⟩
  -- the eliminated entries
  have helim : ∀ r k, i < r → i < k → (gaussStep s.1 i r k).IsFinite ∧
      |rv (gaussStep s.1 i r k) - (rv (s.1 r k) - rv (s.1 i k) * rv (gaussStep s.1 i r i))| ≤ 5 * ur * G ∧
      |rv (gaussStep s.1 i r k)| ≤ 3 * G := by
    intro r k hr hk
    obtain ⟨h1, h2, -⟩ := hmul r hr
    have e : gaussStep s.1 i r k = Fl.add (Fl.mul (Fl.neg (s.1 i k)) (gaussStep s.1 i r i)) (s.1 r k) := by
      unfold gaussStep
      rw [if_pos hr, if_neg hk.ne', if_pos hk, if_pos hr, if_pos rfl]; rfl
    rw [e]
    exact elim_step hGl hG2 (h.finite i k) h1 (h.finite r k) (h.upper i k (.inl hk.le)) h2
      (h.upper r k (.inr (Fin.le_def.1 hk.le)))
  have hsame : ∀ r k, (¬ i < r ∨ k < i) → gaussStep s.1 i r k = s.1 r k := by
    intro r k hh
    unfold gaussStep
    rcases hh with hh | hh
    · rw [if_neg hh]
    · rw [if_neg hh.ne, if_neg (not_lt.2 hh.le)]
      split_ifs <;> rfl
  refine ⟨h.bij, ?_, ?_, ?_, ?_, ?_⟩
  · intro r k
    change (gaussStep s.1 i r k).IsFinite
    by_cases hr : i < r
    · rcases lt_trichotomy k i with hk | rfl | hk
      · rw [hsame r k (.inr hk)]; exact h.finite r k
      · exact (hmul r hr).1
      · exact (helim r k hr hk).1
    · rw [hsame r k (.inl hr)]; exact h.finite r k
  · intro r j hj hjr
    change |rv (gaussStep s.1 i r j)| ≤ _
    rcases Nat.lt_succ_iff_lt_or_eq.1 hj with hj | hj
    · rw [hsame r j (.inr hj)]
      exact h.lower r j hj hjr
    · have : j = i := Fin.ext hj
      subst this
      exact (hmul r hjr).2.1
  · intro r k hk
    change |rv (gaussStep s.1 i r k)| ≤ _
    rw [e3]
    by_cases hb : ¬ i < r ∨ k < i
    · rw [hsame r k hb]
      have : |rv (s.1 r k)| ≤ G := by
        refine h.upper r k ?_
        rcases hk with hk | hk
        · exact .inl hk
        · exact .inr (by omega)
      linarith
    · rw [not_or, not_not, not_lt] at hb
      rcases eq_or_lt_of_le hb.2 with rfl | hik
      · rcases hk with hk | hk
        · exact absurd hk (not_le.2 hb.1)
        · exact absurd hk (by omega)
      · exact (helim r k hb.1 hik).2.2
  · intro j hj
    change 1 ≤ 2 * β * |rv (gaussStep s.1 i j j)|
    rcases Nat.lt_succ_iff_lt_or_eq.1 hj with hj | hj
    · rw [hsame j j (.inr hj)]
      exact h.pivots j hj
    · have : j = i := Fin.ext hj
      subst this
      rw [hsame j j (.inl (lt_irrefl _))]
      exact hp
  · intro r k
    change |rv (J (s.2 r) k) - partialProduct (i.val + 1) (gaussStep s.1 i) r k| ≤ _
    rw [partialProduct_gauss, e3]
    have h1 : |rv (J (s.2 r) k) - partialProduct i.val s.1 r k| ≤ 3 * ur * G := h.error r k
    have h2 : |(if i < r ∧ i ≤ k then (if k = i then rv (gaussStep s.1 i r i) * rv (s.1 i i) - rv (s.1 r i)
        else rv (gaussStep s.1 i r i) * rv (s.1 i k) + rv (gaussStep s.1 i r k) - rv (s.1 r k)) else 0)| ≤ 5 * ur * G := by
      have huG : 0 ≤ ur * G := by positivity
      split_ifs with hh hk
      · have := (hmul r hh.1).2.2
        rw [abs_sub_comm]
        linarith
      · have := (helim r k hh.1 (lt_of_le_of_ne hh.2 (Ne.symm hk))).2.1
        refine le_trans (le_of_eq ?_) this
        congr 1
        ring
      · rw [abs_zero]; linarith
    rw [← sub_sub]
    refine (abs_sub _ _).trans ?_
    have huG : 0 ≤ ur * G := by positivity
    clear_value G
    clear hG hβ hG2 hGl hpl
    linarith

/-! ## The pivots are not small -/

/-- A matrix that does not shrink vectors by more than `β`, in the maximum norm. -/
def Bounded' (J : Mat F64 n) (β : ℝ) : Prop :=
  ∀ (v : Fin n → ℝ) (t : ℝ), (∀ r, |∑ k, rv (J r k) * v k| ≤ t) → ∀ k, |v k| ≤ β * t

open scoped Exact in
/-- A vector on which the finished rows vanish. -/
theorem kernel_vector (M : Mat ℝ n) (i : Fin n) (hM : ∀ j : Fin n, j < i → M j j ≠ 0) :
    ∃ v : Fin n → ℝ, v i = 1 ∧ (∀ k, i < k → v k = 0) ∧ ∀ j, j < i → ∑ k, upperPart M j k * v k = 0 := by
  obtain ⟨v, -, hv⟩ := solveUpper_spec (fun r k => if r < i then M r k else if r = k then 1 else 0)
    (fun r => if r = i then (1 : ℝ) else 0) (by
      intro j
      by_cases hj : j < i
      · simp only [if_pos hj]; exact hM j hj
      · simp only [if_neg hj, if_true]; exact one_ne_zero)
  have hrow : ∀ r, ∑ k, upperPart (fun r k => if r < i then M r k else if r = k then 1 else 0) r k * v k =
      if r = i then 1 else 0 := fun r => congrFun hv r
  have hge : ∀ r, ¬ r < i → v r = if r = i then 1 else 0 := by
    intro r hr
    rw [← hrow r]
    unfold upperPart
    simp only [if_neg hr]
    rw [Finset.sum_eq_single r]
    · simp
    · intro k _ hk
      simp [Ne.symm hk]
    · simp
  refine ⟨v, ?_, ?_, ?_⟩
  · rw [hge i (lt_irrefl _), if_pos rfl]
  · intro k hk
    rw [hge k (not_lt.2 hk.le), if_neg hk.ne']
  · intro j hj
    have := hrow j
    rw [if_neg hj.ne] at this
    rw [← this]
    apply Finset.sum_congr rfl
    intro k _
    unfold upperPart
    simp only [if_pos hj]

theorem luInv_pivot {i : Fin n} {s : Mat F64 n × (Fin n → Fin n)} (h : LuInv J α β i s) (hB : Bounded' J β) (hβ : 0 ≤ β)
    (hcond : β * (n * (3 * ur * (3 ^ i.val * α))) ≤ 1 / 2) :
    1 ≤ 2 * β * |rv (s.1 (pivotRow s.1 i) i)| := by
  set e := 3 * ur * (3 ^ i.val * α) with he
  set p := |rv (s.1 (pivotRow s.1 i) i)| with hp
  have he0 : 0 ≤ e := (_root_.abs_nonneg _).trans (h.error i i)
  obtain ⟨v, hvi, hvk, hvj⟩ := kernel_vector (vals s.1) i (by
    intro j hj h0
    have := h.pivots j hj
    change rv (s.1 j j) = 0 at h0
    rw [h0, abs_zero, mul_zero] at this
    linarith)
  have hV : ∀ k, |v k| ≤ ‖v‖ := fun k => norm_le_pi_norm v k
  have hV1 : 1 ≤ ‖v‖ := by
    have := hV i
    rwa [hvi, abs_one] at this
  have key : ∀ r, |∑ k, rv (J r k) * v k| ≤ p + n * e * ‖v‖ := by
    intro r
    obtain ⟨r, rfl⟩ := h.bij.2 r
    have e1 : ∑ k, rv (J (s.2 r) k) * v k = ∑ k, partialProduct i.val s.1 r k * v k +
        ∑ k, (rv (J (s.2 r) k) - partialProduct i.val s.1 r k) * v k := by
      rw [← Finset.sum_add_distrib]
      apply Finset.sum_congr rfl
      intro k _
      ring
    have e2 : ∑ k, partialProduct i.val s.1 r k * v k = if i.val ≤ r.val then rv (s.1 r i) else 0 := by
      unfold partialProduct
      simp only [add_mul, Finset.sum_add_distrib]
      have e3 : ∑ k, (∑ j : Fin n, (if j.val < i.val then lowerPart (vals s.1) r j * upperPart (vals s.1) j k else 0)) * v k
          = 0 := by
        simp only [Finset.sum_mul]
        rw [Finset.sum_comm]
        apply Finset.sum_eq_zero
        intro j _
        by_cases hj : j.val < i.val
        · simp only [if_pos hj, _root_.mul_assoc]
          rw [← Finset.mul_sum, hvj j hj, mul_zero]
        · simp only [if_neg hj, zero_mul, Finset.sum_const_zero]
      rw [e3, zero_add, Finset.sum_eq_single i]
      · rw [hvi, _root_.mul_one]
        by_cases hr : i.val ≤ r.val
        · rw [if_pos ⟨hr, le_rfl⟩, if_pos hr]
        · rw [if_neg (fun hh => hr hh.1), if_neg hr]
      · intro k _ hk
        rcases lt_or_gt_of_ne hk with hk | hk
        · rw [if_neg (fun hh => absurd (Fin.le_def.2 hh.2) (not_le.2 hk)), zero_mul]
        · rw [hvk k hk, mul_zero]
      · simp
    rw [e1, e2]
    refine (abs_add_le _ _).trans (add_le_add ?_ ?_)
    · split_ifs with hr
      · exact fl_abs_le_pivotRow h.finite i r hr
      · rw [abs_zero]; exact _root_.abs_nonneg _
    · refine (Finset.abs_sum_le_sum_abs _ _).trans ?_
      refine (Finset.sum_le_sum (g := fun _ => e * ‖v‖) fun k _ => ?_).trans ?_
      · rw [abs_mul]
        exact mul_le_mul (h.error r k) (hV k) (_root_.abs_nonneg _) he0
      · rw [Finset.sum_const, Finset.card_univ, Fintype.card_fin, nsmul_eq_mul, ← _root_.mul_assoc]
  have h1 : ‖v‖ ≤ β * (p + n * e * ‖v‖) := by
    refine (pi_norm_le_iff_of_nonneg ?_).2 (hB v _ key)
    have : 0 ≤ p := _root_.abs_nonneg _
    positivity
  have h2 := mul_le_mul_of_nonneg_right hcond (norm_nonneg v)
  have e3 : β * (p + n * e * ‖v‖) = β * p + β * (n * e) * ‖v‖ := by ring
  rw [e3] at h1
  linarith

theorem luInv_step {i : Fin n} {s : Mat F64 n × (Fin n → Fin n)} (h : LuInv J α β i s) (hB : Bounded' J β) (hβ : 0 ≤ β)
    (hG : 2 ^ (-900 : ℤ) ≤ α) (hG2 : 3 ^ i.val * α ≤ 2 ^ 900) (hβ2 : 2 * β ≤ 2 ^ 900)
    (hcond : β * (n * (3 * ur * (3 ^ i.val * α))) ≤ 1 / 2) : LuInv J α β (i.val + 1) (luStep s i) := by
  have hp := luInv_pivot h hB hβ hcond
  have hne : rv (s.1 (pivotRow s.1 i) i) ≠ 0 := by
    intro h0
    rw [h0, abs_zero, mul_zero] at hp
    linarith
  have hz : isZero (s.1 (pivotRow s.1 i) i) = false := fl_isZero_false (h.finite _ _) (rv_ne hne)
  unfold luStep
  simp only [hz]
  have hsw : swapRows s.1 i (pivotRow s.1 i) i i = s.1 (pivotRow s.1 i) i := by
    unfold swapRows
    rw [Equiv.swap_apply_left]
  refine luInv_gauss (luInv_swap h _ (fl_le_pivotRow h.finite i)) hG hG2 hβ2 ?_ (by
    change 1 ≤ 2 * β * |rv (swapRows s.1 i (pivotRow s.1 i) i i)|
    rw [hsw]; exact hp)
  intro r hr
  change |rv (s.1 (Equiv.swap i (pivotRow s.1 i) r) i)| ≤ |rv (swapRows s.1 i (pivotRow s.1 i) i i)|
  rw [hsw]
  refine fl_abs_le_pivotRow h.finite i _ ?_
  rw [Equiv.swap_apply_def]
  split_ifs
  · exact fl_le_pivotRow h.finite i
  · exact le_refl _
  · exact hr

/-- The factorization. -/
theorem lu_float (hf : ∀ r k, (J r k).IsFinite) (hJ : ∀ r k, |rv (J r k)| ≤ α) (hB : Bounded' J β) (hβ : 0 ≤ β)
    (hG : 2 ^ (-900 : ℤ) ≤ α) (hG2 : 3 ^ n * α ≤ 2 ^ 900) (hβ2 : 2 * β ≤ 2 ^ 900)
    (hcond : β * (n * (3 * ur * (3 ^ n * α))) ≤ 1 / 2) : LuInv J α β n (lu J) := by
  have hα : 0 < α := lt_of_lt_of_le (zpow_pos (by norm_num) _) hG
  have hu := ur_pos
  unfold lu
  refine foldl_finRange luStep (fun i s => LuInv J α β i s) _ (luInv_start hf hα.le hJ) fun i s h => ?_
  have h3 : (3 : ℝ) ^ i.val * α ≤ 3 ^ n * α :=
    mul_le_mul_of_nonneg_right (pow_le_pow_right₀ (by norm_num) i.2.le) hα.le
  refine luInv_step h hB hβ hG (h3.trans hG2) hβ2 (le_trans ?_ hcond)
  have h4 : 3 * ur * (3 ^ i.val * α) ≤ 3 * ur * (3 ^ n * α) := mul_le_mul_of_nonneg_left h3 (by positivity)
  exact mul_le_mul_of_nonneg_left (mul_le_mul_of_nonneg_left h4 (Nat.cast_nonneg n)) hβ

end
end Nrf
