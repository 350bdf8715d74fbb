import Verif.Model.Lu
import Verif.Spec.Exact
import Verif.Proofs.Exact
import Mathlib.LinearAlgebra.Matrix.NonsingularInverse
import Mathlib.LinearAlgebra.Matrix.Block

/-!
# The LU inverse in exact arithmetic
-/

set_option linter.unusedSectionVars false

namespace Nrf
open scoped Exact
open Matrix

section
variable {K : Type} [Field K] [LinearOrder K] [IsStrictOrderedRing K] {n : Nat}

theorem ex_isZero (x : K) : isZero x = true ↔ x = 0 := by
  simp only [isZero, Bool.and_eq_true]
  constructor
  · rintro ⟨h1, h2⟩
    exact le_antisymm ((ex_le _ _).1 h1) ((ex_le _ _).1 h2)
  · rintro rfl
    exact ⟨(ex_le _ _).2 (le_refl _), (ex_le _ _).2 (le_refl _)⟩

/-! ## The pivot -/

theorem pivot_fold (f : Fin n → K) (l : List (Fin n)) (p : Fin n) :
    let q := l.foldl (fun p r => if Scalar.lt (Scalar.abs (f p)) (Scalar.abs (f r)) then r else p) p
    (q = p ∨ q ∈ l) ∧ |f p| ≤ |f q| ∧ ∀ r ∈ l, |f r| ≤ |f q| := by
  induction l generalizing p with
  | nil => exact ⟨.inl rfl, le_refl _, fun r hr => absurd hr (List.not_mem_nil)⟩
  | cons a l ih =>
    intro q
    by_cases h : Scalar.lt (Scalar.abs (f p)) (Scalar.abs (f a)) = true
    · have hq : q = l.foldl (fun p r => if Scalar.lt (Scalar.abs (f p)) (Scalar.abs (f r)) then r else p) a := by
        simp only [q, List.foldl_cons, if_pos h]
      obtain ⟨h1, h2, h3⟩ := ih a
      rw [← hq] at h1 h2 h3
      have hlt : |f p| < |f a| := (ex_lt _ _).1 h
      refine ⟨.inr ?_, hlt.le.trans h2, ?_⟩
      · rcases h1 with h1 | h1
        · rw [h1]; exact List.mem_cons_self
        · exact List.mem_cons_of_mem _ h1
      · intro r hr
        rcases List.mem_cons.1 hr with rfl | hr
        · exact h2
        · exact h3 r hr
    · have hq : q = l.foldl (fun p r => if Scalar.lt (Scalar.abs (f p)) (Scalar.abs (f r)) then r else p) p := by
        simp only [q, List.foldl_cons, if_neg h]
      obtain ⟨h1, h2, h3⟩ := ih p
      rw [← hq] at h1 h2 h3
      have hle : |f a| ≤ |f p| := not_lt.1 fun hh => h ((ex_lt _ _).2 hh)
      refine ⟨?_, h2, ?_⟩
      · rcases h1 with h1 | h1
        · exact .inl h1
        · exact .inr (List.mem_cons_of_mem _ h1)
      · intro r hr
        rcases List.mem_cons.1 hr with rfl | hr
        · exact hle.trans h2
        · exact h3 r hr

theorem le_pivotRow (A : Mat K n) (i : Fin n) : i ≤ pivotRow A i := by
  rcases (pivot_fold (fun r => A r i) ((List.finRange n).filter (i < ·)) i).1 with h | h
  · exact h.symm.le
  · have := (List.mem_filter.1 h).2
    exact (of_decide_eq_true this).le

theorem abs_le_pivotRow (A : Mat K n) (i r : Fin n) (h : i ≤ r) : |A r i| ≤ |A (pivotRow A i) i| := by
  rcases eq_or_lt_of_le h with rfl | h
  · exact (pivot_fold (fun r => A r i) ((List.finRange n).filter (i < ·)) i).2.1
  · exact (pivot_fold (fun r => A r i) ((List.finRange n).filter (i < ·)) i).2.2 r
      (List.mem_filter.2 ⟨List.mem_finRange r, decide_eq_true h⟩)

/-! ## The factors -/

/-- Unit lower triangle. -/
def lowerPart (M : Mat K n) : Mat K n := fun r k => if k < r then M r k else if k = r then 1 else 0

/-- Upper triangle. -/
def upperPart (M : Mat K n) : Mat K n := fun r k => if r ≤ k then M r k else 0

/-- After `i` steps: the products of the finished columns and rows, plus the rest. -/
def Factored (A : Mat K n) (i : Nat) (s : Mat K n × (Fin n → Fin n)) : Prop :=
  Function.Bijective s.2 ∧
  ∀ r k, A (s.2 r) k = ∑ j : Fin n, (if j.val < i then lowerPart s.1 r j * upperPart s.1 j k else 0) +
    (if i ≤ r.val ∧ i ≤ k.val then s.1 r k else 0)

theorem factored_swap {A : Mat K n} {i : Fin n} {s : Mat K n × (Fin n → Fin n)} (h : Factored A i s)
    (p : Fin n) (hp : i ≤ p) :
    Factored A i (swapRows s.1 i p, fun r => s.2 (Equiv.swap i p r)) := by
  obtain ⟨hb, h⟩ := h
  have hsw : ∀ r : Fin n, i.val ≤ r.val → i.val ≤ (Equiv.swap i p r).val := by
    intro r hr
    rw [Equiv.swap_apply_def]
    split_ifs
    · exact hp
    · exact le_refl _
    · exact hr
  have hlow : ∀ r : Fin n, r.val < i.val → Equiv.swap i p r = r := by
    intro r hr
    apply Equiv.swap_apply_of_ne_of_ne
    · rintro rfl; exact lt_irrefl _ hr
    · rintro rfl; exact absurd hr (not_lt.2 hp)
  refine ⟨hb.comp (Equiv.swap i p).bijective, fun r k => ?_⟩
  rw [h (Equiv.swap i p r) k]
  congr 1
  · apply Finset.sum_congr rfl
    intro j _
    by_cases hj : j.val < i.val
    · rw [if_pos hj, if_pos hj]
      congr 1
      · unfold lowerPart swapRows
        by_cases hr : r.val < i.val
        · simp only [hlow r hr]
        · have h1 := hsw r (not_lt.1 hr)
          have h2 : j < Equiv.swap i p r := Fin.lt_def.2 (lt_of_lt_of_le hj h1)
          have h3 : j < r := Fin.lt_def.2 (lt_of_lt_of_le hj (not_lt.1 hr))
          rw [if_pos h2, if_pos h3]
      · unfold upperPart swapRows
        simp only [hlow j hj]
    · rw [if_neg hj, if_neg hj]
  · by_cases hr : r.val < i.val
    · rw [hlow r hr, if_neg (fun h => absurd h.1 (not_le.2 hr)), if_neg (fun h => absurd h.1 (not_le.2 hr))]
    · have h1 := hsw r (not_lt.1 hr)
      simp only [h1, not_lt.1 hr, true_and]
      rfl

theorem sum_if_succ (f : Fin n → K) (i : Fin n) :
    ∑ j : Fin n, (if j.val < i.val + 1 then f j else 0) = ∑ j : Fin n, (if j.val < i.val then f j else 0) + f i := by
  rw [← Finset.sum_erase_add _ _ (Finset.mem_univ i), ← Finset.sum_erase_add (a := i) _ (fun j => if j.val < i.val then f j else 0) (Finset.mem_univ i)]
  rw [if_pos (Nat.lt_succ_self _), if_neg (lt_irrefl _), add_zero]
  congr 1
  apply Finset.sum_congr rfl
  intro j hj
  have : j.val ≠ i.val := fun h => (Finset.mem_erase.1 hj).1 (Fin.ext h)
  by_cases h : j.val < i.val
  · rw [if_pos h, if_pos (by omega)]
  · rw [if_neg h, if_neg (by omega)]

theorem factored_gauss {A : Mat K n} {i : Fin n} {s : Mat K n × (Fin n → Fin n)} (h : Factored A i s)
    (hne : s.1 i i ≠ 0) : Factored A (i.val + 1) (gaussStep s.1 i, s.2) := by
  obtain ⟨hb, h⟩ := h
  refine ⟨hb, fun r k => ?_⟩
  have e := h r k
  change A (s.2 r) k = _
  rw [e, sum_if_succ (fun j => lowerPart (gaussStep s.1 i) r j * upperPart (gaussStep s.1 i) j k) i, add_assoc]
  congr 1
  · apply Finset.sum_congr rfl
    intro j _
    by_cases hj : j.val < i.val
    · rw [if_pos hj, if_pos hj]
      have hji : ¬ i < j := fun hh => absurd (Fin.lt_def.1 hh) (by omega)
      have hjn : j ≠ i := fun hh => absurd (congrArg Fin.val hh) (by omega)
      have e1 : gaussStep s.1 i r j = s.1 r j := by
        unfold gaussStep; split_ifs <;> rfl
      have e2 : gaussStep s.1 i j k = s.1 j k := by
        unfold gaussStep; rw [if_neg hji]
      unfold lowerPart upperPart
      rw [e1, e2]
    · rw [if_neg hj, if_neg hj]
  · -- the new column and row
    unfold lowerPart upperPart
    have hii : gaussStep s.1 i i k = s.1 i k := by unfold gaussStep; rw [if_neg (lt_irrefl _)]
    rw [hii]
    rcases lt_trichotomy r i with hr | rfl | hr
    · have h1 : ¬ i < r := not_lt.2 hr.le
      have h2 : i ≠ r := hr.ne'
      have h3 : r.val < i.val := hr
      rw [if_neg h1, if_neg h2, zero_mul, zero_add, if_neg (by omega), if_neg (by omega)]
    · rw [if_neg (lt_irrefl _), if_pos rfl, one_mul, if_neg (show ¬ (r.val + 1 ≤ r.val ∧ _) by omega), add_zero]
      by_cases hk : r ≤ k
      · rw [if_pos hk, if_pos ⟨le_refl _, hk⟩]
      · rw [if_neg hk, if_neg (fun hh => hk hh.2)]
    · have h3 : i.val < r.val := hr
      rw [if_pos hr]
      have hl : gaussStep s.1 i r i = s.1 r i * (1 / s.1 i i) := by
        unfold gaussStep; rw [if_pos hr, if_pos rfl]; rfl
      rw [hl]
      rcases lt_trichotomy k i with hk | rfl | hk
      · have h4 : k.val < i.val := hk
        rw [if_neg (not_le.2 hk), mul_zero, if_neg (by omega), if_neg (by omega), add_zero]
      · rw [if_pos (le_refl _), if_pos ⟨hr.le, le_refl _⟩, if_neg (by omega), add_zero]
        field_simp
      · have h4 : i.val < k.val := hk
        rw [if_pos hk.le, if_pos (by omega), if_pos (by omega)]
        have : gaussStep s.1 i r k = -(s.1 i k) * (s.1 r i * (1 / s.1 i i)) + s.1 r k := by
          unfold gaussStep
          rw [if_pos hr, if_neg hk.ne', if_pos hk]; rfl
        simp only [this]
        ring

theorem factored_skip {A : Mat K n} {i : Fin n} {s : Mat K n × (Fin n → Fin n)} (h : Factored A i s)
    (h0 : ∀ r, i ≤ r → s.1 r i = 0) : Factored A (i.val + 1) s := by
  obtain ⟨hb, h⟩ := h
  refine ⟨hb, fun r k => ?_⟩
  rw [h r k, sum_if_succ (fun j => lowerPart s.1 r j * upperPart s.1 j k) i, add_assoc]
  congr 1
  unfold lowerPart upperPart
  rcases lt_trichotomy r i with hr | rfl | hr
  · have h3 : r.val < i.val := hr
    rw [if_neg (not_lt.2 hr.le), if_neg hr.ne', zero_mul, zero_add, if_neg (by omega), if_neg (by omega)]
  · rw [if_neg (lt_irrefl _), if_pos rfl, one_mul, if_neg (show ¬ (r.val + 1 ≤ r.val ∧ _) by omega), add_zero]
    by_cases hk : r ≤ k
    · rw [if_pos hk, if_pos ⟨le_refl _, hk⟩]
    · rw [if_neg hk, if_neg (fun hh => hk hh.2)]
  · have h3 : i.val < r.val := hr
    rw [if_pos hr, h0 r hr.le, zero_mul, zero_add]
    rcases lt_trichotomy k i with hk | rfl | hk
    · have h4 : k.val < i.val := hk
      rw [if_neg (by omega), if_neg (by omega)]
    · rw [if_pos ⟨hr.le, le_refl _⟩, if_neg (by omega), h0 r hr.le]
    · have h4 : i.val < k.val := hk
      rw [if_pos (by omega), if_pos (by omega)]

theorem factored_luStep {A : Mat K n} {i : Fin n} {s : Mat K n × (Fin n → Fin n)} (h : Factored A i s) :
    Factored A (i.val + 1) (luStep s i) := by
  unfold luStep
  by_cases hz : isZero (s.1 (pivotRow s.1 i) i) = true
  · simp only [if_pos hz]
    apply factored_skip h
    intro r hr
    have h1 := abs_le_pivotRow s.1 i r hr
    rw [(ex_isZero _).1 hz, abs_zero] at h1
    exact abs_nonpos_iff.1 h1
  · simp only [if_neg hz]
    have hs := factored_swap h (pivotRow s.1 i) (le_pivotRow _ _)
    refine factored_gauss hs ?_
    change swapRows s.1 i (pivotRow s.1 i) i i ≠ 0
    unfold swapRows
    rw [Equiv.swap_apply_left]
    exact fun hh => hz ((ex_isZero _).2 hh)

/-- A fold over `finRange n` as `n` numbered steps. -/
theorem foldl_finRange {β : Type} (g : β → Fin n → β) (P : Nat → β → Prop) (b : β) (h0 : P 0 b)
    (hs : ∀ i b, P i.val b → P (i.val + 1) (g b i)) : P n ((List.finRange n).foldl g b) := by
  have key : ∀ k, k ≤ n → P k (((List.finRange n).take k).foldl g b) := by
    intro k
    induction k with
    | zero => intro _; simpa using h0
    | succ k ih =>
      intro hk
      have hlen : k < (List.finRange n).length := by simpa using hk
      rw [List.take_succ_eq_append_getElem hlen, List.foldl_append]
      simp only [List.foldl_cons, List.foldl_nil, List.getElem_finRange]
      have := hs ⟨k, hk⟩ _ (ih (by omega))
      simpa using this
  have := key n le_rfl
  rwa [List.take_of_length_le (by simp)] at this

theorem foldl_finRange_reverse {β : Type} (g : β → Fin n → β) (P : Nat → β → Prop) (b : β) (h0 : P n b)
    (hs : ∀ i b, P (i.val + 1) b → P i.val (g b i)) : P 0 ((List.finRange n).reverse.foldl g b) := by
  rw [List.foldl_reverse]
  have key : ∀ k, k ≤ n → P (n - k) (((List.finRange n).drop (n - k)).foldr (fun x y => g y x) b) := by
    intro k
    induction k with
    | zero =>
      intro _
      rw [Nat.sub_zero, List.drop_of_length_le (by simp)]
      exact h0
    | succ k ih =>
      intro hk
      have hlen : n - (k + 1) < (List.finRange n).length := by simp; omega
      rw [List.drop_eq_getElem_cons hlen]
      simp only [List.foldr_cons, List.getElem_finRange]
      have e : n - (k + 1) + 1 = n - k := by omega
      have := hs ⟨n - (k + 1), by omega⟩ (((List.finRange n).drop (n - k)).foldr (fun x y => g y x) b)
        (by simpa [e] using ih (by omega))
      rw [e]
      simpa using this
  have := key n le_rfl
  simpa using this

theorem lu_factored (A : Mat K n) : Factored A n (lu A) := by
  unfold lu
  apply foldl_finRange luStep (fun i s => Factored A i s) _ _ fun i s h => factored_luStep h
  exact ⟨Function.bijective_id, fun r k => by simp⟩

/-- The multipliers of the finished columns are bounded by one. -/
def Bounded (i : Nat) (s : Mat K n × (Fin n → Fin n)) : Prop :=
  ∀ r j : Fin n, j.val < i → j < r → |s.1 r j| ≤ 1

theorem bounded_luStep {i : Fin n} {s : Mat K n × (Fin n → Fin n)} (h : Bounded i s) :
    Bounded (i.val + 1) (luStep s i) := by
  unfold luStep
  by_cases hz : isZero (s.1 (pivotRow s.1 i) i) = true
  · simp only [if_pos hz]
    intro r j hj hjr
    rcases Nat.lt_succ_iff_lt_or_eq.1 hj with hj | hj
    · exact h r j hj hjr
    · have : j = i := Fin.ext hj
      subst this
      have h1 := abs_le_pivotRow s.1 j r hjr.le
      rw [(ex_isZero _).1 hz, abs_zero] at h1
      exact h1.trans zero_le_one
  · simp only [if_neg hz]
    have hne : s.1 (pivotRow s.1 i) i ≠ 0 := fun e => hz ((ex_isZero _).2 e)
    have hp := le_pivotRow s.1 i
    have hsw : ∀ r : Fin n, i ≤ r → i ≤ Equiv.swap i (pivotRow s.1 i) r := by
      intro r hr
      rw [Equiv.swap_apply_def]
      split_ifs
      · exact hp
      · exact le_refl _
      · exact hr
    intro r j hj hjr
    rcases Nat.lt_succ_iff_lt_or_eq.1 hj with hj | hj
    · have hji : j < i := hj
      have e : gaussStep (swapRows s.1 i (pivotRow s.1 i)) i r j = s.1 (Equiv.swap i (pivotRow s.1 i) r) j := by
        unfold gaussStep
        rw [if_neg hji.ne, if_neg (not_lt.2 hji.le)]
        split_ifs <;> rfl
      change |gaussStep (swapRows s.1 i (pivotRow s.1 i)) i r j| ≤ 1
      rw [e]
      by_cases hr : i ≤ r
      · exact h _ j hj (lt_of_lt_of_le hji (hsw r hr))
      · rw [Equiv.swap_apply_of_ne_of_ne (fun e => hr e.symm.le) (fun e => hr (e ▸ hp))]
        exact h r j hj hjr
    · have : j = i := Fin.ext hj
      subst this
      change |gaussStep (swapRows s.1 j (pivotRow s.1 j)) j r j| ≤ 1
      unfold gaussStep
      rw [if_pos hjr, if_pos rfl]
      change |swapRows s.1 j (pivotRow s.1 j) r j * (1 / swapRows s.1 j (pivotRow s.1 j) j j)| ≤ 1
      have e : swapRows s.1 j (pivotRow s.1 j) j j = s.1 (pivotRow s.1 j) j := by
        unfold swapRows
        rw [Equiv.swap_apply_left]
      rw [e, mul_one_div, abs_div, div_le_one (abs_pos.2 hne)]
      exact abs_le_pivotRow s.1 j _ (hsw r hjr.le)

theorem lu_bounded (A : Mat K n) : Bounded n (lu A) := by
  unfold lu
  exact foldl_finRange luStep (fun i s => Bounded i s) _ (fun r j hj => absurd hj (Nat.not_lt_zero _))
    fun i s h => bounded_luStep h

/-- The packed factors multiply to the matrix with permuted rows. -/
theorem lu_mul (A : Mat K n) : lowerPart (lu A).1 * upperPart (lu A).1 = A.submatrix (lu A).2 id := by
  ext r k
  have := (lu_factored A).2 r k
  rw [Matrix.mul_apply]
  change _ = A ((lu A).2 r) k
  rw [this, if_neg (by omega), add_zero]
  apply Finset.sum_congr rfl
  intro j _
  rw [if_pos j.2]

theorem det_lowerPart (M : Mat K n) : (lowerPart M).det = 1 := by
  rw [Matrix.det_of_isLowerTriangular]
  · apply Finset.prod_eq_one
    intro i _
    unfold lowerPart
    rw [if_neg (lt_irrefl _), if_pos rfl]
  · intro i j hij
    have h : i < j := hij
    unfold lowerPart
    rw [if_neg (not_lt.2 h.le), if_neg h.ne']

theorem det_upperPart (M : Mat K n) : (upperPart M).det = ∏ i, M i i := by
  rw [Matrix.det_of_isUpperTriangular]
  · apply Finset.prod_congr rfl
    intro i _
    unfold upperPart
    rw [if_pos le_rfl]
  · intro i j hij
    have h : j < i := hij
    unfold upperPart
    rw [if_neg (not_le.2 h)]

theorem det_eq_zero_iff (A : Mat K n) : A.det = 0 ↔ ∃ i, (lu A).1 i i = 0 := by
  have h1 := congrArg Matrix.det (lu_mul A)
  rw [Matrix.det_mul, det_lowerPart, one_mul, det_upperPart] at h1
  have hb := (lu_factored A).1
  set σ : Equiv.Perm (Fin n) := Equiv.ofBijective _ hb with hσ
  have h2 : A.submatrix (lu A).2 id = A.submatrix σ id := rfl
  rw [h2, Matrix.det_permute] at h1
  constructor
  · intro h
    rw [h, mul_zero] at h1
    obtain ⟨i, -, hi⟩ := Finset.prod_eq_zero_iff.1 h1
    exact ⟨i, hi⟩
  · rintro ⟨i, hi⟩
    have h3 : ∏ i, (lu A).1 i i = 0 := Finset.prod_eq_zero (Finset.mem_univ i) hi
    rw [h3] at h1
    rcases mul_eq_zero.1 h1.symm with h | h
    · rcases Int.units_eq_one_or (Equiv.Perm.sign σ) with e | e <;> rw [e] at h <;> simp at h
    · exact h

/-! ## The triangular systems -/

theorem solveLower_spec (M : Mat K n) (b : Vec K n) : lowerPart M *ᵥ solveLower M b = b := by
  have key := foldl_finRange (lowerStep M)
    (fun i y => ∀ r, b r = ∑ j : Fin n, (if j.val < i then lowerPart M r j * y j else 0) + (if i ≤ r.val then y r else 0))
    b (fun r => by simp) (fun i y h r => by
      rw [h r, sum_if_succ (fun j => lowerPart M r j * lowerStep M y i j) i, add_assoc]
      congr 1
      · apply Finset.sum_congr rfl
        intro j _
        by_cases hj : j.val < i.val
        · rw [if_pos hj, if_pos hj]
          congr 1
          unfold lowerStep
          rw [if_neg (not_lt.2 (Fin.le_def.2 hj.le))]
        · rw [if_neg hj, if_neg hj]
      · have hii : lowerStep M y i i = y i := by unfold lowerStep; rw [if_neg (lt_irrefl _)]
        rw [hii]
        unfold lowerPart
        rcases lt_trichotomy r i with hr | rfl | hr
        · have h3 : r.val < i.val := hr
          rw [if_neg (not_lt.2 hr.le), if_neg hr.ne', zero_mul, zero_add, if_neg (by omega), if_neg (by omega)]
        · rw [if_neg (lt_irrefl _), if_pos rfl, if_pos le_rfl, if_neg (by omega), one_mul, add_zero]
        · have h3 : i.val < r.val := hr
          rw [if_pos hr, if_pos h3.le, if_pos (by omega)]
          have : lowerStep M y i r = -(y i / 1) * M r i + y r := by
            unfold lowerStep; rw [if_pos hr]; rfl
          rw [this]
          ring)
  funext r
  have h := key r
  rw [if_neg (by omega), add_zero] at h
  rw [h]
  change ∑ j, lowerPart M r j * solveLower M b j = _
  apply Finset.sum_congr rfl
  intro j _
  rw [if_pos j.2]
  rfl

theorem solveUpper_none (M : Mat K n) (b : Vec K n) (i : Fin n) (hi : M i i = 0) : solveUpper M b = none := by
  have key := foldl_finRange_reverse (upperStep M) (fun k o => k ≤ i.val → o = none) (some b)
    (fun h => absurd i.2 (by omega)) (fun j o h hj => by
      rcases eq_or_lt_of_le hj with hj | hj
      · have : j = i := Fin.ext hj
        subst this
        unfold upperStep
        cases o with
        | none => rfl
        | some b => simp only [Option.bind_some, if_pos ((ex_isZero _).2 hi)]
      · rw [h (by omega)]; rfl)
  exact key (Nat.zero_le _)

theorem solveUpper_spec (M : Mat K n) (b : Vec K n) (hM : ∀ i, M i i ≠ 0) :
    ∃ x, solveUpper M b = some x ∧ upperPart M *ᵥ x = b := by
  have key := foldl_finRange_reverse (upperStep M)
    (fun i o => ∃ x, o = some x ∧ ∀ r, b r =
      ∑ j : Fin n, (if i ≤ j.val then upperPart M r j * x j else 0) + (if r.val < i then x r else 0))
    (some b) ⟨b, rfl, fun r => by
      rw [if_pos r.2, Finset.sum_eq_zero, zero_add]
      intro j _
      rw [if_neg (by omega)]⟩ (fun i o h => by
      obtain ⟨x, rfl, h⟩ := h
      have hz : ¬ isZero (M i i) = true := fun hh => hM i ((ex_isZero _).1 hh)
      refine ⟨_, by unfold upperStep; rw [Option.bind_some, if_neg hz], fun r => ?_⟩
      rw [h r]
      have hsum : ∀ f : Fin n → K, ∑ j : Fin n, (if i.val ≤ j.val then f j else 0) =
          ∑ j : Fin n, (if i.val + 1 ≤ j.val then f j else 0) + f i := by
        intro f
        rw [← Finset.sum_erase_add _ _ (Finset.mem_univ i),
          ← Finset.sum_erase_add (a := i) _ (fun j => if i.val + 1 ≤ j.val then f j else 0) (Finset.mem_univ i)]
        rw [if_pos le_rfl, if_neg (by omega), add_zero]
        congr 1
        apply Finset.sum_congr rfl
        intro j hj
        have : j.val ≠ i.val := fun h => (Finset.mem_erase.1 hj).1 (Fin.ext h)
        by_cases h : i.val ≤ j.val
        · rw [if_pos h, if_pos (by omega)]
        · rw [if_neg h, if_neg (by omega)]
      rw [hsum, add_assoc]
      congr 1
      · apply Finset.sum_congr rfl
        intro j _
        by_cases hj : i.val + 1 ≤ j.val
        · have h1 : j ≠ i := fun hh => absurd (congrArg Fin.val hh) (by omega)
          have h2 : ¬ j < i := fun hh => absurd (Fin.lt_def.1 hh) (by omega)
          rw [if_pos hj, if_pos hj, if_neg h1, if_neg h2]
        · rw [if_neg hj, if_neg hj]
      · rw [if_pos (rfl : i = i)]
        have hd : Scalar.div (x i) (M i i) = x i / M i i := rfl
        rw [hd]
        unfold upperPart
        have hMi := hM i
        rcases lt_trichotomy r i with hr | rfl | hr
        · have h3 : r.val < i.val := hr
          rw [if_pos (by omega), if_pos hr.le, if_pos h3, if_neg hr.ne, if_pos hr]
          change x r = M r i * (x i / M i i) + (-(x i / M i i) * M r i + x r)
          ring
        · rw [if_pos (by omega), if_pos le_rfl, if_neg (by omega), add_zero]
          field_simp
        · have h3 : i.val < r.val := hr
          rw [if_neg (by omega), if_neg (not_le.2 hr), if_neg (by omega), zero_mul, zero_add])
  obtain ⟨x, hx, h⟩ := key
  refine ⟨x, hx, ?_⟩
  funext r
  have h := h r
  rw [if_neg (by omega), add_zero] at h
  rw [h]
  change ∑ j, upperPart M r j * x j = _
  apply Finset.sum_congr rfl
  intro j _
  rw [if_pos (by omega)]

/-! ## The inverse -/

theorem luInverse_none (A : Mat K n) (h : A.det = 0) : luInverse A = none := by
  obtain ⟨i, hi⟩ := (det_eq_zero_iff A).1 h
  unfold luInverse
  simp only
  rw [dif_neg]
  intro hall
  have := hall i
  rw [solveUpper_none _ _ i hi] at this
  cases this

theorem luInverse_some (A : Mat K n) (h : A.det ≠ 0) : luInverse A = some A⁻¹ := by
  have hM : ∀ i, (lu A).1 i i ≠ 0 := fun i hi => h ((det_eq_zero_iff A).2 ⟨i, hi⟩)
  have hcol : ∀ j, ∃ x, solveUpper (lu A).1 (solveLower (lu A).1 (permutedUnit (lu A).2 j)) = some x ∧
      ∀ r, (A *ᵥ x) r = (1 : Mat K n) r j := by
    intro j
    obtain ⟨x, hx, hu⟩ := solveUpper_spec (lu A).1 (solveLower (lu A).1 (permutedUnit (lu A).2 j)) hM
    refine ⟨x, hx, fun r => ?_⟩
    have h1 : A.submatrix (lu A).2 id *ᵥ x = permutedUnit (lu A).2 j := by
      rw [← lu_mul, ← Matrix.mulVec_mulVec, hu, solveLower_spec]
    obtain ⟨r', rfl⟩ := (lu_factored A).1.2 r
    have h2 := congrFun h1 r'
    have h3 : (A.submatrix (lu A).2 id *ᵥ x) r' = (A *ᵥ x) ((lu A).2 r') := rfl
    rw [h3] at h2
    rw [h2, Matrix.one_apply]
    rfl
  have hsome : ∀ j, (solveUpper (lu A).1 (solveLower (lu A).1 (permutedUnit (lu A).2 j))).isSome := by
    intro j
    obtain ⟨x, hx, -⟩ := hcol j
    rw [hx]; rfl
  unfold luInverse
  simp only
  rw [dif_pos hsome]
  congr 1
  set X : Mat K n := fun r j => (solveUpper (lu A).1 (solveLower (lu A).1 (permutedUnit (lu A).2 j))).get (hsome j) r
    with hX
  have : A * X = 1 := by
    ext r j
    obtain ⟨x, hx, hx'⟩ := hcol j
    rw [← hx' r, Matrix.mul_apply]
    change _ = ∑ k, A r k * x k
    apply Finset.sum_congr rfl
    intro k _
    congr 1
    change (solveUpper (lu A).1 (solveLower (lu A).1 (permutedUnit (lu A).2 j))).get (hsome j) k = x k
    exact congrFun (Option.get_of_eq_some _ hx) k
  exact (Matrix.inv_eq_right_inv this).symm

theorem foldl_add_left (l : List K) (a : K) : l.foldl (fun acc t => t +ᶠ acc) a = a + l.sum := by
  induction l generalizing a with
  | nil => simp
  | cons t l ih =>
    rw [List.foldl_cons, ih, List.sum_cons]
    change t + a + l.sum = _
    ring

theorem gemvDot_exact (a b : Vec K n) : gemvDot a b = ∑ i, a i * b i := by
  have h : (List.ofFn fun j => a j *ᶠ b j).sum = ∑ i, a i * b i := List.sum_ofFn
  unfold gemvDot
  split
  · rename_i e
    rw [e] at h
    exact h
  · rename_i t ts e
    rw [e, List.sum_cons] at h
    rw [foldl_add_left, h]

end
end Nrf
