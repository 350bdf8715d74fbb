import Verif.Model.TestLoops
import Mathlib.Tactic.Common

/-!
# Invariants of the loops of the test cases
-/

namespace Nrf.TestLoops

open Dyn (DVec DMat DynPanic)

variable {F : Type} [Scalar F] {k : Nat}

theorem get_ok {v : DVec F} {i : Nat} (h : i < v.len) : get v i = .ok (v.val ⟨i, h⟩) := dif_pos h

theorem put_ok {v : DVec F} {i : Nat} {a : F} (h : i < v.len) :
    put v i a = .ok ⟨v.len, fun j => if j.val = i then a else v.val j⟩ := if_pos h

theorem getAt_ok {m : DMat F} {i j : Nat} (h : i < m.len ∧ j < m.len) :
    getAt m i j = .ok (m.val ⟨i, h.1⟩ ⟨j, h.2⟩) := dif_pos h

theorem putAt_ok {m : DMat F} {i j : Nat} {a : F} (h : i < m.len ∧ j < m.len) :
    putAt m i j a = .ok ⟨m.len, fun i' j' => if i'.val = i ∧ j'.val = j then a else m.val i' j'⟩ := if_pos h

theorem vec_ext {n : Nat} {u v : Vec F n} (h : ∀ i (hi : i < n), u ⟨i, hi⟩ = v ⟨i, hi⟩) :
    DVec.mk n u = DVec.mk n v := by
  congr 1
  funext i
  exact h i i.2

theorem mat_ext {n : Nat} {u v : Mat F n}
    (h : ∀ i (hi : i < n) j (hj : j < n), u ⟨i, hi⟩ ⟨j, hj⟩ = v ⟨i, hi⟩ ⟨j, hj⟩) : DMat.mk n u = DMat.mk n v := by
  congr 1
  funext i j
  exact h i i.2 j j.2

/-- A loop over `a, a + 1, …` keeps an invariant indexed by the number of passes. -/
theorem loop_range' {A E : Type} (f : A → Nat → Except E A) (P : Nat → A) :
    ∀ (len a : Nat), (∀ i, a ≤ i → i < a + len → f (P i) i = .ok (P (i + 1))) →
      (List.range' a len).foldlM f (P a) = .ok (P (a + len))
  | 0, _, _ => rfl
  | len + 1, a, h => by
    rw [List.range'_succ, List.foldlM_cons, h a le_rfl (by omega)]
    change (List.range' (a + 1) len).foldlM f (P (a + 1)) = _
    rw [loop_range' f P len (a + 1) fun i h1 h2 => h i (by omega) (by omega)]
    congr 2
    omega

/-- The vector whose first `m` entries are computed. -/
def filled (alpha beta : F) (x : Vec F (k + 2)) (m : Nat) : DVec F :=
  ⟨k + 2, fun j => if j.val < m then TestCases.broydenAt alpha beta x j j.2 else Scalar.zero⟩

theorem filled_step {alpha beta : F} {x : Vec F (k + 2)} {m : Nat} (h0 : 1 ≤ m) (h1 : m < 1 + k) :
    broydenBody alpha beta ⟨k + 2, x⟩ (filled alpha beta x m) m = .ok (filled alpha beta x (m + 1)) := by
  obtain ⟨i, rfl⟩ : ∃ i, m = i + 1 := ⟨m - 1, by omega⟩
  unfold broydenBody
  rw [get_ok (v := filled alpha beta x (i + 1)) (i := i + 1 - 1) (show i + 1 - 1 < k + 2 by omega),
    get_ok (v := ⟨k + 2, x⟩) (i := i + 1) (show i + 1 < k + 2 by omega),
    get_ok (v := ⟨k + 2, x⟩) (i := i + 1 + 1) (show i + 1 + 1 < k + 2 by omega)]
  simp only [bind, Except.bind]
  rw [put_ok (show i + 1 < k + 2 by omega)]
  congr 1
  unfold filled
  congr 1
  funext j
  by_cases hj : j.val = i + 1
  · obtain ⟨j, hlt⟩ := j
    cases hj
    simp only [if_true, Nat.add_sub_cancel, Nat.lt_succ_self]
    rw [TestCases.broydenAt, dif_pos (show i + 1 < k + 1 by omega)]
  · simp only [hj, if_false]
    by_cases hlt : j.val < i + 1
    · rw [if_pos hlt, if_pos (by omega)]
    · rw [if_neg hlt, if_neg (by omega)]

theorem broyden_ok (alpha beta : F) (x : Vec F (k + 2)) :
    broyden alpha beta ⟨k + 2, x⟩ = .ok ⟨k + 2, TestCases.broyden alpha beta x⟩ := by
  unfold broyden
  rw [get_ok (v := ⟨k + 2, x⟩) (i := 0) (show 0 < k + 2 by omega),
    get_ok (v := ⟨k + 2, x⟩) (i := 1) (show 1 < k + 2 by omega)]
  simp only [bind, Except.bind]
  rw [put_ok (v := zeros (k + 2)) (show 0 < k + 2 by omega)]
  have hstart : (⟨(zeros (k + 2) : DVec F).len, fun j => if j.val = 0 then
      Scalar.neg (Scalar.dec 3 0 +ᶠ alpha *ᶠ x ⟨0, by omega⟩) *ᶠ x ⟨0, by omega⟩ +ᶠ
        Scalar.two *ᶠ x ⟨1, by omega⟩ -ᶠ beta
      else (zeros (k + 2) : DVec F).val j⟩ : DVec F) = filled alpha beta x 1 := by
    unfold filled
    change DVec.mk (k + 2) _ = _
    congr 1
    funext j
    by_cases hj : j.val = 0
    · obtain ⟨j, hlt⟩ := j
      cases hj
      rfl
    · rw [if_neg hj, if_neg (by omega)]
      rfl
  rw [hstart]
  simp only [Nat.add_sub_cancel]
  rw [loop_range' _ (filled alpha beta x) k 1 fun i h0 h1 => filled_step h0 h1]
  simp only
  rw [get_ok (v := filled alpha beta x (1 + k)) (i := k) (show k < k + 2 by omega),
    get_ok (v := ⟨k + 2, x⟩) (i := k + 2 - 1) (show k + 2 - 1 < k + 2 by omega)]
  simp only
  rw [put_ok (show k + 2 - 1 < k + 2 by omega)]
  congr 1
  refine vec_ext (n := k + 2) fun j hlt => ?_
  simp only [filled, TestCases.broyden, show k + 2 - 1 = k + 1 from rfl]
  by_cases hj : j = k + 1
  · subst hj
    rw [if_pos rfl, if_pos (by omega)]
    conv_rhs => rw [TestCases.broydenAt, dif_neg (by omega)]
  · rw [if_neg hj, if_pos (by omega)]

/-- The matrix whose first `m` rows are computed. -/
def rows (alpha : F) (x : Vec F (k + 2)) (m : Nat) : DMat F :=
  ⟨k + 2, fun i j => if i.val < m then TestCases.broydenJacAt alpha x i i.2 j else Scalar.zero⟩

/-- Row `m` is set; the row above is added in its first `p` entries. -/
def adding (alpha : F) (x : Vec F (k + 2)) (m : Nat) (hm : m < k + 2) (p : Nat) : DMat F :=
  ⟨k + 2, fun i j => if i.val < m then TestCases.broydenJacAt alpha x i i.2 j
    else if i.val = m then
      if j.val < p then TestCases.broydenJacAt alpha x m hm j
      else if j.val = m then slope alpha (x ⟨m, hm⟩)
      else if j.val = m + 1 then Scalar.two else Scalar.zero
    else Scalar.zero⟩

theorem adding_step {alpha : F} {x : Vec F (k + 2)} {m : Nat} {hm : m + 1 < k + 2} {p : Nat} (hp : p < k + 2) :
    addAbove (m + 1) (adding alpha x (m + 1) hm p) p = .ok (adding alpha x (m + 1) hm (p + 1)) := by
  unfold addAbove
  rw [getAt_ok (m := adding alpha x (m + 1) hm p) (i := m + 1 - 1) (j := p)
      (show m + 1 - 1 < k + 2 ∧ p < k + 2 by omega),
    getAt_ok (m := adding alpha x (m + 1) hm p) (i := m + 1) (j := p) (show m + 1 < k + 2 ∧ p < k + 2 by omega)]
  simp only [bind, Except.bind]
  rw [putAt_ok (show m + 1 < k + 2 ∧ p < k + 2 by omega)]
  congr 1
  refine mat_ext fun i hi' j hj' => ?_
  simp only [adding]
  by_cases hi : i = m + 1
  · subst hi
    have hil : ¬ m + 1 < m + 1 := by omega
    by_cases hj : j = p
    · subst hj
      rw [if_pos ⟨rfl, rfl⟩, if_neg hil, if_pos rfl, if_pos (Nat.lt_succ_self _)]
      simp only [lt_irrefl, if_false, if_true, Nat.add_sub_cancel, Nat.lt_succ_self]
      rfl
    · rw [if_neg (by tauto)]
      simp only [hil, if_false, if_true]
      by_cases hjp : j < p
      · rw [if_pos hjp, if_pos (by omega)]
      · rw [if_neg hjp, if_neg (show ¬ j < p + 1 by omega)]
  · rw [if_neg (by tauto)]
    simp only [hi, if_false]

theorem adding_row {alpha : F} {x : Vec F (k + 2)} {m : Nat} {hm : m + 1 < k + 2} :
    (List.range (k + 2)).foldlM (addAbove (m + 1)) (adding alpha x (m + 1) hm 0) =
      .ok (rows alpha x (m + 2)) := by
  rw [List.range_eq_range', loop_range' _ (adding alpha x (m + 1) hm) (k + 2) 0
    fun i _ h => adding_step (by omega)]
  congr 1
  refine mat_ext fun i hi' j hj' => ?_
  dsimp only
  by_cases hi : i < m + 1
  · rw [if_pos hi, if_pos (by omega)]
  · rw [if_neg hi]
    by_cases he : i = m + 1
    · subst he
      rw [if_pos rfl, if_pos (by omega), if_pos (by omega)]
    · rw [if_neg he, if_neg (by omega)]

theorem rows_step {alpha : F} {x : Vec F (k + 2)} {m : Nat} (h0 : 1 ≤ m) (h1 : m < 1 + k) :
    broydenJacBody alpha ⟨k + 2, x⟩ (rows alpha x m) m = .ok (rows alpha x (m + 1)) := by
  obtain ⟨i, rfl⟩ : ∃ i, m = i + 1 := ⟨m - 1, by omega⟩
  unfold broydenJacBody
  rw [get_ok (v := ⟨k + 2, x⟩) (i := i + 1) (show i + 1 < k + 2 by omega)]
  simp only [bind, Except.bind]
  rw [putAt_ok (show i + 1 < k + 2 ∧ i + 1 < k + 2 by omega)]
  simp only
  rw [putAt_ok (show i + 1 < k + 2 ∧ i + 1 + 1 < k + 2 by omega)]
  simp only
  rw [← adding_row (hm := (by omega : i + 1 < k + 2))]
  congr 1
  unfold rows adding
  congr 1
  funext a b
  by_cases ha : a.val = i + 1
  · have : ¬ a.val < i + 1 := by omega
    simp only [ha, true_and, lt_irrefl, if_false, if_true, Nat.not_lt_zero]
    by_cases hb : b.val = i + 1
    · rw [if_neg (by omega), if_pos hb, if_pos hb]
    · rw [if_neg hb, if_neg hb]
  · simp only [ha, false_and, if_false]

theorem broydenJac_ok (alpha : F) (x : Vec F (k + 2)) :
    broydenJac alpha ⟨k + 2, x⟩ = .ok ⟨k + 2, TestCases.broydenJac alpha x⟩ := by
  unfold broydenJac
  rw [get_ok (v := ⟨k + 2, x⟩) (i := 0) (show 0 < k + 2 by omega)]
  simp only [bind, Except.bind]
  rw [putAt_ok (m := zerosAt (k + 2)) (show 0 < k + 2 ∧ 0 < k + 2 by omega)]
  simp only
  rw [putAt_ok (show 0 < k + 2 ∧ 1 < k + 2 by omega)]
  simp only
  have hstart : (⟨(zerosAt (k + 2) : DMat F).len, fun i' j' => if i'.val = 0 ∧ j'.val = 1 then Scalar.two
      else if i'.val = 0 ∧ j'.val = 0 then slope alpha (x ⟨0, by omega⟩)
      else (zerosAt (k + 2) : DMat F).val i' j'⟩ : DMat F) = rows alpha x 1 := by
    unfold rows
    change DMat.mk (k + 2) _ = _
    congr 1
    funext a b
    by_cases ha : a.val = 0
    · obtain ⟨a, ha'⟩ := a
      cases ha
      simp only [true_and, Nat.lt_one_iff, if_true, TestCases.broydenJacAt]
      by_cases hb : b.val = 1
      · rw [if_pos hb, if_neg (by omega), if_pos hb]
      · rw [if_neg hb]
        by_cases hb' : b.val = 0
        · rw [if_pos hb', if_pos hb']; rfl
        · rw [if_neg hb', if_neg hb', if_neg hb]; rfl
    · simp only [ha, false_and, if_false]
      rw [if_neg (by omega)]
      rfl
  rw [hstart]
  simp only [Nat.add_sub_cancel]
  rw [loop_range' _ (rows alpha x) k 1 fun i h0 h1 => rows_step h0 h1]
  simp only
  rw [get_ok (v := ⟨k + 2, x⟩) (i := k + 2 - 1) (show k + 2 - 1 < k + 2 by omega)]
  simp only
  rw [putAt_ok (show k + 2 - 1 < k + 2 ∧ k + 2 - 1 < k + 2 by omega)]
  simp only
  have hlast : (⟨(rows alpha x (1 + k)).len, fun i' j' => if i'.val = k + 2 - 1 ∧ j'.val = k + 2 - 1 then
      slope alpha (x ⟨k + 2 - 1, by omega⟩) else (rows alpha x (1 + k)).val i' j'⟩ : DMat F) =
      adding alpha x (k + 1) (by omega) 0 := by
    refine mat_ext (n := k + 2) fun a ha' b hb' => ?_
    simp only [rows]
    by_cases ha : a = k + 1
    · subst ha
      simp only [show k + 2 - 1 = k + 1 from rfl, true_and, lt_irrefl, if_false, if_true, Nat.not_lt_zero]
      by_cases hb : b = k + 1
      · rw [if_pos hb, if_pos hb]
      · rw [if_neg hb, if_neg hb, if_neg (by omega), if_neg (by omega)]
    · have : a < k + 1 := by omega
      simp only [show k + 2 - 1 = k + 1 from rfl, ha, false_and, if_false]
      rw [if_pos (by omega), if_pos this]
  rw [hlast, show k + 2 - 1 = k + 1 from rfl, adding_row]
  congr 1
  refine mat_ext fun a ha b hb => ?_
  rw [if_pos (show a < k + 2 from ha)]
  rfl

end Nrf.TestLoops
