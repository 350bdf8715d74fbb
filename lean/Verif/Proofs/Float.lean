import Verif.Model.Float
import Mathlib.Tactic.Linarith

/-!
# Order and rounding facts about the float model
-/

set_option linter.unusedSectionVars false

namespace Nrf.Fl
variable {K : Type} [Field K] [LinearOrder K] [Rounding K] [IsStrictOrderedRing K]

theorem leb_refl {a : Fl K} (h : a ≠ .nan) : leb a a = true := by
  cases a <;> simp_all [leb]

theorem leb_trans {a b c : Fl K} (h1 : leb a b = true) (h2 : leb b c = true) : leb a c = true := by
  rcases a with _ | s | s | ⟨x, hx⟩ <;> rcases b with _ | t | t | ⟨y, hy⟩ <;>
    rcases c with _ | u | u | ⟨z, hz⟩ <;> simp_all [leb] <;>
    first
      | (rcases s with _ | _ <;> rcases t with _ | _ <;> rcases u with _ | _ <;> simp_all; done)
      | (cases s <;> cases t <;> simp_all; done)
      | linarith
      | (rcases lt_trichotomy z 0 with hh | hh | hh
         · linarith
         · exact absurd hh hz.1
         · exact hh)
      | skip

theorem leb_total {a b : Fl K} (ha : a ≠ .nan) (hb : b ≠ .nan) :
    leb a b = true ∨ leb b a = true := by
  rcases a with _ | s | s | ⟨x, hx⟩ <;> rcases b with _ | t | t | ⟨y, hy⟩ <;> simp_all [leb]
  · cases s <;> cases t <;> simp
  · exact Ne.symm hy.1
  · exact hx.1
  · exact le_total x y

theorem ltb_iff {a b : Fl K} (ha : a ≠ .nan) (hb : b ≠ .nan) :
    ltb a b = true ↔ ¬ leb b a = true := by
  rcases a with _ | s | s | ⟨x, hx⟩ <;> rcases b with _ | t | t | ⟨y, hy⟩ <;> simp_all [leb, ltb]
  · cases s <;> cases t <;> simp
  · exact ⟨le_of_lt, fun h => lt_of_le_of_ne h (Ne.symm hy.1)⟩
  · exact ⟨le_of_lt, fun h => lt_of_le_of_ne h hx.1⟩

theorem not_nan_of_leb_left {a b : Fl K} (h : leb a b = true) : a ≠ .nan := by
  rintro rfl; simp [leb] at h

theorem not_nan_of_leb_right {a b : Fl K} (h : leb a b = true) : b ≠ .nan := by
  rintro rfl; cases a <;> simp [leb] at h

theorem max_nan_left (b : Fl K) : max .nan b = b := by cases b <;> rfl
theorem max_nan_right (a : Fl K) : max a .nan = a := by cases a <;> rfl
theorem min_nan_left (b : Fl K) : min .nan b = b := by cases b <;> rfl
theorem min_nan_right (a : Fl K) : min a .nan = a := by cases a <;> rfl

theorem max_eq {a b : Fl K} (ha : a ≠ .nan) (hb : b ≠ .nan) :
    max a b = if ltb a b then b else a := by
  cases a <;> cases b <;> simp_all [max]

theorem min_eq {a b : Fl K} (ha : a ≠ .nan) (hb : b ≠ .nan) :
    min a b = if ltb b a then b else a := by
  cases a <;> cases b <;> simp_all [min]

theorem max_not_nan {a b : Fl K} (hb : b ≠ .nan) : max a b ≠ .nan := by
  by_cases ha : a = .nan
  · rw [ha, max_nan_left]; exact hb
  · rw [max_eq ha hb]; split <;> assumption

theorem min_not_nan {a b : Fl K} (hb : b ≠ .nan) : min a b ≠ .nan := by
  by_cases ha : a = .nan
  · rw [ha, min_nan_left]; exact hb
  · rw [min_eq ha hb]; split <;> assumption

theorem min_not_nan_left {a b : Fl K} (ha : a ≠ .nan) : min a b ≠ .nan := by
  by_cases hb : b = .nan
  · rw [hb, min_nan_right]; exact ha
  · exact min_not_nan hb

theorem leb_max_right {a b : Fl K} (hb : b ≠ .nan) : leb b (max a b) = true := by
  by_cases ha : a = .nan
  · rw [ha, max_nan_left]; exact leb_refl hb
  · rw [max_eq ha hb]
    split
    · exact leb_refl hb
    · rename_i h
      rw [ltb_iff ha hb, not_not] at h
      exact h

theorem min_leb_right {a b : Fl K} (hb : b ≠ .nan) : leb (min a b) b = true := by
  by_cases ha : a = .nan
  · rw [ha, min_nan_left]; exact leb_refl hb
  · rw [min_eq ha hb]
    split
    · exact leb_refl hb
    · rename_i h
      rw [ltb_iff hb ha, not_not] at h
      exact h

theorem min_leb_left {a b : Fl K} (ha : a ≠ .nan) : leb (min a b) a = true := by
  by_cases hb : b = .nan
  · rw [hb, min_nan_right]; exact leb_refl ha
  · rw [min_eq ha hb]
    split
    · rename_i h
      rw [ltb_iff hb ha] at h
      exact (leb_total ha hb).resolve_left h
    · exact leb_refl ha

theorem leb_min {a b c : Fl K} (ha : leb c a = true) (hb : leb c b = true) :
    leb c (min a b) = true := by
  rw [min_eq (not_nan_of_leb_right ha) (not_nan_of_leb_right hb)]
  split <;> assumption

theorem max_leb {a b c : Fl K} (ha : leb a c = true) (hb : leb b c = true) :
    leb (max a b) c = true := by
  rw [max_eq (not_nan_of_leb_left ha) (not_nan_of_leb_left hb)]
  split <;> assumption

/-- Clamping with `max` then `min` always lands between non-NaN bounds. -/
theorem clamp_range (v : Fl K) {lo hi : Fl K} (h : leb lo hi = true) :
    leb lo (min (max v lo) hi) = true ∧ leb (min (max v lo) hi) hi = true :=
  ⟨leb_min (leb_max_right (not_nan_of_leb_left h)) h, min_leb_right (not_nan_of_leb_right h)⟩

end Nrf.Fl
