import Verif.Proofs.FloatArith
import Verif.Model.Residuals

/-!
# `amax` in floating point
-/

set_option linter.unusedSectionVars false

namespace Nrf
open Fl
variable {K : Type} [Field K] [LinearOrder K] [Rounding K] [IsStrictOrderedRing K]

theorem foldl_simdMax {l : List (Fl K)} : ∀ {a : Fl K}, a ≠ .nan → (∀ b ∈ l, b ≠ .nan) →
    leb a (l.foldl (fun a b => simdMax a (Scalar.abs b)) a) = true ∧
    ∀ b ∈ l, leb (Fl.abs b) (l.foldl (fun a b => simdMax a (Scalar.abs b)) a) = true := by
  induction l with
  | nil => intro a ha _; exact ⟨leb_refl ha, by simp⟩
  | cons x l ih =>
    intro a ha hl
    have hx : x ≠ .nan := hl x (by simp)
    have hax := abs_not_nan hx
    have hm : simdMax a (Scalar.abs x) ≠ .nan := by
      unfold simdMax; split
      · exact ha
      · exact hax
    have h1 : leb a (simdMax a (Scalar.abs x)) = true := by
      unfold simdMax; split
      · exact leb_refl ha
      · rename_i h; exact (leb_total ha hax).resolve_right h
    have h2 : leb (Fl.abs x) (simdMax a (Scalar.abs x)) = true := by
      unfold simdMax; split
      · rename_i h; exact h
      · exact leb_refl hax
    obtain ⟨i1, i2⟩ := ih hm (fun b hb => hl b (by simp [hb]))
    refine ⟨leb_trans h1 i1, fun b hb => ?_⟩
    rcases List.mem_cons.1 hb with rfl | hb
    · exact leb_trans h2 i1
    · exact i2 b hb

/-- Without NaN, `amax` is above every absolute value. -/
theorem fl_abs_le_amax {n : Nat} (v : Vec (Fl K) n) (hv : ∀ i, v i ≠ .nan) (i : Fin n) :
    leb (Fl.abs (v i)) (amax v) = true := by
  unfold amax
  have hmem : ∀ b, b ∈ List.ofFn v ↔ ∃ i, v i = b := fun b => by simp [List.mem_ofFn]
  rcases hl : List.ofFn v with _ | ⟨x, l⟩
  · have := (hmem (v i)).2 ⟨i, rfl⟩
    rw [hl] at this
    exact absurd this (by simp)
  · have hnn : ∀ b ∈ x :: l, b ≠ .nan := by
      intro b hb
      rw [← hl] at hb
      obtain ⟨j, rfl⟩ := (hmem b).1 hb
      exact hv j
    obtain ⟨h1, h2⟩ := foldl_simdMax (l := l) (abs_not_nan (hnn x (by simp)))
      (fun b hb => hnn b (by simp [hb]))
    have := (hmem (v i)).2 ⟨i, rfl⟩
    rw [hl] at this
    rcases List.mem_cons.1 this with h | h
    · rw [h]; exact h1
    · exact h2 _ h

theorem foldl_simdMax_nan {l : List (Fl K)} (hl : ∀ b ∈ l, b = .nan) :
    l.foldl (fun a b => simdMax a (Scalar.abs b)) .nan = .nan := by
  induction l with
  | nil => rfl
  | cons x l ih =>
    rw [List.foldl_cons, hl x (by simp)]
    exact ih (fun b hb => hl b (by simp [hb]))

/-- `amax` of a non-empty vector of NaN is NaN. -/
theorem fl_amax_nan {n : Nat} (v : Vec (Fl K) n) (hn : n ≠ 0) (hv : ∀ i, v i = .nan) :
    amax v = .nan := by
  unfold amax
  have hmem : ∀ b, b ∈ List.ofFn v ↔ ∃ i, v i = b := fun b => by simp [List.mem_ofFn]
  rcases hl : List.ofFn v with _ | ⟨x, l⟩
  · have : (List.ofFn v).length = n := List.length_ofFn
    rw [hl] at this
    exact absurd this.symm hn
  · have hnn : ∀ b ∈ x :: l, b = .nan := by
      intro b hb
      rw [← hl] at hb
      obtain ⟨j, rfl⟩ := (hmem b).1 hb
      exact hv j
    change l.foldl (fun a b => simdMax a (Scalar.abs b)) (Fl.abs x) = .nan
    rw [hnn x (by simp)]
    exact foldl_simdMax_nan (fun b hb => hnn b (by simp [hb]))

end Nrf
