import Verif.Model.Equality
import Verif.Proofs.Float
import Verif.Proofs.Limits

/-!
# Facts about the equality of floats
-/

set_option linter.unusedSectionVars false

namespace Nrf
variable {K : Type} [Field K] [LinearOrder K] [Rounding K] [IsStrictOrderedRing K]

namespace Spec

/-- The same float, up to the sign of a zero. -/
inductive SameUpToZero : Fl K → Fl K → Prop
  | refl (a) : SameUpToZero a a
  | zero (s t) : SameUpToZero (.zero s) (.zero t)

/-- All the numbers of a setting. -/
def numbers (p : IterativeParams (Fl K)) : List (Fl K) := [p.maxStepAbs, p.maxStepRel, p.minValue, p.maxValue]

/-- All the numbers of a setting with finite differences. -/
def numbersFd (p : IterativeParamsFD (Fl K)) : List (Fl K) := numbers p.iterativeParams ++ [p.dxAbs, p.dxRel]

end Spec
open Spec

namespace Fl

theorem eqb_iff_le {a b : Fl K} : eqb a b = true ↔ leb a b = true ∧ leb b a = true := by
  rcases a with _ | s | s | ⟨x, hx⟩ <;> rcases b with _ | t | t | ⟨y, hy⟩ <;> simp [eqb, leb] <;>
    first
      | done
      | exact fun h => h.le
      | exact le_antisymm_iff
      | (cases s <;> cases t <;> simp; done)
      | (cases s <;> simp; done)
      | (cases t <;> simp; done)

theorem eqb_iff_same {a b : Fl K} : eqb a b = true ↔ a ≠ .nan ∧ SameUpToZero a b := by
  constructor
  · intro h
    rcases a with _ | s | s | ⟨x, hx⟩ <;> rcases b with _ | t | t | ⟨y, hy⟩ <;> simp [eqb] at h ⊢
    · subst h; exact .refl _
    · exact .zero _ _
    · subst h; exact .refl _
  · rintro ⟨h, h'⟩
    cases h' with
    | refl => cases a <;> simp_all [eqb]
    | zero => rfl

theorem eqb_symm (a b : Fl K) : eqb a b = eqb b a := by
  rw [Bool.eq_iff_iff, eqb_iff_le, eqb_iff_le, and_comm]

theorem eqb_trans {a b c : Fl K} (h1 : eqb a b = true) (h2 : eqb b c = true) : eqb a c = true := by
  rw [eqb_iff_le] at *
  exact ⟨leb_trans h1.1 h2.1, leb_trans h2.2 h1.2⟩

theorem eqb_self {a : Fl K} : eqb a a = true ↔ a ≠ .nan := by
  rw [eqb_iff_same]
  exact ⟨And.left, fun h => ⟨h, .refl _⟩⟩

theorem same_ltb {a b c d : Fl K} (h1 : SameUpToZero a b) (h2 : SameUpToZero c d) : ltb a c = ltb b d := by
  cases h1 <;> cases h2 <;> first | rfl | (cases a <;> rfl) | (cases c <;> rfl)

theorem same_max {a b c d : Fl K} (h1 : SameUpToZero a b) (h2 : SameUpToZero c d) :
    SameUpToZero (max a c) (max b d) := by
  by_cases ha : a = .nan
  · subst ha; cases h1; rwa [max_nan_left, max_nan_left]
  by_cases hc : c = .nan
  · subst hc; cases h2; rwa [max_nan_right, max_nan_right]
  have hb : b ≠ .nan := by cases h1 <;> simp_all
  have hd : d ≠ .nan := by cases h2 <;> simp_all
  rw [max_eq ha hc, max_eq hb hd, same_ltb h1 h2]
  split <;> assumption

theorem same_min {a b c d : Fl K} (h1 : SameUpToZero a b) (h2 : SameUpToZero c d) :
    SameUpToZero (min a c) (min b d) := by
  by_cases ha : a = .nan
  · subst ha; cases h1; rwa [min_nan_left, min_nan_left]
  by_cases hc : c = .nan
  · subst hc; cases h2; rwa [min_nan_right, min_nan_right]
  have hb : b ≠ .nan := by cases h1 <;> simp_all
  have hd : d ≠ .nan := by cases h2 <;> simp_all
  rw [min_eq ha hc, min_eq hb hd, same_ltb h2 h1]
  split <;> assumption

theorem same_of_not_le_zero {a b : Fl K} (h : SameUpToZero a b) (hp : leb a (.zero false) = false) : b = a := by
  cases h with
  | refl => rfl
  | zero s t => simp [leb] at hp

end Fl

theorem params_eqb {p q : IterativeParams (Fl K)} : p.eqb q = true ↔
    Fl.eqb p.maxStepAbs q.maxStepAbs = true ∧ Fl.eqb p.maxStepRel q.maxStepRel = true ∧
    Fl.eqb p.minValue q.minValue = true ∧ Fl.eqb p.maxValue q.maxValue = true := by
  simp [IterativeParams.eqb, and_assoc]

theorem perturbationMethod_eqb {a b : PerturbationMethod} : a.eqb b = true ↔ a = b := by
  cases a <;> cases b <;> simp [PerturbationMethod.eqb]

theorem paramsFd_eqb {p q : IterativeParamsFD (Fl K)} : p.eqb q = true ↔
    p.iterativeParams.eqb q.iterativeParams = true ∧ p.perturbationMethod = q.perturbationMethod ∧
    Fl.eqb p.dxAbs q.dxAbs = true ∧ Fl.eqb p.dxRel q.dxRel = true := by
  simp [IterativeParamsFD.eqb, and_assoc, perturbationMethod_eqb]

theorem updateMethod_eqb {a b : UpdateMethod} : a.eqb b = true ↔ a = b := by
  cases a <;> cases b <;> simp [UpdateMethod.eqb]

theorem quasiNewtonMethod_eqb {a b : QuasiNewtonMethod} : a.eqb b = true ↔ a = b := by
  cases a <;> cases b <;> simp [QuasiNewtonMethod.eqb, updateMethod_eqb]

theorem resolutionMethod_eqb {a b : ResolutionMethod} : a.eqb b = true ↔ a = b := by
  cases a <;> cases b <;> simp [ResolutionMethod.eqb, quasiNewtonMethod_eqb]

theorem normalizationMethod_eqb {a b : NormalizationMethod} : a.eqb b = true ↔ a = b := by
  cases a <;> cases b <;> simp [NormalizationMethod.eqb]

theorem sliceEqb_iff {α : Type} {eq : α → α → Bool} {l m : List α} :
    sliceEqb eq l m = true ↔ List.Forall₂ (fun a b => eq a b = true) l m := by
  induction l generalizing m with
  | nil => cases m <;> simp [sliceEqb]
  | cons a l ih => cases m <;> simp [sliceEqb, ih]

theorem residualConfig_eqb {a b : ResidualConfig} : a.eqb b = true ↔ a = b := by
  cases a; cases b; simp [ResidualConfig.eqb, normalizationMethod_eqb]

theorem residualsConfig_eqb {a b : ResidualsConfig} : a.eqb b = true ↔ a = b := by
  cases a; cases b
  simp [ResidualsConfig.eqb, sliceEqb_iff, normalizationMethod_eqb, List.forall₂_eq_eq_eq, and_assoc]

end Nrf
