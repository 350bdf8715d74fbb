import Verif.Proofs.Limits
import Verif.Model.Binary64

/-!
# C22: constructors reject invalid limits
-/

namespace Nrf

section
variable {K : Type} [Field K] [LinearOrder K] [Rounding K] [IsStrictOrderedRing K]

/-- The documented requirements on a parameter set. -/
def Spec.ValidLimits {F : Type} [Scalar F] (p : IterativeParams F) : Prop :=
  Scalar.lt Scalar.zero p.maxStepAbs = true ∧ Scalar.lt Scalar.zero p.maxStepRel = true ∧
  Scalar.lt p.minValue p.maxValue = true

/-- The documented requirements on a parameter set with perturbations. -/
def Spec.ValidLimitsFd {F : Type} [Scalar F] (p : IterativeParamsFD F) : Prop :=
  Spec.ValidLimits p.iterativeParams ∧ Scalar.lt Scalar.zero p.dxAbs = true ∧
  Scalar.lt Scalar.zero p.dxRel = true

/-- Floating point, arguments that are not NaN (infinities included): the constructor succeeds
exactly on the documented parameter sets, and stores them.  The property asks this of NaN
arguments as well: see `C22_refuted`. -/
theorem C22_params_partial (a b lo hi : Fl K) (ha : a ≠ .nan) (hb : b ≠ .nan) (hlo : lo ≠ .nan)
    (hhi : hi ≠ .nan) (p : IterativeParams (Fl K)) :
    IterativeParams.new a b lo hi = .ok p ↔ p = ⟨a, b, lo, hi⟩ ∧ Spec.ValidLimits p := by
  have hz : (Scalar.zero : Fl K) ≠ .nan := by simp [fl_zero]
  rw [params_new_eq_ok, fl_le_false ha hz, fl_le_false hb hz, fl_le_false hhi hlo]
  constructor
  · rintro ⟨h1, h2, h3, rfl⟩; exact ⟨rfl, h1, h2, h3⟩
  · rintro ⟨rfl, h1, h2, h3⟩; exact ⟨h1, h2, h3, rfl⟩

/-- The same for `IterativeParamsFD::new`. -/
theorem C22_params_fd_partial (a b lo hi dxa dxr : Fl K) (meth : PerturbationMethod) (ha : a ≠ .nan)
    (hb : b ≠ .nan) (hlo : lo ≠ .nan) (hhi : hi ≠ .nan) (h1 : dxa ≠ .nan) (h2 : dxr ≠ .nan)
    (p : IterativeParamsFD (Fl K)) :
    IterativeParamsFD.new a b lo hi dxa dxr meth = .ok p ↔
      p = ⟨⟨a, b, lo, hi⟩, meth, dxa, dxr⟩ ∧ Spec.ValidLimitsFd p := by
  have hz : (Scalar.zero : Fl K) ≠ .nan := by simp [fl_zero]
  rw [paramsFd_new_eq_ok, fl_le_false h1 hz, fl_le_false h2 hz]
  simp only [C22_params_partial a b lo hi ha hb hlo hhi]
  constructor
  · rintro ⟨g1, g2, q, ⟨rfl, g3⟩, rfl⟩; exact ⟨rfl, g3, g1, g2⟩
  · rintro ⟨rfl, g3, g1, g2⟩; exact ⟨g1, g2, _, ⟨rfl, g3⟩, rfl⟩

/-- The same for `IterativeParamsFD::extend`, given valid limits. -/
theorem C22_extend_partial (q : IterativeParams (Fl K)) (hq : Spec.ValidLimits q) (dxa dxr : Fl K)
    (meth : PerturbationMethod) (h1 : dxa ≠ .nan) (h2 : dxr ≠ .nan) (p : IterativeParamsFD (Fl K)) :
    IterativeParamsFD.extend q dxa dxr meth = .ok p ↔
      p = ⟨q, meth, dxa, dxr⟩ ∧ Spec.ValidLimitsFd p := by
  have hz : (Scalar.zero : Fl K) ≠ .nan := by simp [fl_zero]
  rw [paramsFd_extend_eq_ok, fl_le_false h1 hz, fl_le_false h2 hz]
  constructor
  · rintro ⟨g1, g2, rfl⟩; exact ⟨rfl, hq, g1, g2⟩
  · rintro ⟨rfl, -, g1, g2⟩; exact ⟨g1, g2, rfl⟩

/-- NaN is accepted in every position: no constructor rejects it, whatever the other arguments
(for the positions where it disables the comparison). -/
theorem C22_refuted :
    (∃ p : IterativeParams (Fl K), IterativeParams.new .nan .nan .nan .nan = .ok p ∧
      ¬ Spec.ValidLimits p) ∧
    (∃ p : IterativeParamsFD (Fl K), IterativeParamsFD.new .nan .nan .nan .nan .nan .nan .Max = .ok p ∧
      ¬ Spec.ValidLimitsFd p) ∧
    (∀ b lo hi : Fl K, Scalar.lt Scalar.zero b = true → Scalar.lt lo hi = true →
      ∃ p, IterativeParams.new .nan b lo hi = .ok p ∧ p.maxStepAbs = .nan) ∧
    (∀ a lo hi : Fl K, Scalar.lt Scalar.zero a = true → Scalar.lt lo hi = true →
      ∃ p, IterativeParams.new a .nan lo hi = .ok p ∧ p.maxStepRel = .nan) ∧
    (∀ a b hi : Fl K, Scalar.lt Scalar.zero a = true → Scalar.lt Scalar.zero b = true →
      ∃ p, IterativeParams.new a b .nan hi = .ok p ∧ p.minValue = .nan) ∧
    (∀ a b lo : Fl K, Scalar.lt Scalar.zero a = true → Scalar.lt Scalar.zero b = true →
      ∃ p, IterativeParams.new a b lo .nan = .ok p ∧ p.maxValue = .nan) := by
  have hpos : ∀ {x y : Fl K}, Scalar.lt y x = true → Scalar.le x y = false := by
    intro x y h
    have h1 : x ≠ .nan := by rintro rfl; cases y <;> simp [fl_lt, Fl.ltb] at h
    have h2 : y ≠ .nan := by rintro rfl; simp [fl_lt, Fl.ltb] at h
    exact (fl_le_false h1 h2).2 h
  have hn : ∀ x : Fl K, Scalar.le x .nan = false := by intro x; cases x <;> rfl
  have hn' : ∀ x : Fl K, Scalar.le .nan x = false := fun x => rfl
  refine ⟨⟨⟨.nan, .nan, .nan, .nan⟩, params_new_eq_ok.2 ⟨rfl, rfl, rfl, rfl⟩, ?_⟩,
    ⟨⟨⟨.nan, .nan, .nan, .nan⟩, .Max, .nan, .nan⟩,
      paramsFd_new_eq_ok.2 ⟨rfl, rfl, _, params_new_eq_ok.2 ⟨rfl, rfl, rfl, rfl⟩, rfl⟩, ?_⟩,
    ?_, ?_, ?_, ?_⟩
  · rintro ⟨h, -⟩; cases h
  · rintro ⟨-, h, -⟩; cases h
  · intro b lo hi h1 h2
    exact ⟨_, params_new_eq_ok.2 ⟨rfl, hpos h1, hpos h2, rfl⟩, rfl⟩
  · intro a lo hi h1 h2
    exact ⟨_, params_new_eq_ok.2 ⟨hpos h1, rfl, hpos h2, rfl⟩, rfl⟩
  · intro a b hi h1 h2
    exact ⟨_, params_new_eq_ok.2 ⟨hpos h1, hpos h2, hn _, rfl⟩, rfl⟩
  · intro a b lo h1 h2
    exact ⟨_, params_new_eq_ok.2 ⟨hpos h1, hpos h2, rfl, rfl⟩, rfl⟩

end

open scoped Exact in
/-- Exact arithmetic has no NaN: the constructor accepts exactly the documented sets. -/
theorem C22_exact {K : Type} [Field K] [LinearOrder K] (a b lo hi dxa dxr : K)
    (meth : PerturbationMethod) :
    ((∃ p, IterativeParams.new a b lo hi = .ok p) ↔ 0 < a ∧ 0 < b ∧ lo < hi) ∧
    ((∃ p, IterativeParamsFD.new a b lo hi dxa dxr meth = .ok p) ↔
      0 < a ∧ 0 < b ∧ lo < hi ∧ 0 < dxa ∧ 0 < dxr) := by
  simp only [paramsFd_new_eq_ok, params_new_eq_ok, ex_le_false, ex_zero]
  constructor
  · exact ⟨fun ⟨p, h1, h2, h3, _⟩ => ⟨h1, h2, h3⟩, fun ⟨h1, h2, h3⟩ => ⟨_, h1, h2, h3, rfl⟩⟩
  · exact ⟨fun ⟨p, g1, g2, q, ⟨h1, h2, h3, _⟩, _⟩ => ⟨h1, h2, h3, g1, g2⟩,
      fun ⟨h1, h2, h3, g1, g2⟩ => ⟨_, g1, g2, _, ⟨h1, h2, h3, rfl⟩, rfl⟩⟩

/-- Valid limits exist in `f64`, with an infinite bound. -/
example : Spec.ValidLimitsFd (F := F64)
    ⟨⟨Fl.one, .inf false, .inf true, Fl.two⟩, .Sum, Fl.one, Fl.one⟩ := by
  unfold Spec.ValidLimitsFd Spec.ValidLimits
  decide +kernel

end Nrf
