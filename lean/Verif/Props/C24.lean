import Verif.Props.C22

/-!
# C24: pure relative or pure absolute perturbations
-/

namespace Nrf

/-- The documentation of `compute_perturbation` allows `dx_abs = 0` or `dx_rel = 0`; both
constructors reject them, whatever the other arguments, in floating point. -/
theorem C24_refuted {K : Type} [Field K] [LinearOrder K] [Rounding K] [IsStrictOrderedRing K]
    (a b lo hi d z : Fl K) (hz : ∃ s, z = .zero s) (q : IterativeParams (Fl K))
    (meth : PerturbationMethod) :
    (∀ p, IterativeParamsFD.new a b lo hi z d meth ≠ .ok p) ∧
    (∀ p, IterativeParamsFD.new a b lo hi d z meth ≠ .ok p) ∧
    (∀ p, IterativeParamsFD.extend q z d meth ≠ .ok p) ∧
    (∀ p, IterativeParamsFD.extend q d z meth ≠ .ok p) := by
  obtain ⟨s, rfl⟩ := hz
  refine ⟨fun p h => ?_, fun p h => ?_, fun p h => ?_, fun p h => ?_⟩
  · obtain ⟨h1, -⟩ := paramsFd_new_eq_ok.1 h; cases h1
  · obtain ⟨-, h1, -⟩ := paramsFd_new_eq_ok.1 h; cases h1
  · obtain ⟨h1, -⟩ := paramsFd_extend_eq_ok.1 h; cases h1
  · obtain ⟨-, h1, -⟩ := paramsFd_extend_eq_ok.1 h; cases h1

open scoped Exact in
/-- The same in exact arithmetic. -/
theorem C24_refuted_exact {K : Type} [Field K] [LinearOrder K] (a b lo hi d : K)
    (meth : PerturbationMethod) :
    (∀ p, IterativeParamsFD.new a b lo hi 0 d meth ≠ .ok p) ∧
    (∀ p, IterativeParamsFD.new a b lo hi d 0 meth ≠ .ok p) := by
  constructor <;> intro p h
  · obtain ⟨-, -, -, h1, -⟩ := (C22_exact a b lo hi 0 d meth).2.1 ⟨p, h⟩
    exact lt_irrefl _ h1
  · obtain ⟨-, -, -, -, h1⟩ := (C22_exact a b lo hi d 0 meth).2.1 ⟨p, h⟩
    exact lt_irrefl _ h1

open scoped Exact in
/-- What can be configured: with `Max`, the perturbation is purely relative where `dx_abs` is at
most `dx_rel * |x|` and purely absolute elsewhere.  The property asks for this everywhere, through
a zero parameter. -/
theorem C24_max_partial {K : Type} [Field K] [LinearOrder K] (p : IterativeParamsFD K)
    (hm : p.perturbationMethod = .Max) (x : K) :
    (p.dxAbs ≤ p.dxRel * |x| → p.computePerturbation x = p.dxRel * |x|) ∧
    (p.dxRel * |x| ≤ p.dxAbs → p.computePerturbation x = p.dxAbs) := by
  unfold IterativeParamsFD.computePerturbation
  rw [hm]
  simp only [ex_max, ex_abs, ex_mul, mul_comm |x|]
  exact ⟨max_eq_right, max_eq_left⟩

/-- Zeros of both signs are `f64` values. -/
example : ∃ z : F64, ∃ s, z = .zero s := ⟨.zero true, true, rfl⟩

end Nrf
