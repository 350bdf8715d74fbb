import Verif.Proofs.Equality
import Verif.Props.C87

/-!
# C112: the equality (`==`) of the settings
-/

set_option linter.unusedSectionVars false

namespace Nrf

open Spec

section
variable {K : Type} [Field K] [LinearOrder K] [Rounding K] [IsStrictOrderedRing K]

/-- Two settings are equal exactly when every number of the one is at most and at least the corresponding number of the
other (and the method of perturbation is the same); that is, no number is NaN and the numbers are the same up to the sign
of a zero.  Sequences of settings are compared element by element, and sequences of different lengths differ. -/
theorem C112_equal :
    (∀ p q : IterativeParams (Fl K), p.eqb q = true ↔
      List.Forall₂ (fun a b => Scalar.le a b = true ∧ Scalar.le b a = true) (numbers p) (numbers q)) ∧
    (∀ p q : IterativeParamsFD (Fl K), p.eqb q = true ↔ p.perturbationMethod = q.perturbationMethod ∧
      List.Forall₂ (fun a b => Scalar.le a b = true ∧ Scalar.le b a = true) (numbersFd p) (numbersFd q)) ∧
    (∀ p q : IterativeParamsFD (Fl K), p.eqb q = true ↔ p.perturbationMethod = q.perturbationMethod ∧
      List.Forall₂ (fun a b => a ≠ .nan ∧ SameUpToZero a b) (numbersFd p) (numbersFd q)) ∧
    (∀ l m : List (IterativeParamsFD (Fl K)), sliceEqb IterativeParamsFD.eqb l m = true ↔
      List.Forall₂ (fun p q => p.eqb q = true) l m) := by
  refine ⟨fun p q => ?_, fun p q => ?_, fun p q => ?_, fun _ _ => sliceEqb_iff⟩
  · simp only [params_eqb, numbers, List.forall₂_cons, List.forall₂_nil_left_iff, and_true, Fl.eqb_iff_le, fl_le]
  · simp only [paramsFd_eqb, params_eqb, numbersFd, numbers, List.cons_append, List.nil_append, List.forall₂_cons,
      List.forall₂_nil_left_iff, and_true, Fl.eqb_iff_le, fl_le]
    tauto
  · simp only [paramsFd_eqb, params_eqb, numbersFd, numbers, List.cons_append, List.nil_append, List.forall₂_cons,
      List.forall₂_nil_left_iff, and_true, Fl.eqb_iff_same]
    tauto

/-- The equality is symmetric and transitive, and a setting is equal to itself exactly when no number of it is NaN. -/
theorem C112_relation :
    (∀ p q : IterativeParamsFD (Fl K), p.eqb q = q.eqb p) ∧
    (∀ p q r : IterativeParamsFD (Fl K), p.eqb q = true → q.eqb r = true → p.eqb r = true) ∧
    (∀ p : IterativeParamsFD (Fl K), p.eqb p = true ↔ Fl.nan ∉ numbersFd p) ∧
    (∀ p q : IterativeParams (Fl K), p.eqb q = q.eqb p) ∧
    (∀ p q r : IterativeParams (Fl K), p.eqb q = true → q.eqb r = true → p.eqb r = true) ∧
    (∀ p : IterativeParams (Fl K), p.eqb p = true ↔ Fl.nan ∉ numbers p) := by
  have hs : ∀ p q : IterativeParams (Fl K), p.eqb q = q.eqb p := fun p q => by
    simp only [IterativeParams.eqb, Fl.eqb_symm (K := K) p.maxStepAbs, Fl.eqb_symm (K := K) p.maxStepRel,
      Fl.eqb_symm (K := K) p.minValue, Fl.eqb_symm (K := K) p.maxValue]
  have ht : ∀ p q r : IterativeParams (Fl K), p.eqb q = true → q.eqb r = true → p.eqb r = true := by
    intro p q r h1 h2
    rw [params_eqb] at *
    exact ⟨Fl.eqb_trans h1.1 h2.1, Fl.eqb_trans h1.2.1 h2.2.1, Fl.eqb_trans h1.2.2.1 h2.2.2.1,
      Fl.eqb_trans h1.2.2.2 h2.2.2.2⟩
  refine ⟨fun p q => ?_, fun p q r h1 h2 => ?_, fun p => ?_, hs, ht, fun p => ?_⟩
  · rw [Bool.eq_iff_iff, paramsFd_eqb, paramsFd_eqb, hs, Fl.eqb_symm p.dxAbs, Fl.eqb_symm p.dxRel,
      eq_comm (a := p.perturbationMethod)]
  · rw [paramsFd_eqb] at *
    exact ⟨ht _ _ _ h1.1 h2.1, h1.2.1.trans h2.2.1, Fl.eqb_trans h1.2.2.1 h2.2.2.1, Fl.eqb_trans h1.2.2.2 h2.2.2.2⟩
  · simp only [paramsFd_eqb, params_eqb, Fl.eqb_self, numbersFd, numbers, List.cons_append, List.nil_append, List.mem_cons,
      List.not_mem_nil, or_false, not_or, ne_eq, true_and, eq_comm (a := (Fl.nan : Fl K))]
    tauto
  · simp only [params_eqb, Fl.eqb_self, numbers, List.mem_cons, List.not_mem_nil, or_false, not_or, ne_eq,
      eq_comm (a := (Fl.nan : Fl K))]

/-- Accepted settings that are equal treat every iterate alike, up to the sign of a zero of the result: the perturbations
are identical, the limited steps are identical or two zeros.  If no bound is zero the settings are identical. -/
theorem C112_behaviour_partial {a b lo hi dxa dxr : Fl K} {m : PerturbationMethod} {p q : IterativeParamsFD (Fl K)}
    (hp : IterativeParamsFD.new a b lo hi dxa dxr m = .ok p) (h : p.eqb q = true) :
    (∀ x, p.computePerturbation x = q.computePerturbation x) ∧
    (∀ x r, SameUpToZero (p.iterativeParams.stepLimitation x r) (q.iterativeParams.stepLimitation x r)) ∧
    ((∀ s, lo ≠ .zero s) → (∀ s, hi ≠ .zero s) → p = q) := by
  obtain ⟨h1, h2, w, hw, rfl⟩ := paramsFd_new_eq_ok.1 hp
  obtain ⟨h3, h4, -, rfl⟩ := params_new_eq_ok.1 hw
  obtain ⟨⟨a', b', lo', hi'⟩, m', dxa', dxr'⟩ := q
  obtain ⟨hq, hm, ha, hr⟩ := paramsFd_eqb.1 h
  obtain ⟨hq1, hq2, hq3, hq4⟩ := params_eqb.1 hq
  simp only [Fl.eqb_iff_same] at ha hr hq1 hq2 hq3 hq4
  obtain rfl := Fl.same_of_not_le_zero ha.2 h1
  obtain rfl := Fl.same_of_not_le_zero hr.2 h2
  obtain rfl := Fl.same_of_not_le_zero hq1.2 h3
  obtain rfl := Fl.same_of_not_le_zero hq2.2 h4
  subst hm
  refine ⟨fun x => rfl, fun x r => ?_, fun hl hh => ?_⟩
  · exact Fl.same_min (Fl.same_max (.refl _) hq3.2) hq4.2
  · rcases hq3.2 with _ | ⟨s, t⟩
    · rcases hq4.2 with _ | ⟨s, t⟩
      · rfl
      · exact absurd rfl (hh s)
    · exact absurd rfl (hl s)

end

/-- The equality of the methods and of the configurations of the residuals is identity. -/
theorem C112_methods :
    (∀ a b : ResolutionMethod, a.eqb b = true ↔ a = b) ∧ (∀ a b : QuasiNewtonMethod, a.eqb b = true ↔ a = b) ∧
    (∀ a b : UpdateMethod, a.eqb b = true ↔ a = b) ∧ (∀ a b : PerturbationMethod, a.eqb b = true ↔ a = b) ∧
    (∀ a b : NormalizationMethod, a.eqb b = true ↔ a = b) ∧ (∀ a b : ResidualConfig, a.eqb b = true ↔ a = b) ∧
    (∀ a b : ResidualsConfig, a.eqb b = true ↔ a = b) :=
  ⟨fun _ _ => resolutionMethod_eqb, fun _ _ => quasiNewtonMethod_eqb, fun _ _ => updateMethod_eqb,
    fun _ _ => perturbationMethod_eqb, fun _ _ => normalizationMethod_eqb, fun _ _ => residualConfig_eqb,
    fun _ _ => residualsConfig_eqb⟩

/-- The constructor accepts NaN, so an accepted setting may differ from itself and from its clone. -/
theorem C112_self_refuted : ∃ p : IterativeParamsFD F64,
    (∃ a b lo hi dxa dxr m, IterativeParamsFD.new a b lo hi dxa dxr m = .ok p) ∧ p.eqb p = false :=
  ⟨⟨⟨.nan, Fl.one, .inf true, .inf false⟩, .Max, Fl.one, Fl.one⟩,
    ⟨_, _, _, _, _, _, _, paramsFd_new_eq_ok.2 ⟨by decide +kernel, by decide +kernel, _,
      params_new_eq_ok.2 ⟨by decide +kernel, by decide +kernel, by decide +kernel, rfl⟩, rfl⟩⟩, by decide +kernel⟩

namespace Demo64

/-- A setting whose lower bound is a zero. -/
def fromZero (s : Bool) : IterativeParams F64 := ⟨.inf false, .inf false, .zero s, .inf false⟩

/-- `max(1/x, 0)` with a slope of 1/2. -/
def overZero : UserModel F64 1 Empty Empty (AdapterState F64 1) :=
  fromFunctionAndJacobian (fun x _ => Scalar.max (Scalar.div Scalar.one (x 0)) Scalar.zero) (fun _ _ _ => ofRat (1 / 2))

/-- From the guess `1`, five iterations. -/
def zeroCfg (s : Bool) : Config F64 1 :=
  { cfg 5 with guess := fun _ => Fl.one, la := nalgebraLinAlg F64 1, iters := fun _ => (fromZero s).toIterative }

end Demo64

/-- Two accepted settings that are equal need not lead to the same outcome: `0.0 == -0.0`, and a function may tell the two
zeros apart.  The same problem converges with the one setting and ends without convergence with the other. -/
theorem C112_solve_refuted : ∃ p q : IterativeParams F64,
    (∃ a b lo hi, IterativeParams.new a b lo hi = .ok p) ∧ (∃ a b lo hi, IterativeParams.new a b lo hi = .ok q) ∧
    p.eqb q = true ∧ ∃ (c : Config F64 1) (m : UserModel F64 1 Empty Empty (AdapterState F64 1)),
      Demo.kind (solve { c with iters := fun _ => p.toIterative } m .new .new) = .ok ∧
      Demo.kind (solve { c with iters := fun _ => q.toIterative } m .new .new) = .nonConvergence := by
  refine ⟨Demo64.fromZero true, Demo64.fromZero false,
    ⟨_, _, _, _, params_new_eq_ok.2 ⟨?_, ?_, ?_, rfl⟩⟩, ⟨_, _, _, _, params_new_eq_ok.2 ⟨?_, ?_, ?_, rfl⟩⟩, ?_,
    Demo64.zeroCfg true, Demo64.overZero, ?_, ?_⟩ <;> decide +kernel

/-- Hypotheses of `C112_behaviour_partial`: accepted settings with the lower bounds `0.0` and `-0.0`, equal but not
identical; a limited step ends at the one zero or at the other. -/
example :
    (let p : Bool → IterativeParamsFD F64 := fun s => ⟨Demo64.fromZero s, .Sum, Fl.one, Fl.one⟩
    (∃ a b lo hi dxa dxr m, IterativeParamsFD.new a b lo hi dxa dxr m = .ok (p false)) ∧
    (p false).eqb (p true) = true ∧ p false ≠ p true ∧
    (p false).iterativeParams.stepLimitation Fl.one (Demo64.ofRat (-2)) = .zero false ∧
    (p true).iterativeParams.stepLimitation Fl.one (Demo64.ofRat (-2)) = .zero true) := by
  refine ⟨⟨_, _, _, _, _, _, _, paramsFd_new_eq_ok.2 ⟨?_, ?_, _, params_new_eq_ok.2 ⟨?_, ?_, ?_, rfl⟩, rfl⟩⟩,
    ?_, ?_, ?_, ?_⟩ <;> decide +kernel

/-- Hypotheses of `C112_behaviour_partial` with bounds that are not zero: the setting of the default constructor. -/
example : (∃ a b lo hi dxa dxr m, IterativeParamsFD.new a b lo hi dxa dxr m = .ok (IterativeParamsFD.default (F := F64)) ∧
      (∀ s, lo ≠ .zero s) ∧ (∀ s, hi ≠ .zero s)) ∧
    (IterativeParamsFD.default (F := F64)).eqb .default = true := by
  refine ⟨⟨_, _, _, _, _, _, _, paramsFd_new_eq_ok.2 ⟨?_, ?_, _, params_new_eq_ok.2 ⟨?_, ?_, ?_, rfl⟩, rfl⟩, ?_, ?_⟩, ?_⟩ <;>
    decide +kernel

/-- Settings that differ in one number or in the method are different, and lists of different lengths are. -/
example :
    (let p : IterativeParamsFD F64 := .default
    p.eqb { p with dxRel := Fl.one } = false ∧ p.eqb { p with perturbationMethod := .Sum } = false ∧
    sliceEqb IterativeParamsFD.eqb [p, p] [p, p] = true ∧ sliceEqb IterativeParamsFD.eqb [p, p] [p] = false) := by
  decide +kernel

end Nrf
