import Verif.Proofs.Marks
import Verif.Props.C65

/-!
# C66: the tables of the log are aligned

`num` is the way numbers are written.  A column of a table is `width` characters wide; longer texts are written
in full and push what follows to the right.
-/

namespace Nrf
open Spec

/-- Iteration tables: the title fits the separation line, and a row fits it exactly when none of its numbers has
more than 30 characters (and the identifier is below a million). -/
theorem C66_iterations {F : Type} {num : F → List Char} (hnum : PlainNum num) :
    Aligned titleLine separationLine ∧
    ∀ (i : Nat) (x l r e : F), Aligned (logRow num i x l r e) separationLine ↔ i < 10 ^ 6 ∧ (num x).length ≤ 30 ∧
      (num l).length ≤ 30 ∧ (num r).length ≤ 30 ∧ (num e).length ≤ 30 := by
  refine ⟨by decide +kernel, fun i x l r e => ⟨fun h => ?_, fun ⟨hi, hx, hl, hr, he⟩ => ?_⟩⟩
  · have h1 := h.1
    rw [show separationLine.length = 140 by decide +kernel] at h1
    unfold logRow equationText at h1
    simp only [List.length_append, pad_length_eq, padLeft_length_eq] at h1
    rw [show (lit "| ").length = 2 from rfl, show (lit "  |").length = 3 from rfl,
      show (lit " = ").length = 3 from rfl] at h1
    rw [← natText_length (by decide)]
    omega
  have hi : (natText i).length ≤ 6 := (natText_length (by decide)).2 hi
  have hq : (equationText num l r).length = 63 := by
    unfold equationText
    rw [List.length_append, List.length_append, pad_length hl, padLeft_length hr]; rfl
  have hq' : (pad 30 (equationText num l r)).length = 63 := by
    unfold pad; simp [hq]
  have b1 := bar_pad (w := 6) (natText_plain i).2.1
  have b2 := bar_pad (w := 30) (hnum x).2.1
  have b3 := bar_pad (w := 30) (equation_mem hnum l r).1
  have b4 := bar_pad (w := 30) (hnum e).2.1
  refine ⟨?_, ?_⟩
  · rw [show separationLine.length = 140 by decide +kernel]
    unfold logRow
    simp only [List.length_append, pad_length hi, pad_length hx, hq', pad_length he]
    rfl
  · rw [show marks '+' separationLine = [0, 8, 40, 105, 139] by decide +kernel]
    unfold logRow marks
    simp only [List.append_assoc]
    rw [marks_bar, marks_skip b1, marks_bar, marks_skip b2, marks_bar, marks_skip b3, marks_bar, marks_skip b4,
      pad_length hi, pad_length hx, hq', pad_length he]
    rfl

/-- Table of the iteratives, without and with finite differences. -/
theorem C66_iteratives {F : Type} {num : F → List Char} (hnum : PlainNum num) :
    (∀ fd, Aligned (iterativesHeader fd) (iterativesSeparation fd)) ∧
    (∀ (i : Nat) (p : IterativeParams F), i < 10 ^ 10 → (∀ x ∈ [p.maxStepAbs, p.maxStepRel, p.minValue, p.maxValue],
      (num x).length ≤ 13) → Aligned (iterativesRow i (p.text num)) (iterativesSeparation false)) ∧
    ∀ (i : Nat) (p : IterativeParamsFD F), i < 10 ^ 10 →
      (∀ x ∈ [p.iterativeParams.maxStepAbs, p.iterativeParams.maxStepRel, p.iterativeParams.minValue,
        p.iterativeParams.maxValue, p.dxAbs, p.dxRel], (num x).length ≤ 13) →
      Aligned (iterativesRow i (p.text num)) (iterativesSeparation true) := by
  have bar : ∀ {t : List Char} (u : List Char) (k : Nat), '|' ∉ t →
      marksFrom '|' k (lit " " ++ (t ++ (lit "|" ++ u))) = (k + 1 + t.length) :: marksFrom '|' (k + 1 + t.length + 1) u := by
    intro t u k ht
    rw [marks_skip (show '|' ∉ lit " " by decide), marks_skip ht]
    rfl
  have bar' : ∀ {t : List Char} (k : Nat), '|' ∉ t →
      marksFrom '|' k (lit " " ++ (t ++ lit "|")) = [k + 1 + t.length] := by
    intro t k ht
    have := bar [] k ht
    simpa [marksFrom] using this
  have b : ∀ x, '|' ∉ pad 13 (num x) := fun x => bar_pad (hnum x).2.1
  refine ⟨fun fd => by cases fd <;> decide +kernel, fun i p hi hp => ?_, fun i p hi hp => ?_⟩
  · simp only [List.mem_cons, List.not_mem_nil, or_false, forall_eq_or_imp, forall_eq] at hp
    obtain ⟨h1, h2, h3, h4⟩ := hp
    have hi : (natText i).length ≤ 10 := (natText_length (by decide)).2 hi
    have bi := bar_pad (w := 10) (natText_plain i).2.1
    refine ⟨?_, ?_⟩
    · rw [show (iterativesSeparation false).length = 73 by decide +kernel]
      unfold iterativesRow IterativeParams.text
      simp only [List.length_append, pad_length hi, pad_length h1, pad_length h2, pad_length h3, pad_length h4]
      rfl
    · rw [show marks '+' (iterativesSeparation false) = [0, 12, 27, 42, 57, 72] by decide +kernel]
      unfold iterativesRow IterativeParams.text marks
      simp only [List.append_assoc]
      rw [marks_bar, marks_skip bi, marksFrom_append, marks_end, bar _ _ (b _), bar _ _ (b _), bar _ _ (b _),
        bar' _ (b _), pad_length hi, pad_length h1, pad_length h2, pad_length h3, pad_length h4]
      rfl
  · simp only [List.mem_cons, List.not_mem_nil, or_false, forall_eq_or_imp, forall_eq] at hp
    obtain ⟨h1, h2, h3, h4, h5, h6⟩ := hp
    have hi : (natText i).length ≤ 10 := (natText_length (by decide)).2 hi
    have bi := bar_pad (w := 10) (natText_plain i).2.1
    have hm : p.perturbationMethod.text.length ≤ 16 := by cases p.perturbationMethod <;> decide
    have bm : '|' ∉ pad 16 p.perturbationMethod.text := bar_pad (by cases p.perturbationMethod <;> decide)
    refine ⟨?_, ?_⟩
    · rw [show (iterativesSeparation true).length = 121 by decide +kernel]
      unfold iterativesRow IterativeParamsFD.text IterativeParams.text
      simp only [List.length_append, pad_length hi, pad_length h1, pad_length h2, pad_length h3, pad_length h4,
        pad_length h5, pad_length h6, pad_length hm]
      rfl
    · rw [show marks '+' (iterativesSeparation true) = [0, 12, 27, 42, 57, 72, 90, 105, 120] by decide +kernel]
      unfold iterativesRow IterativeParamsFD.text IterativeParams.text marks
      simp only [List.append_assoc]
      rw [marks_bar, marks_skip bi, marksFrom_append, marks_end, bar _ _ (b _), bar _ _ (b _), bar _ _ (b _),
        bar _ _ (b _), bar _ _ bm, bar _ _ (b _), bar' _ (b _), pad_length hi, pad_length h1, pad_length h2,
        pad_length h3, pad_length h4, pad_length h5, pad_length h6, pad_length hm]
      rfl

/-- Table of the residuals: header and rows fit the separation line, for all methods. -/
theorem C66_residuals : Aligned residualsHeader residualsSeparation ∧
    ∀ (i : Nat) (stop upd : NormalizationMethod), i < 10 ^ 18 → Aligned (residualsRow i stop upd) residualsSeparation := by
  refine ⟨by decide +kernel, fun i stop upd hi => ?_⟩
  have hi : (natText i).length ≤ 18 := (natText_length (by decide)).2 hi
  have hm : ∀ m : NormalizationMethod, m.text.length ≤ 25 := fun m => by cases m <;> decide
  have bm : ∀ m : NormalizationMethod, '|' ∉ pad 25 m.text := fun m => bar_pad (by cases m <;> decide)
  have bi := bar_pad (w := 18) (natText_plain i).2.1
  refine ⟨?_, ?_⟩
  · rw [show residualsSeparation.length = 75 by decide +kernel]
    unfold residualsRow
    simp only [List.length_append, pad_length hi, pad_length (hm _)]
    rfl
  · rw [show marks '+' residualsSeparation = [0, 20, 47, 74] by decide +kernel]
    unfold residualsRow marks
    simp only [List.append_assoc]
    rw [marks_bar, marks_skip bi, marks_bar, marks_skip (bm _), marks_bar, marks_skip (bm _), marks_end,
      pad_length hi, pad_length (hm _), pad_length (hm _)]

/-- **C66 fails for the table of the solver parameters.** The header fits the separation line, but no row ever
does: the second column is one character too wide. -/
theorem C66_parameters_refuted {F : Type} {num : F → List Char} :
    Aligned parametersHeader parametersSeparation ∧
    ∀ p : SolverParameters F, ¬ Aligned (p.row num) parametersSeparation := by
  refine ⟨by decide +kernel, fun p h => ?_⟩
  have h2 := h.2
  rw [show marks '+' parametersSeparation = [0, 17, 35, 53, 74, 96] by decide +kernel] at h2
  unfold SolverParameters.row marks at h2
  simp only [List.append_assoc] at h2
  have l1 := pad_length_ge 15 (natText p.problemSize)
  have l2 := pad_length_ge 17 (natText p.maxIter)
  rw [marks_bar, marks_skip (bar_pad (natText_plain _).2.1), marks_bar, marks_skip (bar_pad (natText_plain _).2.1),
    marks_bar] at h2
  simp only [List.cons.injEq] at h2
  omega

/-- What holds of the parameters: when the texts are short enough the row is as long as the separation line, with
as many bars; only the third bar is off, by one. -/
theorem C66_parameters_partial {F : Type} {num : F → List Char} (hnum : PlainNum num) (p : SolverParameters F)
    (h1 : p.problemSize < 10 ^ 15) (h2 : p.maxIter < 10 ^ 17) (h3 : (num p.tolerance).length ≤ 15)
    (h4 : p.method = .NewtonRaphson) :
    (p.row num).length = parametersSeparation.length ∧ marks '|' (p.row num) = [0, 17, 36, 53, 74, 96] := by
  have h1 : (natText p.problemSize).length ≤ 15 := (natText_length (by decide)).2 h1
  have h2 : (natText p.maxIter).length ≤ 17 := (natText_length (by decide)).2 h2
  have h5 : (boolText p.damping).length ≤ 19 := by cases p.damping <;> decide
  have h6 : p.method.text.length ≤ 20 := by rw [h4]; decide
  refine ⟨?_, ?_⟩
  · rw [show parametersSeparation.length = 97 by decide +kernel]
    unfold SolverParameters.row
    simp only [List.length_append, pad_length h1, pad_length h2, pad_length h3, pad_length h5, pad_length h6]
    rfl
  · unfold SolverParameters.row marks
    simp only [List.append_assoc]
    rw [marks_bar, marks_skip (bar_pad (natText_plain _).2.1), marks_bar, marks_skip (bar_pad (natText_plain _).2.1),
      marks_bar, marks_skip (bar_pad (hnum _).2.1), marks_bar, marks_skip (bar_pad (bool_bar _)), marks_bar,
      marks_skip (bar_pad (method_bar _)), marks_end,
      pad_length h1, pad_length h2, pad_length h3, pad_length h5, pad_length h6]

/-- With a quasi-Newton method the row is always longer than the table. -/
theorem C66_quasi_newton_overflows {F : Type} {num : F → List Char} (p : SolverParameters F) (q : QuasiNewtonMethod)
    (h : p.method = .QuasiNewton q) : parametersSeparation.length + 40 < (p.row num).length := by
  have hq : 62 ≤ p.method.text.length := by
    rw [h]
    rcases q with _ | m | m
    · decide
    · cases m <;> decide
    · cases m <;> decide
  rw [show parametersSeparation.length = 97 by decide +kernel]
  unfold SolverParameters.row
  simp only [List.length_append, pad_length_eq]
  rw [show (lit "| ").length = 2 from rfl]
  omega

/-- Rows that fit, and a long number that does not. -/
example : Aligned (logRow Demo.ratText 3 (1 / 3) (-5 / 7) 12 0) separationLine ∧
    ¬ Aligned (logRow Demo.ratText 3 (1 / 3) (-5 / 7) 12 (1 / 10 ^ 40)) separationLine := by
  decide +kernel

example : Aligned (iterativesRow 12 (Demo.wide.text Demo.ratText)) (iterativesSeparation true) :=
  (C66_iteratives Demo.ratText_plain).2.2 12 Demo.wide (by decide) (by decide +kernel)

example : (Demo.cfg .NewtonRaphson true 50 (1 / 100) 1).params.row Demo.ratText =
    lit "| 1              | 50               | 1/100          | true               | Newton-Raphson      |" := by
  decide +kernel

end Nrf
