import Verif.Proofs.Marks

set_option linter.unusedSectionVars false

namespace Nrf
open Spec

theorem method_filter {a b : ResolutionMethod} (h : a.text.filter (· ≠ ' ') = b.text.filter (· ≠ ' ')) :
    a.text = b.text := by
  revert h
  rcases a with _ | (_ | u | u) <;> rcases b with _ | (_ | v | v) <;> (try cases u) <;> (try cases v) <;> decide

theorem bool_filter {a b : Bool} (h : (boolText a).filter (· ≠ ' ') = (boolText b).filter (· ≠ ' ')) : a = b := by
  revert h; cases a <;> cases b <;> decide

theorem normalization_filter {a b : NormalizationMethod} (h : a.text.filter (· ≠ ' ') = b.text.filter (· ≠ ' ')) :
    a = b := by
  revert h; cases a <;> cases b <;> decide

theorem perturbation_filter {a b : PerturbationMethod} (h : a.text.filter (· ≠ ' ') = b.text.filter (· ≠ ' ')) :
    a = b := by
  revert h; cases a <;> cases b <;> decide

/-- The cells of a line: cut at the bars, without spaces. -/
def cells (t : List Char) : List (List Char) := (cut '|' t).map (List.filter (· ≠ ' '))

theorem cells_cell {w : Nat} {t : List Char} (h : '|' ∉ t) (u : List Char) :
    cells (' ' :: (pad w t ++ '|' :: u)) = t.filter (· ≠ ' ') :: cells u := by
  have h' : '|' ∉ ' ' :: pad w t := by
    intro hm
    rcases List.mem_cons.1 hm with hm | hm
    · exact absurd hm (by decide)
    · exact bar_pad h hm
  unfold cells
  rw [← List.cons_append, cut_append _ h', List.map_cons, List.filter_cons_of_neg (by decide), filter_pad]

theorem cells_bar (u : List Char) : cells ('|' :: u) = [] :: cells u := by
  unfold cells; rw [show '|' :: u = [] ++ '|' :: u from rfl, cut_append _ (by simp)]; rfl

theorem cells_nil : cells [] = [[]] := rfl

/-- Rows with a line after each are determined. -/
theorem flatMap_pairs {α : Type} {s : List Char} {f : α → List Char} : ∀ {xs ys : List α},
    (xs.flatMap fun a => [f a, s]) = (ys.flatMap fun a => [f a, s]) → xs.map f = ys.map f
  | [], [], _ => rfl
  | [], y :: ys, h => by simp at h
  | x :: xs, [], h => by simp at h
  | x :: xs, y :: ys, h => by
    simp only [List.flatMap_cons, List.cons_append, List.nil_append, List.cons.injEq, true_and] at h
    rw [List.map_cons, List.map_cons, h.1, flatMap_pairs h.2]

section
variable {F : Type} {n : Nat} {num : F → List Char}

theorem row_cells (hnum : PlainNum num) (p : SolverParameters F) : cells (p.row num) =
    [[], natText p.problemSize, natText p.maxIter, num p.tolerance, (boolText p.damping).filter (· ≠ ' '),
      p.method.text.filter (· ≠ ' '), []] := by
  unfold SolverParameters.row
  rw [show lit "| " = ['|', ' '] from rfl, show lit "|" = ['|'] from rfl]
  simp only [List.append_assoc, List.cons_append, List.nil_append]
  rw [cells_bar, cells_cell (natText_plain _).2.1, cells_cell (natText_plain _).2.1, cells_cell (hnum _).2.1,
    cells_cell (bool_bar _), cells_cell (method_bar _), cells_nil, filter_plain (natText_plain _),
    filter_plain (natText_plain _), filter_plain (hnum _)]

theorem params_cells (hnum : PlainNum num) (p : IterativeParams F) (u : List Char) : cells (p.text num ++ u) =
    [num p.maxStepAbs, num p.maxStepRel, num p.minValue, num p.maxValue] ++ cells u := by
  unfold IterativeParams.text
  rw [show lit " " = [' '] from rfl, show lit "|" = ['|'] from rfl]
  simp only [List.append_assoc, List.cons_append, List.nil_append]
  rw [cells_cell (hnum _).2.1, cells_cell (hnum _).2.1, cells_cell (hnum _).2.1, cells_cell (hnum _).2.1,
    filter_plain (hnum _), filter_plain (hnum _), filter_plain (hnum _), filter_plain (hnum _)]

theorem params_text_injective (hnum : PlainNum num) (hinj : Function.Injective num) :
    Function.Injective fun p : IterativeParams F => p.text num := fun p q h => by
  have h' : cells (p.text num ++ []) = cells (q.text num ++ []) := by
    rw [List.append_nil, List.append_nil]; exact congrArg cells h
  rw [params_cells hnum, params_cells hnum] at h'
  simp only [List.cons_append, List.cons.injEq, List.nil_append, and_true] at h'
  obtain ⟨h1, h2, h3, h4⟩ := h'
  cases p; cases q
  simp only [IterativeParams.mk.injEq]
  exact ⟨hinj h1, hinj h2, hinj h3, hinj h4⟩

theorem paramsFD_text_injective (hnum : PlainNum num) (hinj : Function.Injective num) :
    Function.Injective fun p : IterativeParamsFD F => p.text num := fun p q h => by
  have key : ∀ p : IterativeParamsFD F, cells (p.text num) = [num p.iterativeParams.maxStepAbs,
      num p.iterativeParams.maxStepRel, num p.iterativeParams.minValue, num p.iterativeParams.maxValue,
      p.perturbationMethod.text.filter (· ≠ ' '), num p.dxAbs, num p.dxRel, []] := fun p => by
    unfold IterativeParamsFD.text
    simp only [List.append_assoc]
    rw [params_cells hnum, show lit " " = [' '] from rfl, show lit "|" = ['|'] from rfl]
    simp only [List.cons_append, List.nil_append]
    rw [cells_cell (by cases p.perturbationMethod <;> decide), cells_cell (hnum _).2.1, cells_cell (hnum _).2.1,
      filter_plain (hnum _), filter_plain (hnum _), cells_nil]
  have h' : cells (p.text num) = cells (q.text num) := congrArg cells h
  rw [key, key] at h'
  simp only [List.cons.injEq, and_true] at h'
  obtain ⟨h1, h2, h3, h4, h5, h6, h7⟩ := h'
  obtain ⟨⟨a1, a2, a3, a4⟩, a5, a6, a7⟩ := p
  obtain ⟨⟨b1, b2, b3, b4⟩, b5, b6, b7⟩ := q
  simp only [IterativeParamsFD.mk.injEq, IterativeParams.mk.injEq]
  exact ⟨⟨hinj h1, hinj h2, hinj h3, hinj h4⟩, perturbation_filter h5, hinj h6, hinj h7⟩

theorem residualsRow_cells (i : Nat) (a b : NormalizationMethod) : cells (residualsRow i a b) =
    [[], natText i, a.text.filter (· ≠ ' '), b.text.filter (· ≠ ' '), []] := by
  have hb : ∀ m : NormalizationMethod, '|' ∉ m.text := fun m => by cases m <;> decide
  unfold residualsRow
  rw [show lit "| " = ['|', ' '] from rfl, show lit "|" = ['|'] from rfl]
  simp only [List.append_assoc, List.cons_append, List.nil_append]
  rw [cells_bar, cells_cell (natText_plain _).2.1, cells_cell (hb _), cells_cell (hb _), cells_nil,
    filter_plain (natText_plain _)]

/-- The three parts of the configuration text are determined by it. -/
theorem config_parts (hnum : PlainNum num) {p p' : SolverParameters F} {fd : Bool} {ts ts' : List (List Char)}
    (hts : ∀ t ∈ ts, '\n' ∉ t) (hts' : ∀ t ∈ ts', '\n' ∉ t) (hlen : ts.length = ts'.length) {res res' : ResConf n}
    (h : p.text num ++ iterativesText fd ts ++ res.text = p'.text num ++ iterativesText fd ts' ++ res'.text) :
    p.row num = p'.row num ∧ ts = ts' ∧ res = res' := by
  rw [parameters_lines, iteratives_lines, residuals_lines, parameters_lines, iteratives_lines, residuals_lines,
    ← unl_append, ← unl_append, ← unl_append, ← unl_append] at h
  have nl : ∀ {p : SolverParameters F} {ts : List (List Char)} {res : ResConf n}, (∀ t ∈ ts, '\n' ∉ t) →
      ∀ l ∈ parameterLines num p ++ iterativeLines fd ts ++ residualLines res, '\n' ∉ l := fun hts l hl =>
    ((((parameters_quiet hnum _).append (iteratives_quiet fd hts)).append (residuals_quiet _)) l hl).1
  have h2 : parameterLines num p ++ iterativeLines fd ts ++ residualLines res =
      parameterLines num p' ++ iterativeLines fd ts' ++ residualLines res' := by
    have := congrArg (cut '\n') h
    rw [← List.append_nil (unl _), ← List.append_nil (unl (_ ++ residualLines res')), cut_unl (nl hts),
      cut_unl (nl hts')] at this
    exact List.append_cancel_right this
  have zlen : ∀ xs : List (List Char × Nat), (xs.flatMap fun q => [iterativesRow q.2 q.1, iterativesSeparation fd]).length =
      2 * xs.length := by
    intro xs
    induction xs with
    | nil => rfl
    | cons a xs ih => rw [List.flatMap_cons, List.length_append, ih]; simp; omega
  have hl1 : (parameterLines num p).length = (parameterLines num p').length := rfl
  have hl2 : (iterativeLines fd ts).length = (iterativeLines fd ts').length := by
    unfold iterativeLines
    simp [zlen, hlen]
  obtain ⟨h12, h3⟩ := List.append_inj h2 (by rw [List.length_append, List.length_append, hl1, hl2])
  obtain ⟨h1, h2⟩ := List.append_inj h12 hl1
  refine ⟨?_, ?_, ?_⟩
  · unfold parameterLines at h1
    simp only [List.cons.injEq] at h1
    exact h1.2.2.2.2.2.2.1
  · unfold iterativeLines at h2
    have h4 := List.append_cancel_left (List.append_cancel_right h2)
    have h5 := flatMap_pairs (f := fun q : List Char × Nat => iterativesRow q.2 q.1) h4
    refine List.ext_getElem hlen fun i hi hi' => ?_
    have h6 := congrArg (fun l => l[i]?) h5
    simp only [List.getElem?_map, List.getElem?_zipIdx, List.getElem?_eq_getElem hi, List.getElem?_eq_getElem hi',
      Option.map_some, Option.some.injEq] at h6
    unfold iterativesRow at h6
    exact List.append_cancel_left h6
  · unfold residualLines at h3
    have h4 := List.append_cancel_left (List.append_cancel_right h3)
    have h5 : ∀ i : Fin n, residualsRow i.val (res.stop i) (res.upd i) = residualsRow i.val (res'.stop i) (res'.upd i) := by
      have e : ∀ r : ResConf n, ((List.finRange n).flatMap fun (i : Fin n) => [residualsRow i.val (r.stop i) (r.upd i)]) =
          (List.finRange n).map fun (i : Fin n) => residualsRow i.val (r.stop i) (r.upd i) := fun r =>
        List.map_eq_flatMap.symm
      rw [e, e] at h4
      exact fun i => List.map_inj_left.1 h4 i (List.mem_finRange i)
    have h6 : ∀ i, res.stop i = res'.stop i ∧ res.upd i = res'.upd i := fun i => by
      have := congrArg cells (h5 i)
      rw [residualsRow_cells, residualsRow_cells] at this
      simp only [List.cons.injEq, and_true, true_and] at this
      exact ⟨normalization_filter this.1, normalization_filter this.2⟩
    cases res; cases res'
    simp only [ResConf.mk.injEq]
    exact ⟨funext fun i => (h6 i).1, funext fun i => (h6 i).2⟩

end
end Nrf
