import Verif.Proofs.Xml
import Verif.Props.C45
import Verif.Spec.DemoXml

/-!
# C46: a parsed configuration is always usable
-/

namespace Nrf

/-- What makes a parsed configuration usable: the sizes agree, `ResidualsConfig::new`
accepts its lists and `RootFinder::new` accepts it with any guess of `problem_size`
entries. -/
def Spec.Usable {F α : Type} (toIterative : α → Iterative F) (cfg : ParsedConfig F α) : Prop :=
  cfg.iteratives.length = cfg.params.problemSize ∧
  cfg.stoppingCriterias.length = cfg.params.problemSize ∧
  cfg.updateMethods.length = cfg.params.problemSize ∧
  ∃ r h, ResidualsConfig.new cfg.stoppingCriterias cfg.updateMethods = some r ∧
    ∀ (guess : List F) (la : (n : Nat) → LinAlg F n), guess.length = cfg.params.problemSize →
      ∃ c, Config.new cfg.params guess (cfg.iteratives.map toIterative) r h la = .ok c

theorem Spec.Document.usable {F α : Type} {parseF : String → Option F}
    {describes : Element → Element → α → Prop} {root : Element} {cfg : ParsedConfig F α}
    (toIterative : α → Iterative F) (h : Spec.Document parseF describes root cfg) :
    Spec.Usable toIterative cfg := by
  obtain ⟨-, _, _, _, _, -, -, -, -, -, -, ⟨rs, -, h1, h2⟩, l1, l2⟩ := h
  have l3 : cfg.updateMethods.length = cfg.params.problemSize := by
    rw [← l2, h1, h2, List.length_map, List.length_map]
  obtain ⟨r, hr, g1, g2, g3⟩ :=
    (C45_residuals_config cfg.stoppingCriterias cfg.updateMethods).1 (by omega)
  refine ⟨l1, l2, l3, r, ⟨by rw [g1, g3], by rw [g2, g3]; omega⟩, hr, fun guess la hg => ?_⟩
  rw [C45_rootfinder _ _ _ _ _ r hr]
  exact ⟨l2, l3, hg, by rw [List.length_map, l1]⟩

/-- Every numbered child is described: each element of the list passed its constructor. -/
theorem Spec.Group.all {α : Type} {describes : Element → Element → α → Prop} {name : String}
    {group : Element} {ps : List α} (h : Spec.Group describes name group ps) :
    ∀ p ∈ ps, ∃ node, node ∈ group.children ∧ describes group node p := by
  obtain ⟨-, -, h1, h2⟩ := h
  intro p hp
  obtain ⟨k, hk⟩ := List.mem_iff_getElem?.1 hp
  have hlt : k < group.children.length := by
    rw [← h1]
    exact (List.getElem?_eq_some_iff.1 hk).1
  exact ⟨group.children[k], List.getElem_mem hlt, h2 k _ p (List.getElem?_eq_getElem hlt) hk⟩

/-- Finite differences: a returned configuration is usable, and every iterative is what
its own constructors return on its fields. -/
theorem C46_finite_diff {F : Type} [Scalar F] (parseF : String → Option F) (root : Element)
    (cfg : ParsedConfig F (IterativeParamsFD F)) (h : fromXmlFiniteDiff parseF root = .ok cfg) :
    Spec.Usable IterativeParamsFD.toIterative cfg ∧
    ∀ p ∈ cfg.iteratives, IterativeParamsFD.new p.iterativeParams.maxStepAbs
      p.iterativeParams.maxStepRel p.iterativeParams.minValue p.iterativeParams.maxValue
      p.dxAbs p.dxRel p.perturbationMethod = .ok p := by
  have hd := fromXmlFiniteDiff_ok.1 h
  refine ⟨hd.usable _, fun p hp => ?_⟩
  obtain ⟨-, _, it, _, _, -, -, -, -, -, hg, -⟩ := hd
  obtain ⟨node, -, hl⟩ := hg.all p hp
  unfold IterativeParamsFD.new
  rw [hl.accepted.1, hl.accepted.2]
  simp only [Bool.false_eq_true, if_false]
  rw [iterativeParams_new_ok.2 ⟨rfl, hl.limits.accepted⟩]

/-- Analytic Jacobian: a returned configuration is usable, and every iterative is what its
own constructor returns on its fields. -/
theorem C46_jacobian {F : Type} [Scalar F] (parseF : String → Option F) (root : Element)
    (cfg : ParsedConfig F (IterativeParams F)) (h : fromXmlJacobian parseF root = .ok cfg) :
    Spec.Usable IterativeParams.toIterative cfg ∧
    ∀ p ∈ cfg.iteratives, IterativeParams.new p.maxStepAbs p.maxStepRel p.minValue p.maxValue =
      .ok p := by
  have hd := fromXmlJacobian_ok.1 h
  refine ⟨hd.usable _, fun p hp => ?_⟩
  obtain ⟨-, _, it, _, _, -, -, -, -, -, hg, -⟩ := hd
  obtain ⟨node, -, hl⟩ := hg.all p hp
  exact iterativeParams_new_ok.2 ⟨rfl, hl.accepted⟩

open scoped Exact in
/-- Both parsers return on the demonstration document. -/
example : (∃ cfg, fromXmlFiniteDiff Demo.parseQ Demo.document = .ok cfg) ∧
    ∃ cfg, fromXmlJacobian Demo.parseQ Demo.document = .ok cfg :=
  ⟨⟨_, Demo.document_fd⟩, ⟨_, Demo.document_jac⟩⟩

end Nrf
