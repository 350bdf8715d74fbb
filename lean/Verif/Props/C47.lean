import Verif.Proofs.Xml
import Verif.Spec.DemoXml

/-!
# C47: XML defaults and overrides

`Spec.Document` (in `Spec/XmlSpec.lean`) says what a document means, one equation per
attribute.  The parsers return exactly the configurations described by it.
-/

namespace Nrf

/-- The finite-difference parser returns `cfg` exactly when the document describes
`cfg`. -/
theorem C47_finite_diff {F : Type} [Scalar F] (parseF : String → Option F) (root : Element)
    (cfg : ParsedConfig F (IterativeParamsFD F)) :
    fromXmlFiniteDiff parseF root = .ok cfg ↔
      Spec.Document parseF (Spec.LimitsFd parseF) root cfg :=
  fromXmlFiniteDiff_ok

/-- The analytic-Jacobian parser returns `cfg` exactly when the document describes
`cfg`. -/
theorem C47_jacobian {F : Type} [Scalar F] (parseF : String → Option F) (root : Element)
    (cfg : ParsedConfig F (IterativeParams F)) :
    fromXmlJacobian parseF root = .ok cfg ↔ Spec.Document parseF (Spec.Limits parseF) root cfg :=
  fromXmlJacobian_ok

/-- The value of one attribute of a child: its own if it has one, else that of the
group. -/
def Spec.Attribute {α : Type} (parse : String → Option α) (group node : Element) (key : String)
    (x : α) : Prop :=
  (∀ v, node.attr key = some v → parse v = some x) ∧
    (node.attr key = none → ∃ v, group.attr key = some v ∧ parse v = some x)

theorem Spec.Attribute.of_inherited {α : Type} {parse : String → Option α}
    {group node : Element} {key : String} {x : α}
    (h : Spec.inherited parse group node key = some x) :
    Spec.Attribute parse group node key x := by
  unfold Spec.inherited at h
  constructor
  · intro v hv
    rw [hv, Option.some_or, Option.bind_some] at h
    exact h
  · intro hn
    rw [hn, Option.none_or] at h
    exact Option.bind_eq_some_iff.1 h

/-- Each attribute of iterative `k` is its own or that of the group, whatever the other
attributes are. -/
theorem C47_iterative {F : Type} [Scalar F] (parseF : String → Option F) (root : Element)
    (cfg : ParsedConfig F (IterativeParamsFD F)) (h : fromXmlFiniteDiff parseF root = .ok cfg)
    (group node : Element) (k : Nat) (hg : root.children[1]? = some group)
    (hk : group.children[k]? = some node) :
    ∃ p, cfg.iteratives[k]? = some p ∧
      Spec.Attribute parseF group node "min_value" p.iterativeParams.minValue ∧
      Spec.Attribute parseF group node "max_value" p.iterativeParams.maxValue ∧
      Spec.Attribute parseF group node "max_step_abs" p.iterativeParams.maxStepAbs ∧
      Spec.Attribute parseF group node "max_step_rel" p.iterativeParams.maxStepRel ∧
      Spec.Attribute parseF group node "dx_abs" p.dxAbs ∧
      Spec.Attribute parseF group node "dx_rel" p.dxRel ∧
      Spec.Attribute perturbationOfTag group node "perturbation_method" p.perturbationMethod := by
  obtain ⟨-, s, it, r, rest, hc, -, -, -, -, ⟨-, -, hl, hd⟩, -⟩ := fromXmlFiniteDiff_ok.1 h
  rw [hc] at hg
  cases hg
  have hlt : k < cfg.iteratives.length := by
    rw [hl]
    exact (List.getElem?_eq_some_iff.1 hk).1
  have hp := hd k node _ hk (List.getElem?_eq_getElem hlt)
  exact ⟨_, List.getElem?_eq_getElem hlt, .of_inherited hp.limits.minValue,
    .of_inherited hp.limits.maxValue, .of_inherited hp.limits.maxStepAbs,
    .of_inherited hp.limits.maxStepRel, .of_inherited hp.dxAbs, .of_inherited hp.dxRel,
    .of_inherited hp.perturbationMethod⟩

/-- The same for the parser without finite differences. -/
theorem C47_iterative_jacobian {F : Type} [Scalar F] (parseF : String → Option F)
    (root : Element) (cfg : ParsedConfig F (IterativeParams F))
    (h : fromXmlJacobian parseF root = .ok cfg)
    (group node : Element) (k : Nat) (hg : root.children[1]? = some group)
    (hk : group.children[k]? = some node) :
    ∃ p, cfg.iteratives[k]? = some p ∧
      Spec.Attribute parseF group node "min_value" p.minValue ∧
      Spec.Attribute parseF group node "max_value" p.maxValue ∧
      Spec.Attribute parseF group node "max_step_abs" p.maxStepAbs ∧
      Spec.Attribute parseF group node "max_step_rel" p.maxStepRel := by
  obtain ⟨-, s, it, r, rest, hc, -, -, -, -, ⟨-, -, hl, hd⟩, -⟩ := fromXmlJacobian_ok.1 h
  rw [hc] at hg
  cases hg
  have hlt : k < cfg.iteratives.length := by
    rw [hl]
    exact (List.getElem?_eq_some_iff.1 hk).1
  have hp := hd k node _ hk (List.getElem?_eq_getElem hlt)
  exact ⟨_, List.getElem?_eq_getElem hlt, .of_inherited hp.minValue,
    .of_inherited hp.maxValue, .of_inherited hp.maxStepAbs, .of_inherited hp.maxStepRel⟩

/-- Each attribute of residual `k` is its own or that of the group. -/
theorem C47_residual {F : Type} [Scalar F] (parseF : String → Option F) (root : Element)
    (stop upd : List NormalizationMethod)
    (h : (∃ cfg, fromXmlFiniteDiff parseF root = .ok cfg ∧ cfg.stoppingCriterias = stop ∧
        cfg.updateMethods = upd) ∨
      ∃ cfg, fromXmlJacobian parseF root = .ok cfg ∧ cfg.stoppingCriterias = stop ∧
        cfg.updateMethods = upd)
    (group node : Element) (k : Nat) (hg : root.children[2]? = some group)
    (hk : group.children[k]? = some node) :
    ∃ a b, stop[k]? = some a ∧ upd[k]? = some b ∧
      Spec.Attribute normalizationOfTag group node "stopping_criteria" a ∧
      Spec.Attribute normalizationOfTag group node "update_method" b := by
  have key : ∀ {α : Type} {d : Element → Element → α → Prop} {cfg : ParsedConfig F α},
      Spec.Document parseF d root cfg → cfg.stoppingCriterias = stop → cfg.updateMethods = upd →
      ∃ a b, stop[k]? = some a ∧ upd[k]? = some b ∧
        Spec.Attribute normalizationOfTag group node "stopping_criteria" a ∧
        Spec.Attribute normalizationOfTag group node "update_method" b := by
    rintro α d cfg ⟨-, s, it, r, rest, hc, -, -, -, -, -, ⟨rs, ⟨-, -, hl, hd⟩, h1, h2⟩, -⟩ rfl rfl
    rw [hc] at hg
    cases hg
    have hlt : k < rs.length := by
      rw [hl]
      exact (List.getElem?_eq_some_iff.1 hk).1
    have hp := hd k node _ hk (List.getElem?_eq_getElem hlt)
    refine ⟨_, _, ?_, ?_, .of_inherited hp.stopping, .of_inherited hp.update⟩
    · rw [h1, List.getElem?_map, List.getElem?_eq_getElem hlt]; rfl
    · rw [h2, List.getElem?_map, List.getElem?_eq_getElem hlt]; rfl
  rcases h with ⟨cfg, h, h1, h2⟩ | ⟨cfg, h, h1, h2⟩
  · exact key (fromXmlFiniteDiff_ok.1 h) h1 h2
  · exact key (fromXmlJacobian_ok.1 h) h1 h2

open scoped Exact in
/-- In the demonstration document iterative 0 overrides `dx_abs` only, iterative 1
overrides the perturbation method and `max_step_abs`. -/
example : ∃ cfg, fromXmlFiniteDiff Demo.parseQ Demo.document = .ok cfg ∧
    cfg.iteratives = [ ⟨⟨100, 10, 1, 1000⟩, .Sum, 7, 5⟩, ⟨⟨20, 10, 1, 1000⟩, .Max, 4, 5⟩ ] ∧
    cfg.stoppingCriterias = [.Adapt, .Rel] ∧ cfg.updateMethods = [.Abs, .Abs] :=
  ⟨_, Demo.document_fd, rfl, rfl, rfl⟩

end Nrf
