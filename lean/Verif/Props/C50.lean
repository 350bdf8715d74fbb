import Verif.Proofs.Xml
import Verif.Spec.DemoXml

/-!
# C50: resolution method tags are a bijection
-/

namespace Nrf

/-- The tags listed in the message of `xml_parser/node_solver.rs`, with the methods they
name. -/
def Spec.methodTags : List (String × ResolutionMethod) :=
  [("NR", .NewtonRaphson), ("SN", .QuasiNewton .StationaryNewton),
    ("BROY1", .QuasiNewton (.JacobianUpdate .BroydenFirst)),
    ("BROY1_INV", .QuasiNewton (.InverseJacobianUpdate .BroydenFirst)),
    ("BROY2", .QuasiNewton (.JacobianUpdate .BroydenSecond)),
    ("BROY2_INV", .QuasiNewton (.InverseJacobianUpdate .BroydenSecond)),
    ("GRST1", .QuasiNewton (.JacobianUpdate .GreenstadtFirst)),
    ("GRST1_INV", .QuasiNewton (.InverseJacobianUpdate .GreenstadtFirst)),
    ("GRST2", .QuasiNewton (.JacobianUpdate .GreenstadtSecond)),
    ("GRST2_INV", .QuasiNewton (.InverseJacobianUpdate .GreenstadtSecond))]

/-- Exactly the documented tags are accepted, each selecting its method. -/
theorem C50_tags (tag : String) (m : ResolutionMethod) :
    methodOfTag tag = some m ↔ (tag, m) ∈ Spec.methodTags := by
  constructor
  · intro h
    unfold methodOfTag at h
    split at h <;> first | cases h | skip
    all_goals simp [Spec.methodTags]
  · intro h
    simp only [Spec.methodTags, List.mem_cons, Prod.mk.injEq, List.not_mem_nil, or_false] at h
    rcases h with ⟨rfl, rfl⟩ | ⟨rfl, rfl⟩ | ⟨rfl, rfl⟩ | ⟨rfl, rfl⟩ | ⟨rfl, rfl⟩ | ⟨rfl, rfl⟩ |
      ⟨rfl, rfl⟩ | ⟨rfl, rfl⟩ | ⟨rfl, rfl⟩ | ⟨rfl, rfl⟩ <;> rfl

/-- Every method has exactly one tag. -/
theorem C50_bijection (m : ResolutionMethod) : ∃! tag, methodOfTag tag = some m := by
  simp only [C50_tags]
  rcases m with _ | _ | u | u
  · exact ⟨"NR", by simp [Spec.methodTags], by simp [Spec.methodTags]⟩
  · exact ⟨"SN", by simp [Spec.methodTags], by simp [Spec.methodTags]⟩
  · cases u
    · exact ⟨"BROY1", by simp [Spec.methodTags], by simp [Spec.methodTags]⟩
    · exact ⟨"BROY2", by simp [Spec.methodTags], by simp [Spec.methodTags]⟩
    · exact ⟨"GRST1", by simp [Spec.methodTags], by simp [Spec.methodTags]⟩
    · exact ⟨"GRST2", by simp [Spec.methodTags], by simp [Spec.methodTags]⟩
  · cases u
    · exact ⟨"BROY1_INV", by simp [Spec.methodTags], by simp [Spec.methodTags]⟩
    · exact ⟨"BROY2_INV", by simp [Spec.methodTags], by simp [Spec.methodTags]⟩
    · exact ⟨"GRST1_INV", by simp [Spec.methodTags], by simp [Spec.methodTags]⟩
    · exact ⟨"GRST2_INV", by simp [Spec.methodTags], by simp [Spec.methodTags]⟩

/-- A returned configuration has the method of its tag, and damping exactly when the
document says `true`; any other text than `true` or `false` is rejected. -/
theorem C50_solver_node {F : Type} [Scalar F] (parseF : String → Option F) (root : Element)
    (p : SolverParameters F)
    (h : (∃ cfg, fromXmlFiniteDiff parseF root = .ok cfg ∧ cfg.params = p) ∨
      ∃ cfg, fromXmlJacobian parseF root = .ok cfg ∧ cfg.params = p)
    (node : Element) (hn : root.children[0]? = some node) :
    (∃ tag, node.attr "resolution_method" = some tag ∧ (tag, p.method) ∈ Spec.methodTags) ∧
    (node.attr "damping" = none ∧ p.damping = false ∨
      node.attr "damping" = some "false" ∧ p.damping = false ∨
      node.attr "damping" = some "true" ∧ p.damping = true) := by
  have key : ∀ {α : Type} {d : Element → Element → α → Prop} {cfg : ParsedConfig F α},
      Spec.Document parseF d root cfg → cfg.params = p →
      (∃ tag, node.attr "resolution_method" = some tag ∧ (tag, p.method) ∈ Spec.methodTags) ∧
      (node.attr "damping" = none ∧ p.damping = false ∨
        node.attr "damping" = some "false" ∧ p.damping = false ∨
        node.attr "damping" = some "true" ∧ p.damping = true) := by
    rintro α d cfg ⟨-, s, it, r, rest, hc, -, -, -, hp, -⟩ rfl
    rw [hc] at hn
    cases hn
    constructor
    · obtain ⟨tag, h1, h2⟩ := Option.bind_eq_some_iff.1 hp.method
      exact ⟨tag, h1, (C50_tags _ _).1 h2⟩
    · have hd := hp.damping
      cases ha : node.attr "damping" with
      | none =>
        rw [ha, Option.none_or, Option.bind_some, show parseBool "false" = some false from rfl] at hd
        exact .inl ⟨rfl, (Option.some.inj hd).symm⟩
      | some v =>
        rw [ha, Option.some_or, Option.bind_some] at hd
        unfold parseBool at hd
        split at hd
        · rename_i hv
          subst hv
          exact .inr (.inr ⟨rfl, (Option.some.inj hd).symm⟩)
        · split at hd
          · rename_i hv
            subst hv
            exact .inr (.inl ⟨rfl, (Option.some.inj hd).symm⟩)
          · cases hd
  rcases h with ⟨cfg, h, h1⟩ | ⟨cfg, h, h1⟩
  · exact key (fromXmlFiniteDiff_ok.1 h) h1
  · exact key (fromXmlJacobian_ok.1 h) h1

/-- A document whose solver node has any other tag is rejected by both parsers. -/
theorem C50_other_tags {F : Type} [Scalar F] (parseF : String → Option F) (root node : Element)
    (hn : root.children[0]? = some node) (tag : String) (ht : node.attr "resolution_method" = some tag)
    (h : ∀ m, (tag, m) ∉ Spec.methodTags) :
    (∀ cfg, fromXmlFiniteDiff parseF root ≠ .ok cfg) ∧ ∀ cfg, fromXmlJacobian parseF root ≠ .ok cfg := by
  constructor
  · intro cfg hc
    obtain ⟨⟨t, h1, h2⟩, -⟩ := C50_solver_node parseF root cfg.params (.inl ⟨cfg, hc, rfl⟩) node hn
    rw [ht] at h1
    cases h1
    exact h _ h2
  · intro cfg hc
    obtain ⟨⟨t, h1, h2⟩, -⟩ := C50_solver_node parseF root cfg.params (.inr ⟨cfg, hc, rfl⟩) node hn
    rw [ht] at h1
    cases h1
    exact h _ h2

/-- The solver node of the example in the documentation of `from_xml_jacobian` (`xml_parser/xml_file_jac.rs` L50-57): every
document with this tag is rejected. -/
theorem C50_documented_example {F : Type} [Scalar F] (parseF : String → Option F) (root node : Element)
    (hn : root.children[0]? = some node) (ht : node.attr "resolution_method" = some "NewtonRaphson") :
    (∀ cfg, fromXmlFiniteDiff parseF root ≠ .ok cfg) ∧ ∀ cfg, fromXmlJacobian parseF root ≠ .ok cfg :=
  C50_other_tags parseF root node hn _ ht (by simp [Spec.methodTags])

/-- The documented node is such a node. -/
example : ∃ root node : Element, root.children[0]? = some node ∧ node.attr "resolution_method" = some "NewtonRaphson" ∧
    node.attr "problem_size" = some "2" :=
  ⟨⟨"nrf", [], [⟨"solver", [("problem_size", "2"), ("max_iter", "60"), ("tolerance", "1e-6"), ("damping", "true"),
    ("resolution_method", "NewtonRaphson")], []⟩, ⟨"iteratives", [], []⟩, ⟨"residuals", [], []⟩]⟩, _, rfl, rfl, rfl⟩

open scoped Exact in
/-- The demonstration document selects the second Broyden method without damping. -/
example : ∃ cfg, fromXmlFiniteDiff Demo.parseQ Demo.document = .ok cfg ∧
    cfg.params.method = .QuasiNewton (.InverseJacobianUpdate .BroydenSecond) ∧
    cfg.params.damping = false :=
  ⟨_, Demo.document_fd, rfl, rfl⟩

end Nrf
