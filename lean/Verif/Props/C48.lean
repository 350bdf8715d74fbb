import Verif.Proofs.XmlText
import Verif.Spec.DemoXml

/-!
# C48: XML nodes must be numbered consecutively from 0
-/

namespace Nrf

/-- The text of an `id`: an optional plus sign and the decimal digits of `k`, leading
zeros allowed. -/
def Spec.IsDecimal (s : String) (k : Nat) : Prop :=
  ∃ ds : List Char, (s.toList = ds ∨ s.toList = '+' :: ds) ∧ ds ≠ [] ∧
    (∀ c ∈ ds, c.isDigit = true) ∧ k = Nat.ofDigitChars 10 ds 0

theorem Spec.Numbered.decimal {name : String} {nodes : List Element}
    (h : Spec.Numbered name nodes) (k : Nat) (node : Element) (hk : nodes[k]? = some node) :
    ∃ v, node.attr "id" = some v ∧ Spec.IsDecimal v k := by
  obtain ⟨v, hv, hp⟩ := Option.bind_eq_some_iff.1 (h k node hk).2
  obtain ⟨ds, h1, h2, h3, h4, -⟩ := parseUsize_some.1 hp
  exact ⟨v, hv, ds, h1, h2, h3, h4⟩

/-- If either parser accepts a document, child `k` of its second and of its third element
carries the id `k`. -/
theorem C48_numbered {F : Type} [Scalar F] (parseF : String → Option F) (root : Element)
    (h : (∃ cfg, fromXmlFiniteDiff parseF root = .ok cfg) ∨
      ∃ cfg, fromXmlJacobian parseF root = .ok cfg)
    (j : Nat) (hj : j = 1 ∨ j = 2) (group node : Element) (k : Nat)
    (hg : root.children[j]? = some group) (hk : group.children[k]? = some node) :
    ∃ v, node.attr "id" = some v ∧ Spec.IsDecimal v k := by
  have key : ∀ {α : Type} {d : Element → Element → α → Prop} {cfg : ParsedConfig F α},
      Spec.Document parseF d root cfg → ∃ v, node.attr "id" = some v ∧ Spec.IsDecimal v k := by
    rintro α d cfg ⟨-, s, it, r, rest, hc, -, -, -, -, ⟨-, hn, -⟩, ⟨rs, ⟨-, hn', -⟩, -⟩, -⟩
    rw [hc] at hg
    rcases hj with rfl | rfl
    · cases hg
      exact hn.decimal k node hk
    · cases hg
      exact hn'.decimal k node hk
  rcases h with ⟨cfg, h⟩ | ⟨cfg, h⟩
  · exact key (fromXmlFiniteDiff_ok.1 h)
  · exact key (fromXmlJacobian_ok.1 h)

/-- The ids are read as decimal `usize`: every decimal text of a number below `2^64`, and
nothing else. -/
theorem C48_ids (s : String) (k : Nat) :
    parseUsize s = some k ↔ Spec.IsDecimal s k ∧ k < 2 ^ 64 := by
  rw [parseUsize_some]
  constructor
  · rintro ⟨ds, h1, h2, h3, h4, h5⟩
    exact ⟨⟨ds, h1, h2, h3, h4⟩, h5⟩
  · rintro ⟨⟨ds, h1, h2, h3, h4⟩, h5⟩
    exact ⟨ds, h1, h2, h3, h4, h5⟩

open scoped Exact in
/-- The demonstration document is accepted; with the ids of its iteratives exchanged it is
rejected. -/
example : (∃ cfg, fromXmlFiniteDiff Demo.parseQ Demo.document = .ok cfg) ∧
    fromXmlFiniteDiff Demo.parseQ (.mk "nrf" []
      [Demo.document.children[0], .mk "iteratives" Demo.document.children[1].attrs
        [.mk "iterative" [("id", "1")] [], .mk "iterative" [("id", "0")] []],
        Demo.document.children[2]]) = .error (.idOrder 1 0) :=
  ⟨⟨_, Demo.document_fd⟩, rfl⟩

end Nrf
