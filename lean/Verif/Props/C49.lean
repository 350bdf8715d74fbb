import Verif.Proofs.Xml
import Verif.Spec.DemoXml
import Mathlib.Data.List.Perm.Basic

/-!
# C49: XML parsing ignores what it does not know
-/

namespace Nrf

namespace Spec

/-- Same name and same value of every attribute in `keys`. -/
def Agree (keys : List String) (a b : Element) : Prop :=
  a.name = b.name ∧ ∀ k ∈ keys, a.attr k = b.attr k

/-- The same for a group and, in order, for its children (which also have an `id`). -/
def AgreeGroup (keys : List String) (a b : Element) : Prop :=
  Agree keys a b ∧ List.Forall₂ (Agree ("id" :: keys)) a.children b.children

/-- The attributes the parsers know. -/
def solverKeys : List String :=
  ["problem_size", "max_iter", "tolerance", "resolution_method", "damping"]
@[inherit_doc solverKeys] def iterativeKeys : List String :=
  ["min_value", "max_value", "max_step_abs", "max_step_rel", "dx_abs", "dx_rel",
    "perturbation_method"]
@[inherit_doc solverKeys] def residualKeys : List String := ["stopping_criteria", "update_method"]

/-- The two documents agree in the first three children of the root, up to unknown
attributes.  Missing children are allowed, on both sides at the same place. -/
def AgreeDocument (a b : Element) : Prop :=
  a.name = b.name ∧
  Option.Rel (Agree solverKeys) a.children[0]? b.children[0]? ∧
  Option.Rel (AgreeGroup iterativeKeys) a.children[1]? b.children[1]? ∧
  Option.Rel (AgreeGroup residualKeys) a.children[2]? b.children[2]?

end Spec

section
variable {F : Type} {parseF : String → Option F} {a b : Element}

theorem parseNumbered_agree {α : Type} {name idInfo pre : String} {keys : List String}
    {parse : Element → String → Except XmlPanic α}
    (hp : ∀ a b info, Spec.Agree keys a b → parse a info = parse b info)
    {as bs : List Element} (h : List.Forall₂ (Spec.Agree ("id" :: keys)) as bs) :
    ∀ k, parseNumbered name idInfo pre parse as k = parseNumbered name idInfo pre parse bs k := by
  induction h with
  | nil => intro k; rfl
  | @cons a b as bs hab _ ih =>
    intro k
    have hid : parseId a k idInfo = parseId b k idInfo := by
      unfold parseId parseIntAttribute
      rw [hab.2 "id" (by simp)]
    have hab' : ∀ info, parse a info = parse b info := fun info =>
      hp a b info ⟨hab.1, fun key hk => hab.2 key (List.mem_cons_of_mem _ hk)⟩
    simp only [parseNumbered, hab.1, hid, hab', ih]

theorem parseSolverNode_agree (h : Spec.Agree Spec.solverKeys a b) :
    parseSolverNode parseF a = parseSolverNode parseF b := by
  have h' := h.2
  simp only [Spec.solverKeys, List.forall_mem_cons, List.not_mem_nil, false_implies,
    implies_true, and_true] at h'
  obtain ⟨h1, h2, h3, h4, h5⟩ := h'
  simp only [parseSolverNode, parseIntAttribute, parseFloatAttribute, parseResolutionMethod,
    parseDamping, h1, h2, h3, h4, h5]

theorem parseResidualsNode_agree (h : Spec.AgreeGroup Spec.residualKeys a b) :
    parseResidualsNode a = parseResidualsNode b := by
  have h' := h.1.2
  simp only [Spec.residualKeys, List.forall_mem_cons, List.not_mem_nil, false_implies,
    implies_true, and_true] at h'
  obtain ⟨h1, h2⟩ := h'
  have hc : ∀ d x y info, Spec.Agree Spec.residualKeys x y →
      parseResidualNodeWithDefault x d info = parseResidualNodeWithDefault y d info := by
    intro d x y info hxy
    have h' := hxy.2
    simp only [Spec.residualKeys, List.forall_mem_cons, List.not_mem_nil, false_implies,
      implies_true, and_true] at h'
    obtain ⟨h1, h2⟩ := h'
    simp only [parseResidualNodeWithDefault, parseNormalizationAttributeWithDefault, h1, h2]
  unfold parseResidualsNode
  simp only [parseResidualNode, parseNormalizationAttribute, h1, h2]
  simp only [parseNumbered_agree (hc _) h.2]

variable [Scalar F]

theorem parseIterativesFdNode_agree (h : Spec.AgreeGroup Spec.iterativeKeys a b) :
    parseIterativesFdNode parseF a = parseIterativesFdNode parseF b := by
  have h' := h.1.2
  simp only [Spec.iterativeKeys, List.forall_mem_cons, List.not_mem_nil, false_implies,
    implies_true, and_true] at h'
  obtain ⟨h1, h2, h3, h4, h5, h6, h7⟩ := h'
  have hc : ∀ d x y info, Spec.Agree Spec.iterativeKeys x y →
      parseIterativeFdNodeWithDefault parseF x d info =
        parseIterativeFdNodeWithDefault parseF y d info := by
    intro d x y info hxy
    have h' := hxy.2
    simp only [Spec.iterativeKeys, List.forall_mem_cons, List.not_mem_nil, false_implies,
      implies_true, and_true] at h'
    obtain ⟨h1, h2, h3, h4, h5, h6, h7⟩ := h'
    simp only [parseIterativeFdNodeWithDefault, parseIterativeJacNodeWithDefault,
      parseFloatAttributeWithDefault, parsePerturbationMethodWithDefault, h1, h2, h3, h4, h5, h6,
      h7]
  unfold parseIterativesFdNode
  simp only [parseIterativeFdNode, parseIterativeJacNode, parseFloatAttribute,
    parsePerturbationMethod, h1, h2, h3, h4, h5, h6, h7]
  simp only [parseNumbered_agree (hc _) h.2]

theorem parseIterativesJacNode_agree (h : Spec.AgreeGroup Spec.iterativeKeys a b) :
    parseIterativesJacNode parseF a = parseIterativesJacNode parseF b := by
  have h' := h.1.2
  simp only [Spec.iterativeKeys, List.forall_mem_cons, List.not_mem_nil, false_implies,
    implies_true, and_true] at h'
  obtain ⟨h1, h2, h3, h4, -⟩ := h'
  have hc : ∀ d x y, ∀ _ : String, Spec.Agree Spec.iterativeKeys x y →
      parseIterativeJacNodeWithDefault parseF x d =
        parseIterativeJacNodeWithDefault parseF y d := by
    intro d x y _ hxy
    have h' := hxy.2
    simp only [Spec.iterativeKeys, List.forall_mem_cons, List.not_mem_nil, false_implies,
      implies_true, and_true] at h'
    obtain ⟨h1, h2, h3, h4, -⟩ := h'
    simp only [parseIterativeJacNodeWithDefault, parseFloatAttributeWithDefault, h1, h2, h3, h4]
  unfold parseIterativesJacNode
  simp only [parseIterativeJacNode, parseFloatAttribute, h1, h2, h3, h4]
  simp only [parseNumbered_agree (parse := fun child _ =>
    parseIterativeJacNodeWithDefault parseF child _) (hc _) h.2]

end

theorem parseRoot_agree {F α : Type} {parseF : String → Option F}
    {parseIteratives : Element → Except XmlPanic (List α)}
    (hi : ∀ a b, Spec.AgreeGroup Spec.iterativeKeys a b → parseIteratives a = parseIteratives b)
    {a b : Element} (h : Spec.AgreeDocument a b) :
    parseRoot parseF parseIteratives a = parseRoot parseF parseIteratives b := by
  obtain ⟨hn, h0, h1, h2⟩ := h
  unfold parseRoot
  rw [hn]
  generalize a.children = as at h0 h1 h2 ⊢
  generalize b.children = bs at h0 h1 h2 ⊢
  split
  · rfl
  rcases as with _ | ⟨a0, as⟩ <;> rcases bs with _ | ⟨b0, bs⟩
  · rfl
  · cases h0
  · cases h0
  simp only [List.getElem?_cons_zero, Option.rel_some_some] at h0
  simp only [checkNodeName, h0.1, parseSolverNode_agree h0]
  rcases as with _ | ⟨a1, as⟩ <;> rcases bs with _ | ⟨b1, bs⟩
  · rfl
  · cases h1
  · cases h1
  simp only [List.getElem?_cons_zero, List.getElem?_cons_succ, Option.rel_some_some] at h1
  simp only [h1.1.1, hi _ _ h1]
  rcases as with _ | ⟨a2, as⟩ <;> rcases bs with _ | ⟨b2, bs⟩
  · rfl
  · cases h2
  · cases h2
  simp only [List.getElem?_cons_zero, List.getElem?_cons_succ, Option.rel_some_some] at h2
  simp only [h2.1.1, parseResidualsNode_agree h2]

/-- Documents that agree on what is known have the same result, including the panic if
there is one. -/
theorem C49_same_result {F : Type} [Scalar F] (parseF : String → Option F) (a b : Element)
    (h : Spec.AgreeDocument a b) :
    fromXmlFiniteDiff parseF a = fromXmlFiniteDiff parseF b ∧
      fromXmlJacobian parseF a = fromXmlJacobian parseF b :=
  ⟨parseRoot_agree (fun _ _ => parseIterativesFdNode_agree) h,
    parseRoot_agree (fun _ _ => parseIterativesJacNode_agree) h⟩

/-- The order of the attributes is irrelevant (attribute names are distinct). -/
theorem C49_attribute_order (keys : List String) (name : String) (as bs : List (String × String))
    (children : List Element) (hp : as.Perm bs) (hd : (as.map (·.1)).Nodup) :
    Spec.Agree keys (.mk name as children) (.mk name bs children) := by
  refine ⟨rfl, fun k _ => ?_⟩
  have hd' : (bs.map (·.1)).Nodup := (hp.map _).nodup_iff.1 hd
  have key : ∀ (l : List (String × String)), (l.map (·.1)).Nodup → ∀ v,
      l.lookup k = some v ↔ (k, v) ∈ l := by
    intro l
    induction l with
    | nil => simp
    | cons x l ih =>
      intro hl v
      obtain ⟨x1, x2⟩ := x
      simp only [List.map_cons, List.nodup_cons] at hl
      rw [List.lookup_cons]
      by_cases hk : k = x1
      · subst hk
        have : ∀ w, (k, w) ∉ l := fun w hw => hl.1 (List.mem_map.2 ⟨_, hw, rfl⟩)
        simp [this, eq_comm]
      · have : (k == x1) = false := by simpa using hk
        simp [this, ih hl.2, hk]
  refine Option.ext fun v => ?_
  exact (key as hd v).trans ((hp.mem_iff).trans (key bs hd' v).symm)

/-- An unknown attribute and the elements below are irrelevant. -/
theorem C49_unknown_attribute (keys : List String) (name k v : String)
    (before after : List (String × String)) (children children' : List Element) (hk : k ∉ keys) :
    Spec.Agree keys (.mk name (before ++ (k, v) :: after) children)
      (.mk name (before ++ after) children') := by
  refine ⟨rfl, fun key hkey => ?_⟩
  have hne : (key == k) = false := by
    rw [beq_eq_false_iff_ne]
    rintro rfl
    exact hk hkey
  show (before ++ (k, v) :: after).lookup key = (before ++ after).lookup key
  induction before with
  | nil => simp [List.lookup_cons, hne]
  | cons x l ih => obtain ⟨x1, x2⟩ := x; simp only [List.cons_append, List.lookup_cons, ih]

/-- Everything after the third child of the root is irrelevant. -/
theorem C49_later_elements {F : Type} [Scalar F] (parseF : String → Option F) (name : String)
    (attrs attrs' : List (String × String)) (c1 c2 c3 : Element) (rest rest' : List Element) :
    fromXmlFiniteDiff parseF (.mk name attrs (c1 :: c2 :: c3 :: rest)) =
      fromXmlFiniteDiff parseF (.mk name attrs' (c1 :: c2 :: c3 :: rest')) ∧
    fromXmlJacobian parseF (.mk name attrs (c1 :: c2 :: c3 :: rest)) =
      fromXmlJacobian parseF (.mk name attrs' (c1 :: c2 :: c3 :: rest')) := by
  have refl : ∀ keys e, Spec.Agree keys e e := fun keys e => ⟨rfl, fun _ _ => rfl⟩
  refine C49_same_result parseF _ _ ⟨rfl, .some (refl _ _), .some ⟨refl _ _, ?_⟩,
    .some ⟨refl _ _, ?_⟩⟩ <;> exact List.forall₂_same.2 fun _ _ => refl _ _

open scoped Exact in
/-- The unknown attribute `colour` and the fourth element of the demonstration document do
not prevent the parsing. -/
example : fromXmlFiniteDiff Demo.parseQ Demo.document = .ok Demo.documentFd ∧
    Demo.document.children.length = 4 ∧
    ((Demo.document.children[1]).children[1]).attr "colour" = some "red" :=
  ⟨Demo.document_fd, rfl, rfl⟩

end Nrf
