import Verif.Proofs.XmlExact
import Verif.Props.C77
import Verif.Validate.Recorded

/-!
# C110: configuration files as texts
-/

namespace Nrf

/-- The parser reads every layout of a tree as that tree: the declaration, white space, comments, the kind of quotes,
empty-element tags and text between the tags make no difference. -/
theorem C110_layout (e : Element) (text : List Char) (h : Spec.XmlDocument e text) : XmlText.parseXml text = some e :=
  XmlText.parseXml_document h

/-- The parser reads nothing else: a text is read as a tree exactly if it lays out that tree, and is refused exactly if it
lays out no tree. -/
theorem C110_exact (text : List Char) :
    (∀ e, XmlText.parseXml text = some e ↔ Spec.XmlDocument e text) ∧
    (XmlText.parseXml text = none ↔ ∀ e, ¬ Spec.XmlDocument e text) := by
  have h : ∀ e, XmlText.parseXml text = some e ↔ Spec.XmlDocument e text :=
    fun e => ⟨XmlText.document_of_parse, C110_layout e text⟩
  refine ⟨h, ?_⟩
  rw [Option.eq_none_iff_forall_ne_some]
  exact forall_congr' fun e => not_congr (h e)

/-- A text is the layout of one tree only. -/
theorem C110_unambiguous (e e' : Element) (text : List Char) (h : Spec.XmlDocument e text)
    (h' : Spec.XmlDocument e' text) : e = e' :=
  Option.some.inj ((C110_layout e text h).symm.trans (C110_layout e' text h'))

section
variable {F : Type} [Scalar F] (parseF : String → Option F) (read : String → Option String)

/-- Whatever the XML parser is: a configuration comes only out of a file which can be read, is well formed, and whose
tree contains it; otherwise the panic names what failed, in this order. -/
theorem C110_outcome {α : Type} (parse : List Char → Option Element) (fromTree : Element → Except XmlPanic α)
    (path : String) :
    (∀ cfg, fromFile read parse fromTree path = .ok cfg ↔
      ∃ content root, read path = some content ∧ parse content.toList = some root ∧ fromTree root = .ok cfg) ∧
    (fromFile read parse fromTree path = .error .unreadable ↔ read path = none) ∧
    (fromFile read parse fromTree path = .error .malformed ↔
      ∃ content, read path = some content ∧ parse content.toList = none) ∧
    (∀ p, fromFile read parse fromTree path = .error (.config p) ↔
      ∃ content root, read path = some content ∧ parse content.toList = some root ∧ fromTree root = .error p) := by
  unfold fromFile
  rcases hr : read path with _ | content
  · simp
  rcases hp : parse content.toList with _ | root
  · simp [hp]
  rcases ht : fromTree root with p | cfg <;> simp [hp, ht]

/-- The numbers, the methods and the limits read from a file depend on its tree only: two files which lay out the same
tree give the same configuration, or the same panic. -/
theorem C110_same_tree (e : Element) (p₁ p₂ : String) (t₁ t₂ : String) (h₁ : read p₁ = some t₁) (h₂ : read p₂ = some t₂)
    (hd₁ : Spec.XmlDocument e t₁.toList) (hd₂ : Spec.XmlDocument e t₂.toList) :
    fromXmlFiniteDiffFile parseF read XmlText.parseXml p₁ = fromXmlFiniteDiffFile parseF read XmlText.parseXml p₂ ∧
    fromXmlJacobianFile parseF read XmlText.parseXml p₁ = fromXmlJacobianFile parseF read XmlText.parseXml p₂ := by
  unfold fromXmlFiniteDiffFile fromXmlJacobianFile fromFile
  simp only [h₁, h₂, C110_layout e _ hd₁, C110_layout e _ hd₂, and_self]

end

/-! ## The files written from a configuration have layouts -/

theorem attrs_layout : ∀ a : List (String × String), (∀ x ∈ a, '"' ∉ x.2.toList) → ∃ t, Spec.AttrsText a t
  | [], _ => ⟨_, .nil⟩
  | (k, v) :: a, h => by
    obtain ⟨t, ht⟩ := attrs_layout a fun x hx => h x (List.mem_cons_of_mem _ hx)
    exact ⟨_, .cons (s := [' ']) (by intro c hc; simp_all) (by simp)
      ⟨[], [], '"', (fun _ h => nomatch h), (fun _ h => nomatch h), .inl rfl, h (k, v) List.mem_cons_self, rfl⟩ ht⟩

/-- Texts with none of the characters which would have to be escaped in a value. -/
def SafeText (v : String) : Prop := ∀ c ∈ v.toList, c ∉ ['"', '<', '&', '\t', '\n', '\r']

/-- The same for the names and values of a tag. -/
structure SafeTag (n : String) (a : List (String × String)) : Prop where
  name : Spec.Name n
  keys : ∀ x ∈ a, Spec.Name x.1 ∧ x.1 ≠ "xmlns"
  values : ∀ x ∈ a, SafeText x.2
  distinct : (a.map (·.1)).Nodup

theorem SafeTag.plain {n : String} {a : List (String × String)} (h : SafeTag n a) : Spec.Plain n a :=
  ⟨h.name, h.keys, fun x hx c hc hm => h.values x hx c hc (List.mem_cons_of_mem _ hm), h.distinct⟩

theorem blank_nil : Spec.Blank [] := fun _ h => nomatch h

theorem SafeTag.layout {n : String} {a : List (String × String)} (h : SafeTag n a) {es : List Element} {u : List Char}
    (hu : Spec.Layouts es u) : ∃ t, Spec.Layout (.mk n a es) t := by
  obtain ⟨t, ht⟩ := attrs_layout a fun x hx hm => h.values x hx _ hm (by decide)
  exact ⟨_, .full h.plain ht blank_nil hu blank_nil⟩

theorem layouts_exist : ∀ es : List Element, (∀ e ∈ es, ∃ t, Spec.Layout e t) → ∃ u, Spec.Layouts es u
  | [], _ => ⟨[], .nil (.text fun _ h => nomatch h)⟩
  | e :: es, h => by
    obtain ⟨t, ht⟩ := h e List.mem_cons_self
    obtain ⟨u, hu⟩ := layouts_exist es fun e he => h e (List.mem_cons_of_mem _ he)
    exact ⟨_, .cons (u := []) (.text fun _ h => nomatch h) ht hu⟩

theorem SafeTag.leaf {n : String} {a : List (String × String)} (h : SafeTag n a) : ∃ t, Spec.Layout (.mk n a []) t :=
  h.layout (.nil (u := []) (.text fun _ h => nomatch h))

/-- A decidable form of `Spec.Name`. -/
def isName (s : String) : Bool :=
  match s.toList with
  | [] => false
  | c :: cs => XmlText.isNameStart c && cs.all XmlText.isNameChar

theorem name_of_isName {s : String} (h : isName s = true) : Spec.Name s := by
  unfold isName at h
  split at h
  · cases h
  · rename_i c cs hs
    rw [Bool.and_eq_true] at h
    refine ⟨c, cs, hs, by simpa [XmlText.isNameStart] using h.1, fun d hd => ?_⟩
    have := List.all_eq_true.1 h.2 d hd
    simp only [XmlText.isNameChar, Bool.or_eq_true, beq_iff_eq] at this
    simp only [List.mem_cons, List.not_mem_nil, or_false]
    tauto

theorem keys_of_all {a : List (String × String)} (ks : List String) (hk : a.map (·.1) = ks)
    (h : ks.all (fun k => isName k && k != "xmlns") = true) : ∀ x ∈ a, Spec.Name x.1 ∧ x.1 ≠ "xmlns" := by
  intro x hx
  subst hk
  have := List.all_eq_true.1 h x.1 (List.mem_map.2 ⟨x, hx, rfl⟩)
  rw [Bool.and_eq_true, bne_iff_ne] at this
  exact ⟨name_of_isName this.1, this.2⟩

theorem safe_number (x : F64) : SafeText (Spec.showF64 x) := by
  intro c hc hm
  rw [Spec.showF64, String.toList_ofList] at hc
  rcases f64Text_chars hc with h | h
  · fin_cases hm <;> exact absurd h (by decide)
  · fin_cases hm <;> exact absurd h (by decide)

theorem safe_nat (k : Nat) : SafeText (toString k) := by
  intro c hc hm
  rw [Nat.toString_eq_ofList_toDigits, String.toList_ofList] at hc
  have h := Nat.isDigit_of_mem_toDigits (by decide) (by decide) hc
  fin_cases hm <;> exact absurd h (by decide)

/-- A decidable form of `SafeText`. -/
def isSafe (s : String) : Bool := s.toList.all fun c => !(['"', '<', '&', '\t', '\n', '\r'].contains c)

theorem safe_of_isSafe {s : String} (h : isSafe s = true) : SafeText s := by
  intro c hc hm
  have := List.all_eq_true.1 h c hc
  simp only [Bool.not_eq_true', List.contains_eq_mem, decide_eq_false_iff_not] at this
  exact this hm

theorem safe_normalization (m : NormalizationMethod) : SafeText (Spec.normalizationTag m) :=
  safe_of_isSafe (by cases m <;> decide +kernel)

theorem safe_perturbation (m : PerturbationMethod) : SafeText (Spec.perturbationTag m) :=
  safe_of_isSafe (by cases m <;> decide +kernel)

theorem safe_method (m : ResolutionMethod) : SafeText (Spec.methodTag m) := by
  refine safe_of_isSafe ?_
  rcases m with _ | _ | u | u
  · decide +kernel
  · decide +kernel
  all_goals cases u <;> decide +kernel

theorem group_layout {α : Type} {name child : String} {attrs : α → List (String × String)} {d : α} {ps : List α}
    (hn : Spec.Name name) (hc : Spec.Name child) (ha : ∀ p n, Spec.Name n → SafeTag n (attrs p))
    (hid : ∀ p, "id" ∉ (attrs p).map (·.1)) : ∃ t, Spec.Layout (Spec.groupElement name child attrs d ps) t := by
  obtain ⟨u, hu⟩ := layouts_exist (ps.mapIdx fun i p => .mk child (("id", toString i) :: attrs p) []) (by
    intro e he
    obtain ⟨i, hi, rfl⟩ := List.mem_mapIdx.1 he
    have h := ha ps[i] child hc
    refine SafeTag.leaf ⟨hc, ?_, ?_, ?_⟩
    · rintro x (_ | ⟨_, hx⟩)
      · exact ⟨name_of_isName (s := "id") (by decide +kernel), show "id" ≠ "xmlns" by decide⟩
      · exact h.keys x hx
    · rintro x (_ | ⟨_, hx⟩)
      · exact safe_nat i
      · exact h.values x hx
    · exact List.nodup_cons.2 ⟨hid _, h.distinct⟩)
  exact (ha d name hn).layout hu

theorem write_layout {α : Type} {attrs : α → List (String × String)} (ha : ∀ p n, Spec.Name n → SafeTag n (attrs p))
    (hid : ∀ p, "id" ∉ (attrs p).map (·.1)) (d : α) (r : ResidualConfig) (cfg : ParsedConfig F64 α) :
    ∃ t, Spec.XmlDocument (Spec.write Spec.showF64 attrs d r cfg) t := by
  have h1 : ∃ t, Spec.Layout (Spec.solverElement Spec.showF64 cfg.params) t := by
    refine SafeTag.leaf ⟨name_of_isName (by decide +kernel), keys_of_all ["problem_size", "max_iter", "tolerance", "resolution_method", "damping"] rfl (by decide +kernel), ?_, by simp⟩
    simp only [List.mem_cons, List.not_mem_nil, or_false]
    rintro x (rfl | rfl | rfl | rfl | rfl)
    · exact safe_nat _
    · exact safe_nat _
    · exact safe_number _
    · exact safe_method _
    · cases cfg.params.damping <;> exact safe_of_isSafe (by rfl)
  have h2 : ∃ t, Spec.Layout (Spec.groupElement "iteratives" "iterative" attrs d cfg.iteratives) t :=
    group_layout (name_of_isName (by decide +kernel)) (name_of_isName (by decide +kernel)) ha hid
  have h3 : ∃ t, Spec.Layout (Spec.groupElement "residuals" "residual" Spec.residualAttrs r
      (List.zipWith ResidualConfig.mk cfg.stoppingCriterias cfg.updateMethods)) t := by
    refine group_layout (name_of_isName (by decide +kernel)) (name_of_isName (by decide +kernel)) (fun p n hn => ?_)
      fun p => by simp [Spec.residualAttrs]
    refine ⟨hn, keys_of_all ["stopping_criteria", "update_method"] rfl (by decide +kernel), ?_, by simp [Spec.residualAttrs]⟩
    simp only [Spec.residualAttrs, List.mem_cons, List.not_mem_nil, or_false]
    rintro x (rfl | rfl) <;> exact safe_normalization _
  obtain ⟨u, hu⟩ := layouts_exist [_, _, _] (by
    simp only [List.mem_cons, List.not_mem_nil, or_false]
    rintro e (rfl | rfl | rfl)
    exacts [h1, h2, h3])
  obtain ⟨t, ht⟩ := SafeTag.layout (n := "nrf") (a := [])
    ⟨name_of_isName (by decide +kernel), by simp, by simp, by simp⟩ hu
  exact ⟨_, .bare (s := []) (u := []) (.blank blank_nil) ht (.blank blank_nil)⟩

theorem limits_safe (p : IterativeParams F64) (n : String) (hn : Spec.Name n) :
    SafeTag n (Spec.limitsAttrs Spec.showF64 p) := by
  refine ⟨hn, keys_of_all ["max_step_abs", "max_step_rel", "min_value", "max_value"] rfl (by decide +kernel), ?_, by simp [Spec.limitsAttrs]⟩
  simp only [Spec.limitsAttrs, List.mem_cons, List.not_mem_nil, or_false]
  rintro x (rfl | rfl | rfl | rfl) <;> exact safe_number _

theorem fd_safe (p : IterativeParamsFD F64) (n : String) (hn : Spec.Name n) :
    SafeTag n (Spec.fdAttrs Spec.showF64 p) := by
  refine ⟨hn, keys_of_all ["max_step_abs", "max_step_rel", "min_value", "max_value", "dx_abs", "dx_rel", "perturbation_method"] rfl (by decide +kernel), ?_, by simp [Spec.limitsAttrs, Spec.fdAttrs]⟩
  simp only [Spec.fdAttrs, Spec.limitsAttrs, List.mem_cons, List.not_mem_nil, or_false, List.cons_append,
    List.nil_append]
  rintro x (rfl | rfl | rfl | rfl | rfl | rfl | rfl)
  all_goals first | exact safe_number _ | exact safe_perturbation _

/-- Every valid finite-difference configuration in double precision has a text, and out of any file with such a text,
however laid out, it is read back unchanged. -/
theorem C110_finite_diff (cfg : ParsedConfig F64 (IterativeParamsFD F64)) (hs : Spec.Sizes cfg)
    (d : IterativeParamsFD F64) (r : ResidualConfig)
    (ha : ∀ p, p = d ∨ p ∈ cfg.iteratives → Spec.LimitsAccepted p.iterativeParams ∧ Spec.StepsAccepted p) :
    (∃ t, Spec.XmlDocument (Spec.write Spec.showF64 (Spec.fdAttrs Spec.showF64) d r cfg) t) ∧
    ∀ read path content, read path = some content →
      Spec.XmlDocument (Spec.write Spec.showF64 (Spec.fdAttrs Spec.showF64) d r cfg) content.toList →
      fromXmlFiniteDiffFile parseF64 read XmlText.parseXml path = .ok cfg := by
  refine ⟨write_layout fd_safe (fun p => by simp [Spec.fdAttrs, Spec.limitsAttrs]) d r cfg,
    fun read path content hr hd => ?_⟩
  exact ((C110_outcome read _ _ path).1 cfg).2 ⟨content, _, hr, C110_layout _ _ hd, C77_finite_diff cfg hs d r ha⟩

/-- The same for analytic Jacobians. -/
theorem C110_jacobian (cfg : ParsedConfig F64 (IterativeParams F64)) (hs : Spec.Sizes cfg) (d : IterativeParams F64)
    (r : ResidualConfig) (ha : ∀ p, p = d ∨ p ∈ cfg.iteratives → Spec.LimitsAccepted p) :
    (∃ t, Spec.XmlDocument (Spec.write Spec.showF64 (Spec.limitsAttrs Spec.showF64) d r cfg) t) ∧
    ∀ read path content, read path = some content →
      Spec.XmlDocument (Spec.write Spec.showF64 (Spec.limitsAttrs Spec.showF64) d r cfg) content.toList →
      fromXmlJacobianFile parseF64 read XmlText.parseXml path = .ok cfg := by
  refine ⟨write_layout limits_safe (fun p => by simp [Spec.limitsAttrs]) d r cfg,
    fun read path content hr hd => ?_⟩
  exact ((C110_outcome read _ _ path).1 cfg).2 ⟨content, _, hr, C110_layout _ _ hd, C77_jacobian cfg hs d r ha⟩

/-! ## A file of the repository -/

namespace Demo

/-- `tests/log/broyden_case10.xml`, line by line. -/
def broydenFile : List (List Char) := [
  chars! "<?xml version=\"1.0\" encoding=\"UTF-8\" standalone=\"no\" ?>",
  chars! "<nrf>",
  chars! "  <solver problem_size=\"2\" max_iter=\"60\" tolerance=\"1e-6\" damping=\"false\" resolution_method=\"NR\"/>",
  chars! "  <iteratives min_value=\"-inf\"  max_value=\"inf\" max_step_abs=\"inf\" max_step_rel=\"inf\" dx_abs=\"5e-8\" dx_rel=\"5e-8\" perturbation_method=\"Max\">",
  chars! "    <iterative id=\"0\" min_value=\"1\" max_value=\"15\" max_step_abs=\"5\" max_step_rel=\"2\"/>",
  chars! "    <iterative id=\"1\" min_value=\"3\" max_value=\"10\" max_step_abs=\"5\"/>",
  chars! "  </iteratives>",
  chars! "  <residuals stopping_criteria=\"Abs\" update_method=\"Abs\">",
  chars! "    <residual id=\"0\" stopping_criteria=\"Abs\" update_method=\"Abs\"/>",
  chars! "    <residual id=\"1\" stopping_criteria=\"Abs\" update_method=\"Abs\"/>",
  chars! "  </residuals>",
  chars! "</nrf>"]

/-- A second layout of a small tree: other quotes, other white space, comments, a closing tag. -/
def smallText : List Char := chars! "<!-- one --> <nrf >\n text <solver  a = 'x\"y' b=\"\" ></solver\t></nrf>\n<!---->"

end Demo

set_option maxRecDepth 1000000 in
/-- The text of the file used by `tests/log/broyden.rs` is read as the tree from which `Validate.broyden_log` computes
the recorded log. -/
example : XmlText.parseXml (Demo.broydenFile.intersperse ['\n']).flatten = some Validate.broydenCase10Xml := by rfl

/-- The hypotheses of `C110_layout` hold for a text with comments, both quotes and a separate closing tag. -/
example : Spec.XmlDocument (.mk "nrf" [] [.mk "solver" [("a", "x\"y"), ("b", "")] []]) Demo.smallText := by
  have name : ∀ s, isName s = true → Spec.Name s := fun s => name_of_isName
  have hb : ∀ s : List Char, (s.all XmlText.isSpace) = true → Spec.Blank s := by
    intro s h c hc
    have := List.all_eq_true.1 h c hc
    simp only [XmlText.isSpace, Bool.or_eq_true, beq_iff_eq] at this
    simp only [List.mem_cons, List.not_mem_nil, or_false]
    tauto
  have hx : ∀ s : List Char, (∀ c ∈ s, c ≠ '<' ∧ c ≠ '&') → Spec.Content s := fun s h => .text h
  have key := Spec.XmlDocument.bare (e := .mk "nrf" [] [.mk "solver" [("a", "x\"y"), ("b", "")] []])
    (.comment (s := []) (t := [' ']) (.blank blank_nil) ⟨chars! " one ", rfl, by decide, by decide⟩ (hb _ (by decide)))
    (.full (s := [' ']) ⟨name _ (by decide), by simp, by simp, by simp⟩ .nil (hb _ (by decide))
      (.cons (hx (chars! "\n text ") (by decide))
        (.full (s := [' ']) (s' := ['\t']) ⟨name _ (by decide), keys_of_all ["a", "b"] rfl (by decide), by decide, by decide⟩
          (.cons (s := [' ', ' ']) (hb _ (by decide)) (by decide)
            ⟨[' '], [' '], '\'', hb _ (by decide), hb _ (by decide), .inr rfl, by decide, rfl⟩
            (.cons (s := [' ']) (hb _ (by decide)) (by decide)
              ⟨[], [], '"', blank_nil, blank_nil, .inl rfl, by decide, rfl⟩ .nil))
          (hb _ (by decide)) (.nil (hx [] (by decide))) (hb _ (by decide)))
        (.nil (hx [] (by decide)))) blank_nil)
    (.comment (s := ['\n']) (t := []) (.blank (hb _ (by decide))) ⟨[], rfl, by decide, by decide⟩ blank_nil)
  exact key

/-- Texts which lay out no tree: an attribute twice, crossed tags, a declaration after a space, two roots, a comment with two
dashes, a value without quotes. -/
example : ∀ text ∈ [chars! "<a x='1' x='2'/>", chars! "<a><b></a></b>", chars! " <?xml?><a/>", chars! "<a/><b/>",
    chars! "<!-- -- --><a/>", chars! "<a x=1/>"], ∀ e, ¬ Spec.XmlDocument e text := by
  intro text h
  refine (C110_exact text).2.1 ?_
  simp only [List.mem_cons, List.not_mem_nil, or_false] at h
  rcases h with rfl | rfl | rfl | rfl | rfl | rfl <;> rfl

/-- A file which cannot be read, one which is not XML, and one without a child: the three panics. -/
example :
    let read : String → Option String := fun p =>
      if p = "a.xml" then some "<nrf></nrf>" else if p = "b.xml" then some "<nrf" else none
    (∃ p, fromXmlJacobianFile parseF64 read XmlText.parseXml "a.xml" = .error (.config p)) ∧
    fromXmlJacobianFile parseF64 read XmlText.parseXml "b.xml" = .error .malformed ∧
    fromXmlJacobianFile parseF64 read XmlText.parseXml "c.xml" = .error .unreadable :=
  ⟨⟨_, rfl⟩, rfl, rfl⟩

end Nrf
