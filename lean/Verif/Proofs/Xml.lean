import Verif.Spec.XmlSpec

/-!
# The parser computes what the document describes
-/

namespace Nrf

theorem except_bind_ok {E A B : Type} {x : Except E A} {f : A → Except E B} {b : B} :
    (x >>= f) = .ok b ↔ ∃ a, x = .ok a ∧ f a = .ok b := by
  cases x <;> simp [bind, Except.bind]

theorem parseIntAttribute_ok {node : Element} {key info : String} {k : Nat} :
    parseIntAttribute node key info = .ok k ↔ Spec.value parseUsize node key = some k := by
  unfold parseIntAttribute Spec.value
  cases node.attr key with
  | none => simp
  | some v => simp only [Option.bind_some]; cases parseUsize v <;> simp

section
variable {F : Type} (parseF : String → Option F)

theorem parseFloatAttribute_ok {node : Element} {key info : String} {x : F} :
    parseFloatAttribute parseF node key info = .ok x ↔ Spec.value parseF node key = some x := by
  unfold parseFloatAttribute Spec.value
  cases node.attr key with
  | none => simp
  | some v => simp only [Option.bind_some]; cases parseF v <;> simp

theorem value_eq_inherited {α : Type} (parse : String → Option α) (node : Element) (key : String) :
    Spec.value parse node key = Spec.inherited parse node node key := by
  simp [Spec.value, Spec.inherited]

theorem parseFloatAttributeWithDefault_ok {group node : Element} {key : String} {d x : F}
    (hd : Spec.value parseF group key = some d) :
    parseFloatAttributeWithDefault parseF node d key = .ok x ↔
      Spec.inherited parseF group node key = some x := by
  unfold parseFloatAttributeWithDefault Spec.inherited
  cases node.attr key with
  | none =>
    rw [Option.none_or]
    unfold Spec.value at hd
    rw [hd]
    simp
  | some v =>
    simp only [Option.some_or, Option.bind_some]
    cases parseF v <;> simp

theorem checkNodeName_ok {node : Element} {e : String} {u : Unit} :
    checkNodeName node e = .ok u ↔ node.name = e := by
  unfold checkNodeName
  split <;> simp_all

theorem parseId_ok {node : Element} {k id : Nat} {info : String} :
    parseId node k info = .ok id ↔ id = k ∧ Spec.value parseUsize node "id" = some k := by
  unfold parseId
  rw [except_bind_ok]
  constructor
  · rintro ⟨a, h1, h2⟩
    split at h2
    · cases h2
    · rename_i hk
      cases h2
      simp only [ne_eq, not_not] at hk
      subst hk
      exact ⟨rfl, parseIntAttribute_ok.1 h1⟩
  · rintro ⟨rfl, h⟩
    exact ⟨_, parseIntAttribute_ok.2 h, by simp⟩

theorem parseResolutionMethod_ok {node : Element} {info : String} {m : ResolutionMethod} :
    parseResolutionMethod node info = .ok m ↔
      Spec.value methodOfTag node "resolution_method" = some m := by
  unfold parseResolutionMethod Spec.value
  cases node.attr "resolution_method" with
  | none => simp
  | some v => simp only [Option.bind_some]; cases methodOfTag v <;> simp

theorem parseDamping_ok {node : Element} {b : Bool} :
    parseDamping node = .ok b ↔
      ((node.attr "damping").or (some "false")).bind parseBool = some b := by
  unfold parseDamping
  cases node.attr "damping" with
  | none =>
    rw [Option.none_or, Option.bind_some, show parseBool "false" = some false from rfl]
    simp
  | some v => simp only [Option.some_or, Option.bind_some]; cases parseBool v <;> simp

theorem parseSolverNode_ok {node : Element} {p : SolverParameters F} :
    parseSolverNode parseF node = .ok p ↔ Spec.Parameters parseF node p := by
  unfold parseSolverNode
  simp only [except_bind_ok, parseIntAttribute_ok, parseFloatAttribute_ok,
    parseResolutionMethod_ok, parseDamping_ok]
  constructor
  · rintro ⟨a, h1, b, h2, c, h3, d, h4, e, h5, h6⟩
    cases h6
    exact ⟨h1, h2, h3, h4, h5⟩
  · rintro ⟨h1, h2, h3, h4, h5⟩
    exact ⟨_, h1, _, h2, _, h3, _, h4, _, h5, rfl⟩

theorem parsePerturbationMethod_ok {node : Element} {info : String} {p : PerturbationMethod} :
    parsePerturbationMethod node info = .ok p ↔
      Spec.value perturbationOfTag node "perturbation_method" = some p := by
  unfold parsePerturbationMethod Spec.value
  cases node.attr "perturbation_method" with
  | none => simp
  | some v => simp only [Option.bind_some]; cases perturbationOfTag v <;> simp

theorem parsePerturbationMethodWithDefault_ok {group node : Element} {info : String}
    {d p : PerturbationMethod}
    (hd : Spec.value perturbationOfTag group "perturbation_method" = some d) :
    parsePerturbationMethodWithDefault node d info = .ok p ↔
      Spec.inherited perturbationOfTag group node "perturbation_method" = some p := by
  unfold parsePerturbationMethodWithDefault Spec.inherited
  cases node.attr "perturbation_method" with
  | none =>
    rw [Option.none_or]
    unfold Spec.value at hd
    rw [hd]
    simp
  | some v =>
    simp only [Option.some_or, Option.bind_some]
    cases perturbationOfTag v <;> simp

theorem liftCtor_ok {α : Type} {x : Except CtorPanic α} {a : α} :
    liftCtor x = .ok a ↔ x = .ok a := by
  cases x <;> simp [liftCtor]

theorem parseNumbered_ok {α : Type} {name idInfo pre : String}
    {parse : Element → String → Except XmlPanic α} :
    ∀ {nodes : List Element} {k : Nat} {as : List α},
      parseNumbered name idInfo pre parse nodes k = .ok as ↔
        as.length = nodes.length ∧ ∀ i node, nodes[i]? = some node →
          node.name = name ∧ Spec.value parseUsize node "id" = some (k + i) ∧
          ∃ a, as[i]? = some a ∧ parse node (pre ++ toString (k + i)) = .ok a
  | [], k, as => by
    simp only [parseNumbered]
    cases as <;> simp
  | node :: rest, k, as => by
    simp only [parseNumbered]
    constructor
    · intro h
      split at h
      · cases h
      rename_i hn
      simp only [ne_eq, not_not] at hn
      simp only [except_bind_ok, parseId_ok] at h
      obtain ⟨id, ⟨rfl, hid⟩, a, ha, as', has, h⟩ := h
      cases h
      obtain ⟨h1, h2⟩ := parseNumbered_ok.1 has
      refine ⟨by simp [h1], fun i nd hi => ?_⟩
      cases i with
      | zero =>
        simp only [List.getElem?_cons_zero, Option.some.injEq] at hi
        subst hi
        exact ⟨hn, hid, a, rfl, ha⟩
      | succ i =>
        simp only [List.getElem?_cons_succ] at hi ⊢
        rw [show id + (i + 1) = id + 1 + i by omega]
        exact h2 i nd hi
    · rintro ⟨h1, h2⟩
      cases as with
      | nil => simp at h1
      | cons a as =>
        obtain ⟨g1, g2, a', g3, g4⟩ := h2 0 node rfl
        simp only [List.getElem?_cons_zero, Option.some.injEq] at g3
        subst g3
        rw [if_neg (by simpa using g1)]
        simp only [except_bind_ok, parseId_ok]
        refine ⟨k, ⟨rfl, g2⟩, a, g4, as, ?_, rfl⟩
        rw [parseNumbered_ok]
        refine ⟨by simpa using h1, fun i nd hi => ?_⟩
        have := h2 (i + 1) nd (by simpa using hi)
        rw [show k + (i + 1) = k + 1 + i by omega, List.getElem?_cons_succ] at this
        exact this

/-- A group whose default and children are parsed by `parse` and `parseChild`. -/
theorem parseNumbered_group {α : Type} {name idInfo pre : String}
    {describes : Element → Element → α → Prop} {group : Element}
    {parse : Except XmlPanic α} {parseChild : α → Element → String → Except XmlPanic α}
    (hp : ∀ d, parse = .ok d ↔ describes group group d)
    (hc : ∀ d, describes group group d → ∀ node info a,
      parseChild d node info = .ok a ↔ describes group node a) {as : List α} :
    (parse >>= fun d => parseNumbered name idInfo pre (parseChild d) group.children 0) = .ok as ↔
      Spec.Group describes name group as := by
  rw [except_bind_ok]
  simp only [parseNumbered_ok, hp]
  constructor
  · rintro ⟨d, hd, h1, h2⟩
    refine ⟨⟨d, hd⟩, fun k node hk => ?_, h1, fun k node p hk hpk => ?_⟩
    · obtain ⟨g1, g2, -⟩ := h2 k node hk
      exact ⟨g1, by simpa using g2⟩
    · obtain ⟨-, -, a, ha, g⟩ := h2 k node hk
      rw [hpk] at ha
      cases ha
      exact (hc d hd _ _ _).1 g
  · rintro ⟨⟨d, hd⟩, h1, h2, h3⟩
    refine ⟨d, hd, h2, fun i node hi => ?_⟩
    have hlt : i < as.length := by
      rw [h2]
      exact (List.getElem?_eq_some_iff.1 hi).1
    refine ⟨(h1 i node hi).1, by simpa using (h1 i node hi).2, as[i], ?_, ?_⟩
    · exact List.getElem?_eq_getElem hlt
    · exact (hc d hd _ _ _).2 (h3 i node _ hi (List.getElem?_eq_getElem hlt))

variable [Scalar F]

theorem iterativeParams_new_ok {a b c d : F} {p : IterativeParams F} :
    IterativeParams.new a b c d = .ok p ↔ p = ⟨a, b, c, d⟩ ∧ Spec.LimitsAccepted p := by
  unfold IterativeParams.new Spec.LimitsAccepted
  constructor
  · intro h
    split at h
    · cases h
    split at h
    · cases h
    split at h
    · cases h
    cases h
    simp_all
  · rintro ⟨rfl, h1, h2, h3⟩
    simp_all

theorem extend_ok {q : IterativeParams F} {a b : F} {m : PerturbationMethod}
    {p : IterativeParamsFD F} :
    IterativeParamsFD.extend q a b m = .ok p ↔ p = ⟨q, m, a, b⟩ ∧ Spec.StepsAccepted p := by
  unfold IterativeParamsFD.extend Spec.StepsAccepted
  constructor
  · intro h
    split at h
    · cases h
    split at h
    · cases h
    cases h
    simp_all
  · rintro ⟨rfl, h1, h2⟩
    simp_all

theorem parseIterativeJacNode_ok {node : Element} {info : String} {p : IterativeParams F} :
    parseIterativeJacNode parseF node info = .ok p ↔ Spec.Limits parseF node node p := by
  unfold parseIterativeJacNode
  simp only [except_bind_ok, parseFloatAttribute_ok, liftCtor_ok, iterativeParams_new_ok,
    value_eq_inherited]
  constructor
  · rintro ⟨a, h1, b, h2, c, h3, d, h4, rfl, h5⟩
    exact ⟨h1, h2, h3, h4, h5⟩
  · rintro ⟨h1, h2, h3, h4, h5⟩
    exact ⟨_, h1, _, h2, _, h3, _, h4, rfl, h5⟩

theorem parseIterativeJacNodeWithDefault_ok {group node : Element} {d p : IterativeParams F}
    (hd : Spec.Limits parseF group group d) :
    parseIterativeJacNodeWithDefault parseF node d = .ok p ↔
      Spec.Limits parseF group node p := by
  obtain ⟨d1, d2, d3, d4, -⟩ := hd
  rw [← value_eq_inherited] at d1 d2 d3 d4
  unfold parseIterativeJacNodeWithDefault
  simp only [except_bind_ok, parseFloatAttributeWithDefault_ok parseF d1,
    parseFloatAttributeWithDefault_ok parseF d2, parseFloatAttributeWithDefault_ok parseF d3,
    parseFloatAttributeWithDefault_ok parseF d4, liftCtor_ok, iterativeParams_new_ok]
  constructor
  · rintro ⟨a, h1, b, h2, c, h3, d, h4, rfl, h5⟩
    exact ⟨h1, h2, h3, h4, h5⟩
  · rintro ⟨h1, h2, h3, h4, h5⟩
    exact ⟨_, h1, _, h2, _, h3, _, h4, rfl, h5⟩

theorem parseIterativeFdNode_ok {node : Element} {info : String} {p : IterativeParamsFD F} :
    parseIterativeFdNode parseF node info = .ok p ↔ Spec.LimitsFd parseF node node p := by
  unfold parseIterativeFdNode
  simp only [except_bind_ok, parseFloatAttribute_ok, liftCtor_ok, extend_ok,
    parseIterativeJacNode_ok, parsePerturbationMethod_ok, value_eq_inherited]
  constructor
  · rintro ⟨a, h1, b, h2, c, h3, d, h4, rfl, h5⟩
    exact ⟨h1, h2, h3, h4, h5⟩
  · rintro ⟨h1, h2, h3, h4, h5⟩
    exact ⟨_, h1, _, h2, _, h3, _, h4, rfl, h5⟩

theorem parseIterativeFdNodeWithDefault_ok {group node : Element} {d p : IterativeParamsFD F}
    {info : String} (hd : Spec.LimitsFd parseF group group d) :
    parseIterativeFdNodeWithDefault parseF node d info = .ok p ↔
      Spec.LimitsFd parseF group node p := by
  obtain ⟨d1, d2, d3, d4, -⟩ := hd
  rw [← value_eq_inherited] at d2 d3 d4
  unfold parseIterativeFdNodeWithDefault
  simp only [except_bind_ok, parseFloatAttributeWithDefault_ok parseF d2,
    parseFloatAttributeWithDefault_ok parseF d3, parsePerturbationMethodWithDefault_ok d4,
    parseIterativeJacNodeWithDefault_ok parseF d1, liftCtor_ok, extend_ok]
  constructor
  · rintro ⟨a, h1, b, h2, c, h3, d, h4, rfl, h5⟩
    exact ⟨h1, h2, h3, h4, h5⟩
  · rintro ⟨h1, h2, h3, h4, h5⟩
    exact ⟨_, h1, _, h2, _, h3, _, h4, rfl, h5⟩

theorem parseIterativesJacNode_ok {node : Element} {ps : List (IterativeParams F)} :
    parseIterativesJacNode parseF node = .ok ps ↔
      Spec.Group (Spec.Limits parseF) "iterative" node ps :=
  parseNumbered_group (fun _ => parseIterativeJacNode_ok parseF)
    (fun _ hd _ _ _ => parseIterativeJacNodeWithDefault_ok parseF hd)

theorem parseIterativesFdNode_ok {node : Element} {ps : List (IterativeParamsFD F)} :
    parseIterativesFdNode parseF node = .ok ps ↔
      Spec.Group (Spec.LimitsFd parseF) "iterative" node ps :=
  parseNumbered_group (fun _ => parseIterativeFdNode_ok parseF)
    (fun _ hd _ _ _ => parseIterativeFdNodeWithDefault_ok parseF hd)

end

theorem parseNormalizationAttribute_ok {node : Element} {key info : String}
    {m : NormalizationMethod} :
    parseNormalizationAttribute node key info = .ok m ↔
      Spec.value normalizationOfTag node key = some m := by
  unfold parseNormalizationAttribute Spec.value
  cases node.attr key with
  | none => simp
  | some v => simp only [Option.bind_some]; cases normalizationOfTag v <;> simp

theorem parseNormalizationAttributeWithDefault_ok {group node : Element} {key info : String}
    {d m : NormalizationMethod} (hd : Spec.value normalizationOfTag group key = some d) :
    parseNormalizationAttributeWithDefault node d key info = .ok m ↔
      Spec.inherited normalizationOfTag group node key = some m := by
  unfold parseNormalizationAttributeWithDefault Spec.inherited
  cases node.attr key with
  | none =>
    rw [Option.none_or]
    unfold Spec.value at hd
    rw [hd]
    simp
  | some v =>
    simp only [Option.some_or, Option.bind_some]
    cases normalizationOfTag v <;> simp

theorem parseResidualNode_ok {node : Element} {info : String} {r : ResidualConfig} :
    parseResidualNode node info = .ok r ↔ Spec.Residual node node r := by
  unfold parseResidualNode
  simp only [except_bind_ok, parseNormalizationAttribute_ok, value_eq_inherited]
  constructor
  · rintro ⟨a, h1, b, h2, h⟩
    cases h
    exact ⟨h1, h2⟩
  · rintro ⟨h1, h2⟩
    exact ⟨_, h1, _, h2, rfl⟩

theorem parseResidualNodeWithDefault_ok {group node : Element} {info : String}
    {d r : ResidualConfig} (hd : Spec.Residual group group d) :
    parseResidualNodeWithDefault node d info = .ok r ↔ Spec.Residual group node r := by
  obtain ⟨d1, d2⟩ := hd
  rw [← value_eq_inherited] at d1 d2
  unfold parseResidualNodeWithDefault
  simp only [except_bind_ok, parseNormalizationAttributeWithDefault_ok d1,
    parseNormalizationAttributeWithDefault_ok d2]
  constructor
  · rintro ⟨a, h1, b, h2, h⟩
    cases h
    exact ⟨h1, h2⟩
  · rintro ⟨h1, h2⟩
    exact ⟨_, h1, _, h2, rfl⟩

theorem convertIntoVecs_eq (rs : List ResidualConfig) :
    convertIntoVecs rs = (rs.map (·.stoppingCriteria), rs.map (·.updateMethod)) := by
  have : ∀ (rs : List ResidualConfig) (a b : List NormalizationMethod),
      rs.foldl (fun acc elt => (acc.1 ++ [elt.stoppingCriteria], acc.2 ++ [elt.updateMethod]))
        (a, b) = (a ++ rs.map (·.stoppingCriteria), b ++ rs.map (·.updateMethod)) := by
    intro rs
    induction rs with
    | nil => intro a b; simp
    | cons r rs ih => intro a b; rw [List.foldl_cons, ih]; simp
  exact this rs [] []

theorem parseResidualsNode_ok {node : Element}
    {v : List NormalizationMethod × List NormalizationMethod} :
    parseResidualsNode node = .ok v ↔ ∃ rs, Spec.Group Spec.Residual "residual" node rs ∧
      v = (rs.map (·.stoppingCriteria), rs.map (·.updateMethod)) := by
  have : parseResidualsNode node = ((parseResidualNode node "residuals node" >>= fun d =>
      parseNumbered "residual" "residual_node" "residual node id = "
        (fun child info => parseResidualNodeWithDefault child d info) node.children 0) >>=
      fun rs => .ok (convertIntoVecs rs)) := by
    unfold parseResidualsNode
    cases parseResidualNode node "residuals node" <;> rfl
  rw [this, except_bind_ok]
  refine exists_congr fun rs => ?_
  rw [parseNumbered_group (fun _ => parseResidualNode_ok)
    (fun _ hd _ _ _ => parseResidualNodeWithDefault_ok hd), convertIntoVecs_eq]
  simp only [Except.ok.injEq, eq_comm]

/-- The whole document. -/
theorem parseRoot_ok {F α : Type} {parseF : String → Option F}
    {describes : Element → Element → α → Prop}
    {parseIteratives : Element → Except XmlPanic (List α)}
    (hi : ∀ node ps, parseIteratives node = .ok ps ↔
      Spec.Group describes "iterative" node ps)
    {root : Element} {cfg : ParsedConfig F α} :
    parseRoot parseF parseIteratives root = .ok cfg ↔
      Spec.Document parseF describes root cfg := by
  unfold parseRoot Spec.Document
  constructor
  · intro h
    split at h
    · cases h
    rename_i hn
    simp only [ne_eq, not_not] at hn
    refine ⟨hn, ?_⟩
    split at h
    · cases h
    rename_i sn t1 hc
    simp only [except_bind_ok, checkNodeName_ok, parseSolverNode_ok] at h
    obtain ⟨-, hsn, p, hp, h⟩ := h
    split at h
    · cases h
    rename_i itn t2 
    simp only [except_bind_ok, checkNodeName_ok, hi] at h
    obtain ⟨-, hitn, its, hits, h⟩ := h
    split at h
    · cases h
    rename_i rn t3
    simp only [except_bind_ok, checkNodeName_ok, parseResidualsNode_ok] at h
    obtain ⟨-, hrn, v, ⟨rs, hrs, rfl⟩, h⟩ := h
    dsimp only at h
    split at h
    · cases h
    rename_i l1
    split at h
    · cases h
    rename_i l2
    cases h
    simp only [ne_eq, not_not] at l1 l2
    exact ⟨sn, itn, rn, t3, hc, hsn, hitn, hrn, hp, hits, ⟨rs, hrs, rfl, rfl⟩, l1.symm, l2.symm⟩
  · rintro ⟨hn, sn, itn, rn, t3, hc, hsn, hitn, hrn, hp, hits, ⟨rs, hrs, h1, h2⟩, l1, l2⟩
    rw [if_neg (by simpa using hn), hc]
    simp only [except_bind_ok, checkNodeName_ok, parseSolverNode_ok, hi, parseResidualsNode_ok]
    refine ⟨(), hsn, _, hp, (), hitn, _, hits, (), hrn, _, ⟨rs, hrs, rfl⟩, ?_⟩
    rw [h1] at l2
    rw [if_neg (by simpa using l1.symm), if_neg (by simpa using l2.symm), ← h1, ← h2]
    rfl

theorem fromXmlFiniteDiff_ok {F : Type} [Scalar F] {parseF : String → Option F} {root : Element}
    {cfg : ParsedConfig F (IterativeParamsFD F)} :
    fromXmlFiniteDiff parseF root = .ok cfg ↔
      Spec.Document parseF (Spec.LimitsFd parseF) root cfg :=
  parseRoot_ok fun _ _ => parseIterativesFdNode_ok parseF

theorem fromXmlJacobian_ok {F : Type} [Scalar F] {parseF : String → Option F} {root : Element}
    {cfg : ParsedConfig F (IterativeParams F)} :
    fromXmlJacobian parseF root = .ok cfg ↔
      Spec.Document parseF (Spec.Limits parseF) root cfg :=
  parseRoot_ok fun _ _ => parseIterativesJacNode_ok parseF

end Nrf
