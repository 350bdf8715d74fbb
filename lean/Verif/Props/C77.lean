import Verif.Props.C22
import Verif.Props.C46
import Verif.Props.C51
import Verif.Props.C76

/-!
# C77: configuration files in double precision
-/

namespace Nrf

namespace Spec

/-- The text of a double, as a string. -/
def showF64 (x : F64) : String := String.ofList (f64Text x)

/-- The text of a number is not a spelling of NaN: no sign followed by `nan` in any case. -/
def NotNan (v : String) : Prop :=
  ∀ neg u, Signed v.toList neg u → u.map Char.toLower ≠ "nan".toList

/-- No attribute of the node spells NaN. -/
def NanFree (node : Element) : Prop := ∀ key v, node.attr key = some v → NotNan v

/-- No attribute of the group of iteratives, or of one of its children, spells NaN. -/
def NanFreeIteratives (root : Element) : Prop :=
  ∀ group, root.children[1]? = some group → NanFree group ∧ ∀ node ∈ group.children, NanFree node

end Spec

theorem parseF64_show (x : F64) : parseF64 (Spec.showF64 x) = some x := by
  unfold parseF64 Spec.showF64
  rw [String.toList_ofList]
  exact C76_round_trip x

/-- Every valid finite-difference configuration, with whatever doubles in it (infinities, subnormals, NaN tolerance),
is read back unchanged from the file written with the usual texts of its numbers. -/
theorem C77_finite_diff (cfg : ParsedConfig F64 (IterativeParamsFD F64)) (hs : Spec.Sizes cfg)
    (d : IterativeParamsFD F64) (r : ResidualConfig)
    (ha : ∀ p, p = d ∨ p ∈ cfg.iteratives → Spec.LimitsAccepted p.iterativeParams ∧ Spec.StepsAccepted p) :
    fromXmlFiniteDiff parseF64 (Spec.write Spec.showF64 (Spec.fdAttrs Spec.showF64) d r cfg) = .ok cfg :=
  C51_finite_diff parseF64 Spec.showF64 parseF64_show cfg hs d r ha

/-- The same for analytic Jacobians. -/
theorem C77_jacobian (cfg : ParsedConfig F64 (IterativeParams F64)) (hs : Spec.Sizes cfg) (d : IterativeParams F64)
    (r : ResidualConfig) (ha : ∀ p, p = d ∨ p ∈ cfg.iteratives → Spec.LimitsAccepted p) :
    fromXmlJacobian parseF64 (Spec.write Spec.showF64 (Spec.limitsAttrs Spec.showF64) d r cfg) = .ok cfg :=
  C51_jacobian parseF64 Spec.showF64 parseF64_show cfg hs d r ha

theorem usize_lt {s : String} {v : Nat} (h : parseUsize s = some v) : v < 2 ^ 64 := by
  obtain ⟨_, -, -, -, -, h⟩ := parseUsize_some.1 h
  exact h

theorem document_sizes {α : Type} {describes : Element → Element → α → Prop} {root : Element}
    {cfg : ParsedConfig F64 α} (h : Spec.Document parseF64 describes root cfg) : Spec.Sizes cfg := by
  obtain ⟨-, _, _, _, _, -, -, -, -, hp, -, ⟨rs, -, h1, h2⟩, h3, h4⟩ := h
  refine ⟨h3, h4, ?_, ?_, ?_⟩
  · rw [h2, List.length_map, ← h4, h1, List.length_map]
  · have := hp.problemSize
    unfold Spec.value at this
    obtain ⟨s, -, hs⟩ := Option.bind_eq_some_iff.1 this
    exact usize_lt hs
  · have := hp.maxIter
    unfold Spec.value at this
    obtain ⟨s, -, hs⟩ := Option.bind_eq_some_iff.1 this
    exact usize_lt hs

/-- Whatever file is accepted, the configuration read from it can be written and read again without a change. -/
theorem C77_rewrite :
    (∀ root cfg, fromXmlFiniteDiff parseF64 root = .ok cfg → ∃ d, ∀ r,
      fromXmlFiniteDiff parseF64 (Spec.write Spec.showF64 (Spec.fdAttrs Spec.showF64) d r cfg) = .ok cfg) ∧
    (∀ root cfg, fromXmlJacobian parseF64 root = .ok cfg → ∃ d, ∀ r,
      fromXmlJacobian parseF64 (Spec.write Spec.showF64 (Spec.limitsAttrs Spec.showF64) d r cfg) = .ok cfg) := by
  constructor
  · intro root cfg h
    have hd := fromXmlFiniteDiff_ok.1 h
    have hs := document_sizes hd
    obtain ⟨-, _, it, _, _, -, -, -, -, -, hg, -⟩ := hd
    obtain ⟨d, hdd⟩ := hg.1
    refine ⟨d, fun r => C77_finite_diff cfg hs d r ?_⟩
    rintro p (rfl | hp)
    · exact ⟨hdd.limits.accepted, hdd.accepted⟩
    · obtain ⟨node, -, hl⟩ := hg.all p hp
      exact ⟨hl.limits.accepted, hl.accepted⟩
  · intro root cfg h
    have hd := fromXmlJacobian_ok.1 h
    have hs := document_sizes hd
    obtain ⟨-, _, it, _, _, -, -, -, -, -, hg, -⟩ := hd
    obtain ⟨d, hdd⟩ := hg.1
    refine ⟨d, fun r => C77_jacobian cfg hs d r ?_⟩
    rintro p (rfl | hp)
    · exact hdd.accepted
    · obtain ⟨node, -, hl⟩ := hg.all p hp
      exact hl.accepted

theorem parseF64_nan {v : String} {x : F64} (h : parseF64 v = some x) (hv : Spec.NotNan v) : x ≠ .nan := by
  rintro rfl
  obtain ⟨neg, u, hs, h | h | h⟩ := (C76_reads v.toList .nan).1 h
  · obtain ⟨w, hw, he⟩ := h
    have := C76_nearest u w hw neg
    rw [← he] at this
    exact this.1 rfl
  · cases h.2
  · exact hv neg u hs h.1

theorem inherited_nan {group node : Element} {key : String} {x : F64}
    (h : Spec.inherited parseF64 group node key = some x) (hg : Spec.NanFree group) (hn : Spec.NanFree node) :
    x ≠ .nan := by
  unfold Spec.inherited at h
  obtain ⟨v, hv, hx⟩ := Option.bind_eq_some_iff.1 h
  refine parseF64_nan hx ?_
  rcases hk : node.attr key with _ | w
  · rw [hk, Option.none_or] at hv
    exact hg key v hv
  · rw [hk, Option.some_or, Option.some.injEq] at hv
    exact hn key v (hv ▸ hk)

theorem limits_valid {group node : Element} {p : IterativeParams F64} (h : Spec.Limits parseF64 group node p)
    (hg : Spec.NanFree group) (hn : Spec.NanFree node) : Spec.ValidLimits p :=
  ((C22_params_partial p.maxStepAbs p.maxStepRel p.minValue p.maxValue (inherited_nan h.maxStepAbs hg hn)
    (inherited_nan h.maxStepRel hg hn) (inherited_nan h.minValue hg hn) (inherited_nan h.maxValue hg hn) p).1
    (iterativeParams_new_ok.2 ⟨rfl, h.accepted⟩)).2

/-- Whenever a file in which no attribute of the iteratives spells NaN is accepted, all its limits are ordered and all
its steps are positive.  The property asks this of every accepted file: see `C77_refuted`. -/
theorem C77_ordered_partial (root : Element) (hn : Spec.NanFreeIteratives root) :
    (∀ cfg, fromXmlFiniteDiff parseF64 root = .ok cfg → ∀ p ∈ cfg.iteratives, Spec.ValidLimitsFd p) ∧
    (∀ cfg, fromXmlJacobian parseF64 root = .ok cfg → ∀ p ∈ cfg.iteratives, Spec.ValidLimits p) := by
  constructor
  · intro cfg h p hp
    obtain ⟨-, s, it, r, rest, hc, -, -, -, -, hg, -⟩ := fromXmlFiniteDiff_ok.1 h
    obtain ⟨node, hm, hl⟩ := hg.all p hp
    obtain ⟨h1, h2⟩ := hn it (by rw [hc]; rfl)
    have h2 := h2 node hm
    have hz : (Scalar.zero : F64) ≠ .nan := by simp [fl_zero]
    exact ⟨limits_valid hl.limits h1 h2, (fl_le_false (inherited_nan hl.dxAbs h1 h2) hz).1 hl.accepted.1,
      (fl_le_false (inherited_nan hl.dxRel h1 h2) hz).1 hl.accepted.2⟩
  · intro cfg h p hp
    obtain ⟨-, s, it, r, rest, hc, -, -, -, -, hg, -⟩ := fromXmlJacobian_ok.1 h
    obtain ⟨node, hm, hl⟩ := hg.all p hp
    obtain ⟨h1, h2⟩ := hn it (by rw [hc]; rfl)
    exact limits_valid hl h1 (h2 node hm)

namespace Demo

/-- A file of one unknown whose upper bound is `bound`. -/
def boundedFile (bound : String) : Element :=
  .mk "nrf" []
    [ .mk "solver" [("problem_size", "1"), ("max_iter", "50"), ("tolerance", "1e-6"), ("resolution_method", "NR")] [],
      .mk "iteratives" [("min_value", "0.5"), ("max_value", bound), ("max_step_abs", "inf"), ("max_step_rel", "+Infinity")]
        [ .mk "iterative" [("id", "0")] [] ],
      .mk "residuals" [("stopping_criteria", "Abs"), ("update_method", "Abs")]
        [ .mk "residual" [("id", "0")] [] ] ]

end Demo

/-- A file whose upper bound is the word `-NaN` is accepted, and no number at all lies between its bounds. -/
theorem C77_refuted : ∃ root cfg p, fromXmlJacobian parseF64 root = .ok cfg ∧ cfg.iteratives = [p] ∧
    ¬ Spec.ValidLimits p ∧ ∀ x : F64, Scalar.le x p.maxValue = false := by
  have key : (match fromXmlJacobian parseF64 (Demo.boundedFile "-NaN") with
      | .ok cfg => match cfg.iteratives with
        | [p] => match p.maxValue with
          | .nan => true
          | _ => false
        | _ => false
      | .error _ => false) = true := by decide +kernel
  rcases h : fromXmlJacobian parseF64 (Demo.boundedFile "-NaN") with e | cfg
  · rw [h] at key; cases key
  rw [h] at key
  rcases hi : cfg.iteratives with _ | ⟨p, _ | ⟨q, l⟩⟩
  · simp only [hi] at key; cases key
  · simp only [hi] at key
    rcases hp : p.maxValue with _ | b | b | ⟨x, hx⟩
    · refine ⟨_, cfg, p, h, hi, fun hv => ?_, fun x => ?_⟩
      · have := hv.2.2
        rw [hp] at this
        cases hm : p.minValue <;> rw [hm] at this <;> cases this
      · rw [hp]; cases x <;> rfl
    all_goals simp only [hp] at key; cases key
  · simp only [hi] at key; cases key

theorem mem_of_lookup {k v : String} : ∀ {l : List (String × String)}, l.lookup k = some v → (k, v) ∈ l
  | [], h => nomatch h
  | (a, b) :: l, h => by
    rw [List.lookup_cons] at h
    split at h
    · rename_i hk
      cases h
      rw [beq_iff_eq] at hk
      subst hk
      exact List.mem_cons_self
    · exact List.mem_cons_of_mem _ (mem_of_lookup h)

theorem notNan_of_last {v : String} (h : (v.toList.getLast?.map Char.toLower) ≠ some 'n') : Spec.NotNan v := by
  intro neg u hs hu
  have hne : u ≠ [] := by rintro rfl; cases hu
  have hl : (u.getLast?.map Char.toLower) = some 'n' := by
    rw [← List.getLast?_map, hu]; rfl
  have : v.toList.getLast? = u.getLast? := by
    rcases hs with ⟨h, -⟩ | ⟨-, h | h⟩
    · rw [h, List.getLast?_cons_of_ne_nil hne]
    · rw [h, List.getLast?_cons_of_ne_nil hne]
    · rw [h.1]
  exact h (this ▸ hl)

/-- With a number as the bound the same file is accepted and its limits are ordered; no attribute spells NaN. -/
example : Spec.NanFreeIteratives (Demo.boundedFile "2.5e0") ∧
    ∃ cfg p, fromXmlJacobian parseF64 (Demo.boundedFile "2.5e0") = .ok cfg ∧ cfg.iteratives = [p] := by
  constructor
  · intro group hg
    have : group = .mk "iteratives" [("min_value", "0.5"), ("max_value", "2.5e0"), ("max_step_abs", "inf"),
        ("max_step_rel", "+Infinity")] [ .mk "iterative" [("id", "0")] [] ] := by
      simpa [Demo.boundedFile, Element.children] using hg.symm
    have key : ∀ node : Element, (∀ a ∈ node.attrs, a.2.toList.getLast?.map Char.toLower ≠ some 'n') →
        Spec.NanFree node := by
      intro node h k v hv
      exact notNan_of_last (h (k, v) (mem_of_lookup hv))
    subst this
    refine ⟨key _ (by decide +kernel), fun node hn => key _ ?_⟩
    simp only [Element.children, List.mem_singleton] at hn
    subst hn
    decide +kernel
  · have key : (match fromXmlJacobian parseF64 (Demo.boundedFile "2.5e0") with
        | .ok cfg => match cfg.iteratives with
          | [_] => true
          | _ => false
        | .error _ => false) = true := by decide +kernel
    rcases h : fromXmlJacobian parseF64 (Demo.boundedFile "2.5e0") with e | cfg
    · rw [h] at key; cases key
    rw [h] at key
    rcases hi : cfg.iteratives with _ | ⟨p, _ | ⟨q, l⟩⟩
    · simp only [hi] at key; cases key
    · exact ⟨cfg, p, rfl, hi⟩
    · simp only [hi] at key; cases key

end Nrf
