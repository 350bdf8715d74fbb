import Verif.Proofs.XmlText
import Verif.Spec.DemoXml
import Mathlib.Data.Rat.Denumerable

/-!
# C51: configurations survive a round trip through XML
-/

namespace Nrf

namespace Spec

/-- The tag of a resolution method. -/
def methodTag : ResolutionMethod → String
  | .NewtonRaphson => "NR"
  | .QuasiNewton .StationaryNewton => "SN"
  | .QuasiNewton (.JacobianUpdate .BroydenFirst) => "BROY1"
  | .QuasiNewton (.InverseJacobianUpdate .BroydenFirst) => "BROY1_INV"
  | .QuasiNewton (.JacobianUpdate .BroydenSecond) => "BROY2"
  | .QuasiNewton (.InverseJacobianUpdate .BroydenSecond) => "BROY2_INV"
  | .QuasiNewton (.JacobianUpdate .GreenstadtFirst) => "GRST1"
  | .QuasiNewton (.InverseJacobianUpdate .GreenstadtFirst) => "GRST1_INV"
  | .QuasiNewton (.JacobianUpdate .GreenstadtSecond) => "GRST2"
  | .QuasiNewton (.InverseJacobianUpdate .GreenstadtSecond) => "GRST2_INV"

/-- The tag of a normalization method. -/
def normalizationTag : NormalizationMethod → String
  | .Abs => "Abs" | .Rel => "Rel" | .Adapt => "Adapt"

/-- The tag of a perturbation method. -/
def perturbationTag : PerturbationMethod → String
  | .Max => "Max" | .Sum => "Sum"

section
variable {F : Type} (showF : F → String)

/-- The attributes of an iterative. -/
def limitsAttrs (p : IterativeParams F) : List (String × String) :=
  [("max_step_abs", showF p.maxStepAbs), ("max_step_rel", showF p.maxStepRel),
    ("min_value", showF p.minValue), ("max_value", showF p.maxValue)]

/-- The attributes of a finite-difference iterative. -/
def fdAttrs (p : IterativeParamsFD F) : List (String × String) :=
  limitsAttrs showF p.iterativeParams ++
    [("dx_abs", showF p.dxAbs), ("dx_rel", showF p.dxRel),
      ("perturbation_method", perturbationTag p.perturbationMethod)]

/-- The attributes of a residual. -/
def residualAttrs (r : ResidualConfig) : List (String × String) :=
  [("stopping_criteria", normalizationTag r.stoppingCriteria),
    ("update_method", normalizationTag r.updateMethod)]

/-- A group with default attributes and one numbered child per element. -/
def groupElement {α : Type} (name child : String) (attrs : α → List (String × String)) (d : α)
    (ps : List α) : Element :=
  .mk name (attrs d) (ps.mapIdx fun i p => .mk child (("id", toString i) :: attrs p) [])

/-- The solver node. -/
def solverElement (p : SolverParameters F) : Element :=
  .mk "solver" [("problem_size", toString p.problemSize), ("max_iter", toString p.maxIter),
    ("tolerance", showF p.tolerance), ("resolution_method", methodTag p.method),
    ("damping", if p.damping then "true" else "false")] []

/-- The whole document: `d` and `r` are the defaults of the two groups. -/
def write {α : Type} (attrs : α → List (String × String)) (d : α) (r : ResidualConfig)
    (cfg : ParsedConfig F α) : Element :=
  .mk "nrf" []
    [solverElement showF cfg.params, groupElement "iteratives" "iterative" attrs d cfg.iteratives,
      groupElement "residuals" "residual" residualAttrs r
        (List.zipWith ResidualConfig.mk cfg.stoppingCriterias cfg.updateMethods)]

/-- Sizes that agree and fit in a `usize`. -/
structure Sizes {α : Type} (cfg : ParsedConfig F α) : Prop where
  iteratives : cfg.iteratives.length = cfg.params.problemSize
  stopping : cfg.stoppingCriterias.length = cfg.params.problemSize
  update : cfg.updateMethods.length = cfg.params.problemSize
  size : cfg.params.problemSize < 2 ^ 64
  maxIter : cfg.params.maxIter < 2 ^ 64

end
end Spec

section
variable {F : Type} {parseF : String → Option F} {showF : F → String}

theorem group_write {α : Type} {describes : Element → Element → α → Prop} {name child : String}
    {attrs : α → List (String × String)} {d : α} {ps : List α}
    (hd : ∀ cs, describes (.mk name (attrs d) cs) (.mk name (attrs d) cs) d)
    (hp : ∀ g i, ∀ p ∈ ps, describes g (.mk child (("id", toString (i : Nat)) :: attrs p) []) p)
    (hs : ps.length ≤ 2 ^ 64) :
    Spec.Group describes child (Spec.groupElement name child attrs d ps) ps := by
  refine ⟨⟨d, hd _⟩, fun k node hk => ?_, ?_, fun k node p hk hpk => ?_⟩
  · simp only [Spec.groupElement, Element.children, List.getElem?_mapIdx, Option.map_eq_some_iff] at hk
    obtain ⟨p, hpk, rfl⟩ := hk
    refine ⟨rfl, ?_⟩
    have hlt : k < ps.length := (List.getElem?_eq_some_iff.1 hpk).1
    simpa [Spec.value, Element.attr, Element.attrs] using
      parseUsize_toString (show k < 2 ^ 64 by omega)
  · simp [Spec.groupElement, Element.children]
  · simp only [Spec.groupElement, Element.children, List.getElem?_mapIdx, Option.map_eq_some_iff] at hk
    obtain ⟨p', hpk', rfl⟩ := hk
    rw [hpk] at hpk'
    cases hpk'
    exact hp _ k p (List.mem_of_getElem? hpk)

theorem parameters_write (hf : ∀ x, parseF (showF x) = some x) {p : SolverParameters F}
    (h1 : p.problemSize < 2 ^ 64) (h2 : p.maxIter < 2 ^ 64) :
    Spec.Parameters parseF (Spec.solverElement showF p) p := by
  constructor
  · simpa [Spec.value, Spec.solverElement, Element.attr, Element.attrs, List.lookup] using
      parseUsize_toString h1
  · simpa [Spec.value, Spec.solverElement, Element.attr, Element.attrs, List.lookup] using
      parseUsize_toString h2
  · simp [Spec.value, Spec.solverElement, Element.attr, Element.attrs, List.lookup, hf]
  · have : Spec.value methodOfTag (Spec.solverElement showF p) "resolution_method" =
        methodOfTag (Spec.methodTag p.method) := by
      simp [Spec.value, Spec.solverElement, Element.attr, Element.attrs, List.lookup]
    rw [this]
    rcases p.method with _ | _ | u | u
    · rfl
    · rfl
    all_goals cases u <;> rfl
  · simp only [Spec.solverElement, Element.attr, Element.attrs, List.lookup]
    cases p.damping <;> rfl

theorem normalizationOfTag_tag (m : NormalizationMethod) :
    normalizationOfTag (Spec.normalizationTag m) = some m := by
  cases m <;> rfl

theorem perturbationOfTag_tag (m : PerturbationMethod) :
    perturbationOfTag (Spec.perturbationTag m) = some m := by
  cases m <;> rfl

theorem residual_write (g : Element) (name : String) (pre : List (String × String))
    (cs : List Element) (r : ResidualConfig)
    (hp : pre = [] ∨ ∃ v, pre = [("id", v)]) :
    Spec.Residual g (.mk name (pre ++ Spec.residualAttrs r) cs) r := by
  rcases hp with rfl | ⟨v, rfl⟩ <;> constructor <;>
    simp [Spec.inherited, Spec.residualAttrs, Element.attr, Element.attrs, List.lookup,
      normalizationOfTag_tag]

variable [Scalar F]

theorem limits_write (hf : ∀ x, parseF (showF x) = some x) (g : Element) (name : String)
    (pre post : List (String × String)) (cs : List Element) (p : IterativeParams F)
    (hp : pre = [] ∨ ∃ v, pre = [("id", v)]) (ha : Spec.LimitsAccepted p) :
    Spec.Limits parseF g (.mk name (pre ++ (Spec.limitsAttrs showF p ++ post)) cs) p := by
  rcases hp with rfl | ⟨v, rfl⟩ <;> refine ⟨?_, ?_, ?_, ?_, ha⟩ <;>
    simp [Spec.inherited, Spec.limitsAttrs, Element.attr, Element.attrs, List.lookup, hf]

theorem fd_write (hf : ∀ x, parseF (showF x) = some x) (g : Element) (name : String)
    (pre : List (String × String)) (cs : List Element) (p : IterativeParamsFD F)
    (hp : pre = [] ∨ ∃ v, pre = [("id", v)]) (ha : Spec.LimitsAccepted p.iterativeParams)
    (hs : Spec.StepsAccepted p) :
    Spec.LimitsFd parseF g (.mk name (pre ++ Spec.fdAttrs showF p) cs) p := by
  refine ⟨limits_write hf g name pre _ cs p.iterativeParams hp ha, ?_, ?_, ?_, hs⟩ <;>
  rcases hp with rfl | ⟨v, rfl⟩ <;>
    simp [Spec.inherited, Spec.fdAttrs, Spec.limitsAttrs, Element.attr, Element.attrs, List.lookup,
      hf, perturbationOfTag_tag]

end

theorem map_zipWith_mk : ∀ {a b : List NormalizationMethod}, a.length = b.length →
    (List.zipWith ResidualConfig.mk a b).map (·.stoppingCriteria) = a ∧
      (List.zipWith ResidualConfig.mk a b).map (·.updateMethod) = b
  | [], [], _ => ⟨rfl, rfl⟩
  | x :: a, y :: b, h => by
    obtain ⟨h1, h2⟩ := map_zipWith_mk (a := a) (b := b) (by simpa using h)
    exact ⟨by simp [h1], by simp [h2]⟩

theorem document_write {F α : Type} {parseF : String → Option F} {showF : F → String}
    (hf : ∀ x, parseF (showF x) = some x) {describes : Element → Element → α → Prop}
    {attrs : α → List (String × String)} {d : α} {cfg : ParsedConfig F α}
    (hd : ∀ cs, describes (.mk "iteratives" (attrs d) cs) (.mk "iteratives" (attrs d) cs) d)
    (hp : ∀ g i, ∀ p ∈ cfg.iteratives,
      describes g (.mk "iterative" (("id", toString (i : Nat)) :: attrs p) []) p)
    (hs : Spec.Sizes cfg) (r : ResidualConfig) :
    Spec.Document parseF describes (Spec.write showF attrs d r cfg) cfg := by
  have h1 := hs.iteratives
  have h2 := hs.stopping
  have h3 := hs.update
  have h4 := hs.size
  refine ⟨rfl, _, _, _, [], rfl, rfl, rfl, rfl, parameters_write hf hs.size hs.maxIter,
    group_write hd hp (by omega), ⟨_, group_write (fun cs => residual_write _ _ [] _ _ (.inl rfl))
      (fun g i p _ => residual_write g _ [("id", toString i)] _ _ (.inr ⟨_, rfl⟩)) ?_, ?_, ?_⟩,
      h1, h2⟩
  · rw [List.length_zipWith]; omega
  · exact (map_zipWith_mk (by omega)).1.symm
  · exact (map_zipWith_mk (by omega)).2.symm

/-- Writing a valid finite-difference configuration and parsing it gives it back, for any
valid defaults. -/
theorem C51_finite_diff {F : Type} [Scalar F] (parseF : String → Option F) (showF : F → String)
    (hf : ∀ x, parseF (showF x) = some x) (cfg : ParsedConfig F (IterativeParamsFD F))
    (hs : Spec.Sizes cfg) (d : IterativeParamsFD F) (r : ResidualConfig)
    (ha : ∀ p, p = d ∨ p ∈ cfg.iteratives →
      Spec.LimitsAccepted p.iterativeParams ∧ Spec.StepsAccepted p) :
    fromXmlFiniteDiff parseF (Spec.write showF (Spec.fdAttrs showF) d r cfg) = .ok cfg :=
  fromXmlFiniteDiff_ok.2 (document_write hf
    (fun _ => fd_write hf _ _ [] _ _ (.inl rfl) (ha d (.inl rfl)).1 (ha d (.inl rfl)).2)
    (fun g i p hp => fd_write hf g _ [("id", toString i)] _ _ (.inr ⟨_, rfl⟩)
      (ha p (.inr hp)).1 (ha p (.inr hp)).2) hs r)

/-- Writing a valid analytic-Jacobian configuration and parsing it gives it back, for any
valid defaults. -/
theorem C51_jacobian {F : Type} [Scalar F] (parseF : String → Option F) (showF : F → String)
    (hf : ∀ x, parseF (showF x) = some x) (cfg : ParsedConfig F (IterativeParams F))
    (hs : Spec.Sizes cfg) (d : IterativeParams F) (r : ResidualConfig)
    (ha : ∀ p, p = d ∨ p ∈ cfg.iteratives → Spec.LimitsAccepted p) :
    fromXmlJacobian parseF (Spec.write showF (Spec.limitsAttrs showF) d r cfg) = .ok cfg :=
  fromXmlJacobian_ok.2 (document_write hf
    (fun _ => by simpa using limits_write hf _ _ [] [] _ _ (.inl rfl) (ha d (.inl rfl)))
    (fun g i p hp => by
      simpa using limits_write hf g _ [("id", toString i)] [] _ _ (.inr ⟨_, rfl⟩) (ha p (.inr hp)))
    hs r)

/-- There are a rendering of all rationals and a parser inverting it. -/
example : ∃ (parseF : String → Option ℚ) (showF : ℚ → String), ∀ x, parseF (showF x) = some x := by
  refine ⟨fun s => (parseDigits s.toList 0).bind Encodable.decode,
    fun x => toString (Encodable.encode x), fun x => ?_⟩
  have : parseDigits (toString (Encodable.encode x)).toList 0 = some (Encodable.encode x) := by
    rw [parseDigits_some, Nat.toString_eq_ofList_toDigits, String.toList_ofList]
    exact ⟨fun c hc => Nat.isDigit_of_mem_toDigits (by decide) (by decide) hc,
      Nat.ofDigitChars_ten_toDigits.symm⟩
  dsimp only
  rw [this, Option.bind_some, Encodable.encodek]

open scoped Exact in
/-- The configuration of the demonstration document is valid. -/
example : Spec.Sizes Demo.documentFd ∧ ∀ p ∈ Demo.documentFd.iteratives,
    Spec.LimitsAccepted p.iterativeParams ∧ Spec.StepsAccepted p := by
  refine ⟨⟨rfl, rfl, rfl, by decide, by decide⟩, fun p hp => ?_⟩
  simp only [Demo.documentFd, List.mem_cons, List.not_mem_nil, or_false] at hp
  unfold Spec.LimitsAccepted Spec.StepsAccepted
  rcases hp with rfl | rfl <;> decide +kernel

end Nrf
