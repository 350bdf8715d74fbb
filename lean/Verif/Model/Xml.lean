import Verif.Model.Config

/-!
# Configuration files: `xml_parser/*.rs`

The model starts from the element tree produced by `minidom`.  `parser.rs` is
not part of the crate (`xml_parser/mod.rs` does not declare it).
-/

namespace Nrf

/-- `minidom::Element`: name, attributes, child elements (text nodes are skipped
by `children()`).  Attribute names are distinct in an XML element; `attr` returns
the first match. -/
inductive Element where
  | mk (name : String) (attrs : List (String × String)) (children : List Element)

namespace Element
/-- `Element::name`. -/
def name : Element → String | .mk n _ _ => n
/-- The attributes of an element. -/
def attrs : Element → List (String × String) | .mk _ a _ => a
/-- `Element::children`. -/
def children : Element → List Element | .mk _ _ c => c
/-- `Element::attr`. -/
def attr (e : Element) (a : String) : Option String := e.attrs.lookup a
end Element

/-- The panics of `xml_parser/*.rs`, with the values their messages print. -/
inductive XmlPanic where
  /-- "The attribute … is missing in …" -/
  | missing (key nodeInfo : String)
  /-- "The attribute … is not a valid positive integer" -/
  | notInteger (key : String)
  /-- "The attribute … is not a valid float, …" -/
  | notFloat (key : String)
  /-- "The attribute \"damping\" is not a valid boolean, …" -/
  | notBool
  /-- "The attribute … has an improper values, …" -/
  | improper (key nodeInfo : String)
  /-- "The node is expected to be …, got …" and the variants for the root and for
  the children of `iteratives` and `residuals`. -/
  | nodeName (expected got : String)
  /-- `tree.next().unwrap()` on `None`. -/
  | missingNode
  /-- "The ids must be in order starting from 0, …" -/
  | idOrder (got expected : Nat)
  /-- An assertion of the iterative constructors. -/
  | ctor (p : CtorPanic)
  /-- "Dimension mismatch, got problem_size = … and the number of iteratives variables is …" -/
  | iterativesMismatch (problemSize got : Nat)
  /-- "Dimension mismatch, got problem_size = … and the number of residuals variables is …" -/
  | residualsMismatch (problemSize got : Nat)
  deriving DecidableEq, Repr

/-- `char::to_digit(10)` for the ASCII digits. -/
def digitValue (c : Char) : Option Nat :=
  if '0' ≤ c ∧ c ≤ '9' then some (c.toNat - '0'.toNat) else none

/-- The digits of a `usize`, most significant first, in any number. -/
def parseDigits : List Char → Nat → Option Nat
  | [], acc => some acc
  | c :: cs, acc =>
    match digitValue c with
    | none => none
    | some d => parseDigits cs (acc * 10 + d)

/-- The text after an optional leading `+`. -/
def stripPlus : List Char → List Char
  | '+' :: cs => cs
  | cs => cs

/-- `str::parse::<usize>` on a 64-bit target: an optional `+`, at least one ASCII
digit, no overflow. -/
def parseUsize (s : String) : Option Nat :=
  match stripPlus s.toList with
  | [] => none
  | cs =>
    match parseDigits cs 0 with
    | some v => if v < 2 ^ 64 then some v else none
    | none => none

/-- `str::parse::<bool>`. -/
def parseBool (s : String) : Option Bool :=
  if s = "true" then some true else if s = "false" then some false else none

/-- `xml_parser/util.rs` L3-18, `parse_int_attribute`. -/
def parseIntAttribute (node : Element) (key nodeInfo : String) : Except XmlPanic Nat :=
  match node.attr key with
  | none => .error (.missing key nodeInfo)
  | some v =>
    match parseUsize v with
    | some k => .ok k
    | none => .error (.notInteger key)

section
variable {F : Type} (parseF : String → Option F)

/-- `xml_parser/util.rs` L20-26, `parse_float_attribute`; `parseF` is
`str::parse::<f64>`. -/
def parseFloatAttribute (node : Element) (key nodeInfo : String) : Except XmlPanic F :=
  match node.attr key with
  | none => .error (.missing key nodeInfo)
  | some v =>
    match parseF v with
    | some x => .ok x
    | none => .error (.notFloat key)

/-- `xml_parser/util.rs` L28-42, `parse_float_attribute_with_default`. -/
def parseFloatAttributeWithDefault (node : Element) (default : F) (key : String) :
    Except XmlPanic F :=
  match node.attr key with
  | none => .ok default
  | some v =>
    match parseF v with
    | some x => .ok x
    | none => .error (.notFloat key)

/-- `xml_parser/util.rs` L44-52, `check_node_name_and_panic`. -/
def checkNodeName (node : Element) (expected : String) : Except XmlPanic Unit :=
  if node.name ≠ expected then .error (.nodeName expected node.name) else .ok ()

/-- `xml_parser/util.rs` L54-64, `parse_id`. -/
def parseId (node : Element) (expected : Nat) (nodeInfo : String) : Except XmlPanic Nat := do
  let id ← parseIntAttribute node "id" nodeInfo
  if expected ≠ id then .error (.idOrder id expected) else .ok id

/-- The match of `xml_parser/node_solver.rs` L33-44. -/
def methodOfTag : String → Option ResolutionMethod
  | "NR" => some .NewtonRaphson
  | "SN" => some (.QuasiNewton .StationaryNewton)
  | "BROY1" => some (.QuasiNewton (.JacobianUpdate .BroydenFirst))
  | "BROY1_INV" => some (.QuasiNewton (.InverseJacobianUpdate .BroydenFirst))
  | "BROY2" => some (.QuasiNewton (.JacobianUpdate .BroydenSecond))
  | "BROY2_INV" => some (.QuasiNewton (.InverseJacobianUpdate .BroydenSecond))
  | "GRST1" => some (.QuasiNewton (.JacobianUpdate .GreenstadtFirst))
  | "GRST1_INV" => some (.QuasiNewton (.InverseJacobianUpdate .GreenstadtFirst))
  | "GRST2" => some (.QuasiNewton (.JacobianUpdate .GreenstadtSecond))
  | "GRST2_INV" => some (.QuasiNewton (.InverseJacobianUpdate .GreenstadtSecond))
  | _ => none

/-- `xml_parser/node_solver.rs` L29-45, `parse_resolution_method`. -/
def parseResolutionMethod (node : Element) (nodeInfo : String) :
    Except XmlPanic ResolutionMethod :=
  match node.attr "resolution_method" with
  | none => .error (.missing "resolution_method" nodeInfo)
  | some v =>
    match methodOfTag v with
    | some m => .ok m
    | none => .error (.improper "resolution_method" nodeInfo)

/-- `xml_parser/node_solver.rs` L15-18. -/
def parseDamping (node : Element) : Except XmlPanic Bool :=
  match node.attr "damping" with
  | some v =>
    match parseBool v with
    | some b => .ok b
    | none => .error .notBool
  | none => .ok false

/-- `xml_parser/node_solver.rs` L8-27, `parse_solver_node`. -/
def parseSolverNode (node : Element) : Except XmlPanic (SolverParameters F) := do
  let problemSize ← parseIntAttribute node "problem_size" "solver node"
  let maxIter ← parseIntAttribute node "max_iter" "solver node"
  let tolerance ← parseFloatAttribute parseF node "tolerance" "solver node"
  let method ← parseResolutionMethod node "solver node"
  let damping ← parseDamping node
  return { problemSize, tolerance, maxIter, method, damping }

/-- The match of `xml_parser/node_iterative.rs` L11-15 and L25-29. -/
def perturbationOfTag : String → Option PerturbationMethod
  | "Max" => some .Max
  | "Sum" => some .Sum
  | _ => none

/-- `xml_parser/node_iterative.rs` L4-16, `parse_perturbation_method`. -/
def parsePerturbationMethod (node : Element) (nodeInfo : String) :
    Except XmlPanic PerturbationMethod :=
  match node.attr "perturbation_method" with
  | none => .error (.missing "perturbation_method" nodeInfo)
  | some v =>
    match perturbationOfTag v with
    | some m => .ok m
    | none => .error (.improper "perturbation_method" nodeInfo)

/-- `xml_parser/node_iterative.rs` L18-31, `parse_perturbation_method_with_default`. -/
def parsePerturbationMethodWithDefault (node : Element) (default : PerturbationMethod)
    (nodeInfo : String) : Except XmlPanic PerturbationMethod :=
  match node.attr "perturbation_method" with
  | none => .ok default
  | some v =>
    match perturbationOfTag v with
    | some m => .ok m
    | none => .error (.improper "perturbation_method" nodeInfo)

/-- A constructor call: its panic ends the parsing. -/
def liftCtor {α : Type} : Except CtorPanic α → Except XmlPanic α
  | .ok a => .ok a
  | .error p => .error (.ctor p)

/-- `for (expected_id, node) in children().enumerate() { … push }`: the common
shape of the loops in `node_iterative_jac.rs` L9-22, `node_iterative_fd.rs` L9-22
and `node_residual.rs` L16-30. -/
def parseNumbered {α : Type} (childName idInfo infoPrefix : String)
    (parse : Element → String → Except XmlPanic α) :
    List Element → Nat → Except XmlPanic (List α)
  | [], _ => .ok []
  | node :: rest, expected => do
    if node.name ≠ childName then .error (.nodeName childName node.name) else
    let id ← parseId node expected idInfo
    let a ← parse node (infoPrefix ++ toString id)
    let as ← parseNumbered childName idInfo infoPrefix parse rest (expected + 1)
    return a :: as

variable [Scalar F]

/-- `xml_parser/node_iterative_jac.rs` L27-39, `parse_iterative_jac_node`. -/
def parseIterativeJacNode (node : Element) (nodeInfo : String) :
    Except XmlPanic (IterativeParams F) := do
  let minValue ← parseFloatAttribute parseF node "min_value" nodeInfo
  let maxValue ← parseFloatAttribute parseF node "max_value" nodeInfo
  let maxStepAbs ← parseFloatAttribute parseF node "max_step_abs" nodeInfo
  let maxStepRel ← parseFloatAttribute parseF node "max_step_rel" nodeInfo
  liftCtor (IterativeParams.new maxStepAbs maxStepRel minValue maxValue)

/-- `xml_parser/node_iterative_jac.rs` L41-72, `parse_iterative_jac_node_with_default`. -/
def parseIterativeJacNodeWithDefault (node : Element) (d : IterativeParams F) :
    Except XmlPanic (IterativeParams F) := do
  let minValue ← parseFloatAttributeWithDefault parseF node d.minValue "min_value"
  let maxValue ← parseFloatAttributeWithDefault parseF node d.maxValue "max_value"
  let maxStepAbs ← parseFloatAttributeWithDefault parseF node d.maxStepAbs "max_step_abs"
  let maxStepRel ← parseFloatAttributeWithDefault parseF node d.maxStepRel "max_step_rel"
  liftCtor (IterativeParams.new maxStepAbs maxStepRel minValue maxValue)

/-- `xml_parser/node_iterative_jac.rs` L4-25, `parse_iteratives_jac_node`. -/
def parseIterativesJacNode (node : Element) : Except XmlPanic (List (IterativeParams F)) := do
  let default ← parseIterativeJacNode parseF node "iteratives node"
  parseNumbered "iterative" "iterative node" "iterative node id = "
    (fun child _ => parseIterativeJacNodeWithDefault parseF child default) node.children 0

/-- `xml_parser/node_iterative_fd.rs` L27-40, `parse_iterative_fd_node`. -/
def parseIterativeFdNode (node : Element) (nodeInfo : String) :
    Except XmlPanic (IterativeParamsFD F) := do
  let iterative ← parseIterativeJacNode parseF node nodeInfo
  let dxAbs ← parseFloatAttribute parseF node "dx_abs" nodeInfo
  let dxRel ← parseFloatAttribute parseF node "dx_rel" nodeInfo
  let method ← parsePerturbationMethod node nodeInfo
  liftCtor (IterativeParamsFD.extend iterative dxAbs dxRel method)

/-- `xml_parser/node_iterative_fd.rs` L42-73, `parse_iterative_fd_node_with_default`. -/
def parseIterativeFdNodeWithDefault (node : Element) (d : IterativeParamsFD F)
    (nodeInfo : String) : Except XmlPanic (IterativeParamsFD F) := do
  let iterative ← parseIterativeJacNodeWithDefault parseF node d.iterativeParams
  let dxAbs ← parseFloatAttributeWithDefault parseF node d.dxAbs "dx_abs"
  let dxRel ← parseFloatAttributeWithDefault parseF node d.dxRel "dx_rel"
  let method ← parsePerturbationMethodWithDefault node d.perturbationMethod nodeInfo
  liftCtor (IterativeParamsFD.extend iterative dxAbs dxRel method)

/-- `xml_parser/node_iterative_fd.rs` L4-25, `parse_iteratives_fd_node`. -/
def parseIterativesFdNode (node : Element) : Except XmlPanic (List (IterativeParamsFD F)) := do
  let default ← parseIterativeFdNode parseF node "iteratives node"
  parseNumbered "iterative" "iterative node" "iterative node id = "
    (fun child info => parseIterativeFdNodeWithDefault parseF child default info) node.children 0

end

/-- The match of `xml_parser/node_residual.rs` L74-79 and L92-96. -/
def normalizationOfTag : String → Option NormalizationMethod
  | "Abs" => some .Abs
  | "Rel" => some .Rel
  | "Adapt" => some .Adapt
  | _ => none

/-- `xml_parser/node_residual.rs` L67-80, `parse_normalization_method_attribute`. -/
def parseNormalizationAttribute (node : Element) (key nodeInfo : String) :
    Except XmlPanic NormalizationMethod :=
  match node.attr key with
  | none => .error (.missing key nodeInfo)
  | some v =>
    match normalizationOfTag v with
    | some m => .ok m
    | none => .error (.improper key nodeInfo)

/-- `xml_parser/node_residual.rs` L82-98,
`parse_normalization_method_attribute_with_default`. -/
def parseNormalizationAttributeWithDefault (node : Element) (default : NormalizationMethod)
    (key nodeInfo : String) : Except XmlPanic NormalizationMethod :=
  match node.attr key with
  | none => .ok default
  | some v =>
    match normalizationOfTag v with
    | some m => .ok m
    | none => .error (.improper key nodeInfo)

/-- `xml_parser/node_residual.rs` L37-44, `parse_residual_node`. -/
def parseResidualNode (node : Element) (nodeInfo : String) : Except XmlPanic ResidualConfig := do
  let stoppingCriteria ← parseNormalizationAttribute node "stopping_criteria" nodeInfo
  let updateMethod ← parseNormalizationAttribute node "update_method" nodeInfo
  return { stoppingCriteria, updateMethod }

/-- `xml_parser/node_residual.rs` L46-65, `parse_residual_node_with_default`. -/
def parseResidualNodeWithDefault (node : Element) (d : ResidualConfig) (nodeInfo : String) :
    Except XmlPanic ResidualConfig := do
  let stoppingCriteria ←
    parseNormalizationAttributeWithDefault node d.stoppingCriteria "stopping_criteria" nodeInfo
  let updateMethod ←
    parseNormalizationAttributeWithDefault node d.updateMethod "update_method" nodeInfo
  return { stoppingCriteria, updateMethod }

/-- `xml_parser/node_residual.rs` L5-35, `parse_residuals_node`. -/
def parseResidualsNode (node : Element) :
    Except XmlPanic (List NormalizationMethod × List NormalizationMethod) := do
  let default ← parseResidualNode node "residuals node"
  let rs ← parseNumbered "residual" "residual_node" "residual node id = "
    (fun child info => parseResidualNodeWithDefault child default info) node.children 0
  return convertIntoVecs rs

/-- What the two parsers return. -/
structure ParsedConfig (F α : Type) where
  params : SolverParameters F
  iteratives : List α
  stoppingCriterias : List NormalizationMethod
  updateMethods : List NormalizationMethod

/-- `parse_root_node_fd` (`xml_parser/xml_file_fd.rs` L50-91) and
`parse_root_node_jac` (`xml_parser/xml_file_jac.rs` L150-190), which differ only in
the function parsing the `iteratives` node. -/
def parseRoot {F α : Type} (parseF : String → Option F)
    (parseIteratives : Element → Except XmlPanic (List α)) (root : Element) :
    Except XmlPanic (ParsedConfig F α) := do
  if root.name ≠ "nrf" then .error (.nodeName "nrf" root.name) else
  match root.children with
  | [] => .error .missingNode
  | solverNode :: tree =>
    checkNodeName solverNode "solver"
    let params ← parseSolverNode parseF solverNode
    match tree with
    | [] => .error .missingNode
    | iterativesNode :: tree =>
      checkNodeName iterativesNode "iteratives"
      let iteratives ← parseIteratives iterativesNode
      match tree with
      | [] => .error .missingNode
      | residualsNode :: _ =>
        checkNodeName residualsNode "residuals"
        let (stoppingCriterias, updateMethods) ← parseResidualsNode residualsNode
        if params.problemSize ≠ iteratives.length then
          .error (.iterativesMismatch params.problemSize iteratives.length)
        else if params.problemSize ≠ stoppingCriterias.length then
          .error (.residualsMismatch params.problemSize stoppingCriterias.length)
        else return { params, iteratives, stoppingCriterias, updateMethods }

/-- `xml_parser/xml_file_fd.rs` L50-91 (`from_xml_finite_diff` after reading the
file and building the tree). -/
def fromXmlFiniteDiff {F : Type} [Scalar F] (parseF : String → Option F) (root : Element) :
    Except XmlPanic (ParsedConfig F (IterativeParamsFD F)) :=
  parseRoot parseF (parseIterativesFdNode parseF) root

/-- `xml_parser/xml_file_jac.rs` L150-190 (`from_xml_jacobian` after reading the
file and building the tree). -/
def fromXmlJacobian {F : Type} [Scalar F] (parseF : String → Option F) (root : Element) :
    Except XmlPanic (ParsedConfig F (IterativeParams F)) :=
  parseRoot parseF (parseIterativesJacNode parseF) root

end Nrf
