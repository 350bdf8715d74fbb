import Verif.Model.Xml

/-!
# What a configuration document says

A description of the documents of `xml_parser/*.rs` as a relation between an element
tree and the values it stands for, without any order of parsing and without error
messages.
-/

namespace Nrf.Spec

/-- Attribute `key` of `node`, read with `parse`. -/
def value {α : Type} (parse : String → Option α) (node : Element) (key : String) : Option α :=
  (node.attr key).bind parse

/-- Attribute `key` of `node`, or of the enclosing group when `node` has none, read with
`parse`. -/
def inherited {α : Type} (parse : String → Option α) (group node : Element) (key : String) :
    Option α :=
  ((node.attr key).or (group.attr key)).bind parse

/-- The children are numbered `0, 1, 2, …` and all called `name`. -/
def Numbered (name : String) (children : List Element) : Prop :=
  ∀ (k : Nat) node, children[k]? = some node → node.name = name ∧ value parseUsize node "id" = some k

section
variable {F : Type} [Scalar F] (parseF : String → Option F)

/-- The checks of `IterativeParams::new`. -/
def LimitsAccepted (p : IterativeParams F) : Prop :=
  Scalar.le p.maxStepAbs Scalar.zero = false ∧ Scalar.le p.maxStepRel Scalar.zero = false ∧
    Scalar.le p.maxValue p.minValue = false

/-- The checks of `IterativeParamsFD::extend`. -/
def StepsAccepted (p : IterativeParamsFD F) : Prop :=
  Scalar.le p.dxAbs Scalar.zero = false ∧ Scalar.le p.dxRel Scalar.zero = false

/-- `node`, inside `group`, describes the limits `p`. -/
structure Limits (group node : Element) (p : IterativeParams F) : Prop where
  minValue : inherited parseF group node "min_value" = some p.minValue
  maxValue : inherited parseF group node "max_value" = some p.maxValue
  maxStepAbs : inherited parseF group node "max_step_abs" = some p.maxStepAbs
  maxStepRel : inherited parseF group node "max_step_rel" = some p.maxStepRel
  accepted : LimitsAccepted p

/-- `node`, inside `group`, describes the finite-difference iterative `p`. -/
structure LimitsFd (group node : Element) (p : IterativeParamsFD F) : Prop where
  limits : Limits parseF group node p.iterativeParams
  dxAbs : inherited parseF group node "dx_abs" = some p.dxAbs
  dxRel : inherited parseF group node "dx_rel" = some p.dxRel
  perturbationMethod :
    inherited perturbationOfTag group node "perturbation_method" = some p.perturbationMethod
  accepted : StepsAccepted p

/-- `group` describes the list `ps`: its own attributes form an acceptable element, its
children are numbered, and child `k` describes element `k`. -/
def Group {α : Type} (describes : Element → Element → α → Prop) (name : String)
    (group : Element) (ps : List α) : Prop :=
  (∃ d, describes group group d) ∧ Numbered name group.children ∧
    ps.length = group.children.length ∧
    ∀ (k : Nat) node p, group.children[k]? = some node → ps[k]? = some p → describes group node p

/-- `node`, inside `group`, describes the residual configuration `r`. -/
structure Residual (group node : Element) (r : ResidualConfig) : Prop where
  stopping : inherited normalizationOfTag group node "stopping_criteria" = some r.stoppingCriteria
  update : inherited normalizationOfTag group node "update_method" = some r.updateMethod

/-- `node` describes the solver parameters `p`; only `damping` may be absent. -/
structure Parameters (node : Element) (p : SolverParameters F) : Prop where
  problemSize : value parseUsize node "problem_size" = some p.problemSize
  maxIter : value parseUsize node "max_iter" = some p.maxIter
  tolerance : value parseF node "tolerance" = some p.tolerance
  method : value methodOfTag node "resolution_method" = some p.method
  damping : ((node.attr "damping").or (some "false")).bind parseBool = some p.damping

/-- `root` describes the configuration `cfg`. -/
def Document {α : Type} (describes : Element → Element → α → Prop) (root : Element)
    (cfg : ParsedConfig F α) : Prop :=
  root.name = "nrf" ∧ ∃ solver iteratives residuals rest,
    root.children = solver :: iteratives :: residuals :: rest ∧
    solver.name = "solver" ∧ iteratives.name = "iteratives" ∧ residuals.name = "residuals" ∧
    Parameters parseF solver cfg.params ∧
    Group describes "iterative" iteratives cfg.iteratives ∧
    (∃ rs, Group Residual "residual" residuals rs ∧
      cfg.stoppingCriterias = rs.map (·.stoppingCriteria) ∧
      cfg.updateMethods = rs.map (·.updateMethod)) ∧
    cfg.iteratives.length = cfg.params.problemSize ∧
    cfg.stoppingCriterias.length = cfg.params.problemSize

end
end Nrf.Spec
