import Verif.Model.Scalar

/-!
# Residuals: `residuals/mod.rs`, `residuals/config.rs`, `residuals/values.rs`
-/

namespace Nrf

/-- `residuals/mod.rs` L21-26. -/
inductive NormalizationMethod where
  | Abs | Rel | Adapt
  deriving DecidableEq, Repr

section
variable {F : Type} [Scalar F] {n : Nat}
open Scalar

/-- `residuals/mod.rs` L87-93, `normalization`. -/
def normalization (x y : F) : NormalizationMethod → F
  | .Abs => x -ᶠ y
  | .Rel => (x -ᶠ y) /ᶠ (Scalar.abs (x +ᶠ y) /ᶠ two)
  | .Adapt => (x -ᶠ y) /ᶠ (one +ᶠ Scalar.abs (x +ᶠ y) /ᶠ two)

/-- `residuals/mod.rs` L98-126, `deriv_normalization`.  `powi(2)` is `z * z`. -/
def derivNormalization (x y dx dy : F) : NormalizationMethod → F
  | .Abs => dx -ᶠ dy
  | .Rel =>
    let diff := x -ᶠ y
    let derivDiff := dx -ᶠ dy
    let sum := x +ᶠ y
    let derivSum := dx +ᶠ dy
    two *ᶠ (derivDiff *ᶠ Scalar.abs sum -ᶠ derivSum *ᶠ diff *ᶠ signum sum) /ᶠ (sum *ᶠ sum)
  | .Adapt =>
    let diff := x -ᶠ y
    let derivDiff := dx -ᶠ dy
    let avg := (x +ᶠ y) /ᶠ two
    let derivAvg := (dx +ᶠ dy) /ᶠ two
    let denominator := one +ᶠ Scalar.abs avg
    let derivDenominator := derivAvg *ᶠ signum avg
    (derivDiff *ᶠ denominator -ᶠ derivDenominator *ᶠ diff) /ᶠ (denominator *ᶠ denominator)

end

/-- `residuals/values.rs` L14-45, `ResidualsValues`.  Both vectors have dimension
`n`, so the length check of `new` always passes. -/
structure ResidualsValues (F : Type) (n : Nat) where
  left : Vec F n
  right : Vec F n

/-- `residuals/values.rs` L88-123, `JacobianValues` (square and of equal shape by
typing). -/
structure JacobianValues (F : Type) (n : Nat) where
  left : Mat F n
  right : Mat F n

/-- `residuals/config.rs` L9-13, `ResidualConfig`. -/
structure ResidualConfig where
  stoppingCriteria : NormalizationMethod
  updateMethod : NormalizationMethod
  deriving DecidableEq, Repr

/-- `residuals/config.rs` L15-22, `Default for ResidualConfig`. -/
def ResidualConfig.default : ResidualConfig := ⟨.Abs, .Abs⟩

/-- `residuals/mod.rs` L145-147, `default_vec_residuals`. -/
def defaultVecResiduals (size : Nat) : List ResidualConfig :=
  List.replicate size ResidualConfig.default

/-- `residuals/config.rs` L52-56, `ResidualsConfig` (slices of any length). -/
structure ResidualsConfig where
  stoppingCriterias : List NormalizationMethod
  updateMethods : List NormalizationMethod
  length : Nat
  deriving DecidableEq, Repr

/-- `residuals/config.rs` L59-77, `ResidualsConfig::new`; `none` is the panic
"Dimension mismatch between stopping_criteras and update_methods". -/
def ResidualsConfig.new (stop upd : List NormalizationMethod) : Option ResidualsConfig :=
  if stop.length ≠ upd.length then none
  else some { stoppingCriterias := stop, updateMethods := upd, length := stop.length }

/-- `residuals/config.rs` L80-93, `convert_into_vecs`. -/
def convertIntoVecs (rs : List ResidualConfig) :
    List NormalizationMethod × List NormalizationMethod :=
  rs.foldl (fun acc elt => (acc.1 ++ [elt.stoppingCriteria], acc.2 ++ [elt.updateMethod])) ([], [])

/-- The residual configuration once the dimension is fixed: entry `i` of both
slices of `ResidualsConfig`. -/
structure ResConf (n : Nat) where
  stop : Fin n → NormalizationMethod
  upd : Fin n → NormalizationMethod

section
variable {F : Type} [Scalar F] {n : Nat}

/-- `residuals/config.rs` L100-116, `evaluate_update_residuals`. -/
def ResConf.evaluateUpdate (r : ResConf n) (v : ResidualsValues F n) : Vec F n :=
  fun i => normalization (v.left i) (v.right i) (r.upd i)

/-- `residuals/config.rs` L119-135, `evaluate_stopping_residuals`. -/
def ResConf.evaluateStopping (r : ResConf n) (v : ResidualsValues F n) : Vec F n :=
  fun i => Scalar.abs (normalization (v.left i) (v.right i) (r.stop i))

/-- `residuals/values.rs` L125-148, `JacobianValues::normalize`. -/
def JacobianValues.normalize (j : JacobianValues F n) (v : ResidualsValues F n)
    (methods : Fin n → NormalizationMethod) : Mat F n :=
  fun i k => derivNormalization (v.left i) (v.right i) (j.left i k) (j.right i k) (methods i)

end
end Nrf
