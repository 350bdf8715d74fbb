import Verif.Model.Config
import Verif.Model.Errors

/-!
# The Jacobian cache and its computation: `solver/jacobian/*.rs`
-/

namespace Nrf

/-- The panic sites reachable from `RootFinder::solve`. -/
inductive Panic where
  /-- `get_inverse().as_ref().unwrap()` (`rootfinder.rs` L293,
  `jacobian_approximation.rs` L41, `jacobian_inverse_approximation.rs` L22-42). -/
  | inverseUnwrap
  /-- `get_jacobian().as_ref().unwrap()` (`jacobian_approximation.rs` L25-43). -/
  | jacobianUnwrap
  /-- `unwrap` of a stored step (`rootfinder.rs` L237-239 and L251-253). -/
  | stepUnwrap
  /-- `model.evaluate().unwrap()` (`rootfinder.rs` L325). -/
  | dampingEvaluateUnwrap
  /-- `unimplemented!()` (`iteratives_base.rs` L21). -/
  | unimplementedPerturbation
  /-- index out of range (`jacobian_finite_diff.rs` L35 when `len_problem()` exceeds
  the dimension). -/
  | indexOutOfBounds
  /-- `solver_log.as_ref().unwrap()` (`rootfinder.rs` L453-496). -/
  | logUnwrap
  /-- `iteratives_params[0]` on an empty slice (`iteratives_base.rs` L97). -/
  | displayEmptyIteratives
  deriving DecidableEq, Repr

/-- `solver/jacobian/jacobian_struct.rs` L19-29. -/
structure JacobianMatrix (F : Type) (n : Nat) where
  matrix : Option (Mat F n)
  inverse : Option (Mat F n)
  computeNext : Bool
  approximated : Bool

namespace JacobianMatrix
variable {F : Type} {n : Nat}

/-- `jacobian_struct.rs` L48-55, `new`. -/
def new : JacobianMatrix F n :=
  { matrix := none, inverse := none, computeNext := true, approximated := false }

/-- `jacobian_struct.rs` L57-59, `force_jacobian_computation`. -/
def force (j : JacobianMatrix F n) : JacobianMatrix F n := { j with computeNext := true }

/-- `jacobian_struct.rs` L125-128, `invalidate_jacobian`. -/
def invalidate (j : JacobianMatrix F n) : JacobianMatrix F n :=
  { j with matrix := none, inverse := none }

/-- `jacobian_struct.rs` L71-87, `update_jacobian`; the Boolean is `true` for
`Ok(())` and `false` for `Err(NonInvertibleJacobian)`. -/
def update (L : LinAlg F n) (j : JacobianMatrix F n) (m : Mat F n) : JacobianMatrix F n × Bool :=
  match L.inv m with
  | some inv => ({ j with inverse := some inv, matrix := some m, computeNext := false }, true)
  | none => (j.invalidate, false)

/-- `jacobian_struct.rs` L89-95, `update_jacobian_with_exact_value`. -/
def updateExact (L : LinAlg F n) (j : JacobianMatrix F n) (m : Mat F n) :
    JacobianMatrix F n × Bool :=
  update L { j with approximated := false } m

/-- `jacobian_struct.rs` L97-103, `update_jacobian_with_approximated_value`. -/
def updateApproximated (L : LinAlg F n) (j : JacobianMatrix F n) (m : Mat F n) :
    JacobianMatrix F n × Bool :=
  update L { j with approximated := true } m

/-- `jacobian_struct.rs` L108-112, `update_inverse`. -/
def updateInverse (j : JacobianMatrix F n) (inv : Mat F n) : JacobianMatrix F n :=
  { j with matrix := none, inverse := some inv, approximated := true }

end JacobianMatrix

section
variable {F : Type} [Scalar F] {n : Nat} {EI EU S : Type}

/-- `solver/jacobian/jacobian_analytic.rs` L6-39,
`evaluate_jacobian_from_analytical_function`. -/
def analyticJacobian (L : LinAlg F n) (res : ResConf n) (m : UserModel F n EI EU S)
    (j : JacobianMatrix F n) (s : S) :
    JacobianMatrix F n × S × Except (SolverInternalError EI EU) Unit :=
  let values := m.getResiduals s
  match m.getJacobian s with
  | (s', .ok jacs) =>
    match j.updateExact L (jacs.normalize values res.upd) with
    | (j', true) => (j', s', .ok ())
    | (j', false) => (j', s', .error .invalidJacobianInverse)
  | (s', .error e) => (j.invalidate, s', .error (.invalidJacobian e))

/-- The loop of `solver/jacobian/jacobian_finite_diff.rs` L32-59.  `k` counts the
columns still to do, `i` is the loop index. -/
def fdLoop (res : ResConf n) (m : UserModel F n EI EU S) (pert : Vec F n) (memoryRef : List F)
    (xRef resRef : Vec F n) :
    (k i : Nat) → Mat F n → S → Except Panic (S × Except (ModelError EI EU) (Mat F n))
  | 0, _, J, s => .ok (s, .ok J)
  | k + 1, i, J, s =>
    if h : i < n then
      let col := (⟨i, h⟩ : Fin n)
      let xp : Vec F n := fun l => if l = col then xRef col +ᶠ pert col else xRef l
      match m.evaluate (m.setIteratives s xp) with
      | (s', .error (.unusable e)) => .ok (s', .error (.unusable e))
      | (s', _) =>
        let resPert := res.evaluateUpdate (m.getResiduals s')
        let J' := setColumn J col (vdiv (vsub resPert resRef) (pert col))
        fdLoop res m pert memoryRef xRef resRef k (i + 1) J' (m.setMemory s' memoryRef)
    else .error .indexOutOfBounds

/-- `solver/jacobian/jacobian_finite_diff.rs` L14-62,
`compute_jacobian_from_finite_difference`. -/
def fdCompute (res : ResConf n) (m : UserModel F n EI EU S) (pert : Vec F n) (s : S) :
    Except Panic (S × Except (ModelError EI EU) (Mat F n)) :=
  fdLoop res m pert (m.getMemory s) (m.getIteratives s) (res.evaluateUpdate (m.getResiduals s))
    (m.lenProblem s) 0 mzero s

/-- `solver/jacobian/jacobian_finite_diff.rs` L64-94,
`evaluate_jacobian_from_finite_difference`. -/
def fdJacobian (L : LinAlg F n) (res : ResConf n) (iters : Fin n → Iterative F)
    (m : UserModel F n EI EU S) (j : JacobianMatrix F n) (s : S) :
    Except Panic (JacobianMatrix F n × S × Except (SolverInternalError EI EU) Unit) :=
  match computePerturbations iters (m.getIteratives s) with
  | none => .error .unimplementedPerturbation
  | some pert =>
    match fdCompute res m pert s with
    | .error p => .error p
    | .ok (s', .ok J) =>
      match j.updateExact L J with
      | (j', true) => .ok (j', s', .ok ())
      | (j', false) => .ok (j', s', .error .invalidJacobianInverse)
    | .ok (s', .error e) => .ok (j, s', .error (.invalidJacobian e))

/-- `solver/jacobian/jacobian_approximation.rs` L9-52, `approximate_jacobian`; the
Boolean is `false` for `Err(NonInvertibleJacobian)`. -/
def approximateJacobian (L : LinAlg F n) (j : JacobianMatrix F n) (method : UpdateMethod)
    (itStep resStep resCur : Vec F n) : Except Panic (JacobianMatrix F n × Bool) :=
  match method with
  | .BroydenFirst =>
    match j.matrix with
    | none => .error .jacobianUnwrap
    | some jac => .ok (j.updateApproximated L (broydenFirstJac L jac itStep resStep))
  | .BroydenSecond =>
    match j.matrix with
    | none => .error .jacobianUnwrap
    | some jac => .ok (j.updateApproximated L (broydenSecondJac L jac itStep resStep))
  | .GreenstadtFirst =>
    match j.matrix with
    | none => .error .jacobianUnwrap
    | some jac => .ok (j.updateApproximated L (quasiJac L jac itStep resStep resCur))
  | .GreenstadtSecond =>
    match j.inverse with
    | none => .error .inverseUnwrap
    | some inv =>
      let c := mulVec L inv resStep
      match j.matrix with
      | none => .error .jacobianUnwrap
      | some jac => .ok (j.updateApproximated L (greenstadtSecondJac L jac itStep resStep c))

/-- `solver/jacobian/jacobian_inverse_approximation.rs` L7-51,
`approximate_inv_jacobian`. -/
def approximateInvJacobian (L : LinAlg F n) (j : JacobianMatrix F n) (method : UpdateMethod)
    (itStep resStep resCur : Vec F n) : Except Panic (JacobianMatrix F n) :=
  match j.inverse with
  | none => .error .inverseUnwrap
  | some inv =>
    match method with
    | .BroydenFirst => .ok (j.updateInverse (broydenFirstInv L inv itStep resStep))
    | .BroydenSecond => .ok (j.updateInverse (broydenSecondInv L inv itStep resStep))
    | .GreenstadtFirst => .ok (j.updateInverse (quasiInv L inv itStep resStep resCur))
    | .GreenstadtSecond =>
      let c := mulVec L (matMul L (mtranspose inv) inv) resStep
      .ok (j.updateInverse (quasiInv L inv itStep resStep c))

end
end Nrf
