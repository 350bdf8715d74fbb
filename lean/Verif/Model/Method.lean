import Verif.Model.Scalar

/-!
# Resolution methods and quasi-Newton update formulas: `solver/resolution_method.rs`
-/

namespace Nrf

/-- `solver/resolution_method.rs` L149-154. -/
inductive UpdateMethod where
  | BroydenFirst | BroydenSecond | GreenstadtFirst | GreenstadtSecond
  deriving DecidableEq, Repr

/-- `solver/resolution_method.rs` L53-62. -/
inductive QuasiNewtonMethod where
  | StationaryNewton
  | JacobianUpdate (m : UpdateMethod)
  | InverseJacobianUpdate (m : UpdateMethod)
  deriving DecidableEq, Repr

/-- `solver/resolution_method.rs` L11-26. -/
inductive ResolutionMethod where
  | NewtonRaphson
  | QuasiNewton (m : QuasiNewtonMethod)
  deriving DecidableEq, Repr

section
variable {F : Type} [Scalar F] {n : Nat} (L : LinAlg F n)

/-- L177-189: `jac - (jac * s - y) * s.transpose() / (s.norm_squared())`.
`norm_squared` is the sum of products `dot s s`. -/
def broydenFirstJac (jac : Mat F n) (s y : Vec F n) : Mat F n :=
  msub jac (mdiv (outer (vsub (mulVec L jac s) y) s) (L.dot s s))

/-- L192-204:
`inv - (inv * y - s) * s.transpose() * inv / ((s.transpose() * inv * y)[(0, 0)])`. -/
def broydenFirstInv (inv : Mat F n) (s y : Vec F n) : Mat F n :=
  msub inv (mdiv (matMul L (outer (vsub (mulVec L inv y) s) s) inv) (L.dot (vecMul L s inv) y))

/-- L207-219:
`jac - (jac * s - y) * y.transpose() * jac / ((y.transpose() * jac * s)[(0, 0)])`. -/
def broydenSecondJac (jac : Mat F n) (s y : Vec F n) : Mat F n :=
  msub jac (mdiv (matMul L (outer (vsub (mulVec L jac s) y) y) jac) (L.dot (vecMul L y jac) s))

/-- L222-234: `inv - (inv * y - s) * y.transpose() / (y.norm_squared())`. -/
def broydenSecondInv (inv : Mat F n) (s y : Vec F n) : Mat F n :=
  msub inv (mdiv (outer (vsub (mulVec L inv y) s) y) (L.dot y y))

/-- L239-252: `inv - (inv * y - s) * c.transpose() / ((c.transpose() * y)[(0, 0)])`. -/
def quasiInv (inv : Mat F n) (s y c : Vec F n) : Mat F n :=
  msub inv (mdiv (outer (vsub (mulVec L inv y) s) c) (L.dot c y))

/-- L257-270:
`jac - (jac * s - y) * c.transpose() * jac / ((c.transpose() * jac * s)[(0, 0)])`. -/
def quasiJac (jac : Mat F n) (s y c : Vec F n) : Mat F n :=
  msub jac (mdiv (matMul L (outer (vsub (mulVec L jac s) y) c) jac) (L.dot (vecMul L c jac) s))

/-- L273-286: `jac - (jac * s - y) * hy.transpose() / ((hy.transpose() * s)[(0, 0)])`. -/
def greenstadtSecondJac (jac : Mat F n) (s y hy : Vec F n) : Mat F n :=
  msub jac (mdiv (outer (vsub (mulVec L jac s) y) hy) (L.dot hy s))

end
end Nrf
