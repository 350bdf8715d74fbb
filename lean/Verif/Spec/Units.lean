import Verif.Model.RootFinder
import Verif.Spec.Exact

/-!
# The same problem in other units

The variable `i` is expressed in a unit in which its values are multiplied by `d i`.  The state of the model, the
equations and their values stay the same.
-/

namespace Nrf.Spec

section
variable {K : Type} [Field K] {n : Nat} {EI EU S : Type} (d : Vec K n)

/-- A vector of variables, or of steps. -/
def newUnits (x : Vec K n) : Vec K n := fun i => d i * x i

/-- Back to the old units. -/
def oldUnits (x : Vec K n) : Vec K n := fun i => x i / d i

/-- Derivatives with respect to the variables. -/
def perUnit (A : Mat K n) : Mat K n := fun i k => A i k / d k

/-- The inverse of a matrix of derivatives. -/
def newUnitsRows (A : Mat K n) : Mat K n := fun i k => d i * A i k

/-- The model, for a solver that works in the new units. -/
def modelInUnits (m : UserModel K n EI EU S) : UserModel K n EI EU S :=
  { m with
    setIteratives := fun s x => m.setIteratives s (oldUnits d x)
    getIteratives := fun s => newUnits d (m.getIteratives s)
    getJacobian := fun s =>
      ((m.getJacobian s).1, (m.getJacobian s).2.map fun J => ⟨perUnit d J.left, perUnit d J.right⟩) }

/-- The limits and the perturbation of one variable. -/
def iterativeInUnits (u : K) (it : Iterative K) : Iterative K :=
  { it with
    stepLimitation := fun v r => u * it.stepLimitation (v / u) (r / u)
    computePerturbation := it.computePerturbation.map fun p v => u * p (v / u) }

/-- The configuration: guess, limits and perturbations are converted. -/
def configInUnits (c : Config K n) : Config K n :=
  { c with
    guess := newUnits d c.guess
    iters := fun i => iterativeInUnits (d i) (c.iters i) }

def jacobianInUnits (j : JacobianMatrix K n) : JacobianMatrix K n :=
  { j with matrix := j.matrix.map (perUnit d), inverse := j.inverse.map (newUnitsRows d) }

def entryInUnits : LogEntry K n → LogEntry K n
  | .iteration k x v e => .iteration k (newUnits d x) v e
  | .damping x v e => .damping (newUnits d x) v e
  | .jacobian j => .jacobian (jacobianInUnits d j)
  | .header => .header
  | .parameters => .parameters
  | .refused => .refused

/-- The solver: stored matrices and steps, and the log. -/
def solverInUnits (st : Solver K n) : Solver K n :=
  { st with
    jac := jacobianInUnits d st.jac
    itStep := st.itStep.map (newUnits d)
    log := st.log.map (List.map (entryInUnits d)) }

/-- An outcome: panics, model states and verdicts stay the same. -/
def outcomeInUnits {R : Type} (w : Except Panic (Solver K n × S × R)) : Except Panic (Solver K n × S × R) :=
  w.map fun p => (solverInUnits d p.1, p.2)

end

/-- The methods whose formulas do not multiply variables with variables. -/
def UnitFree : ResolutionMethod → Prop
  | .NewtonRaphson => True
  | .QuasiNewton .StationaryNewton => True
  | .QuasiNewton (.JacobianUpdate u) => u = .BroydenSecond ∨ u = .GreenstadtFirst
  | .QuasiNewton (.InverseJacobianUpdate u) => u = .BroydenSecond ∨ u = .GreenstadtFirst

end Nrf.Spec
