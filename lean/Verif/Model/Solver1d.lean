import Verif.Model.Scalar

/-!
# The one-dimensional solver: `util/src/solver_one_dimensional.rs`
-/

namespace Nrf

section
variable {F : Type} [Scalar F]

/-- `finite_diff` (L69-72). -/
def finiteDiff (x fRef : F) (func : F → F) (dx : F) : F :=
  (func (x +ᶠ dx) -ᶠ fRef) /ᶠ dx

/-- The `while` loops of L37-43 and L59-64: `slope guess res` is `deriv(guess)` or
`finite_diff(guess, res, func, dx)`.  `fuel` is `max_iter - iter`; the result is
the final guess with the number of iterations done. -/
def loop1d (func : F → F) (slope : F → F → F) (tol : F) : (fuel : Nat) → (guess res : F) → F × Nat
  | 0, guess, _ => (guess, 0)
  | fuel + 1, guess, res =>
    if Scalar.lt tol (Scalar.abs res) then
      let guess' := guess -ᶠ (res /ᶠ slope guess res)
      let r := loop1d func slope tol fuel guess' (func guess')
      (r.1, r.2 + 1)
    else (guess, 0)

/-- `solver1d` (L27-46), with the number of iterations. -/
def solver1dRun (initGuess : F) (func deriv : F → F) (maxIter : Nat) (tol : F) : F × Nat :=
  loop1d func (fun guess _ => deriv guess) tol maxIter initGuess (func initGuess)

/-- `solver1d_fd` (L48-67), with the number of iterations. -/
def solver1dFdRun (initGuess : F) (func : F → F) (maxIter : Nat) (tol dx : F) : F × Nat :=
  loop1d func (fun guess res => finiteDiff guess res func dx) tol maxIter initGuess
    (func initGuess)

/-- `solver1d` (L27-46). -/
def solver1d (initGuess : F) (func deriv : F → F) (maxIter : Nat) (tol : F) : F :=
  (solver1dRun initGuess func deriv maxIter tol).1

/-- `solver1d_fd` (L48-67). -/
def solver1dFd (initGuess : F) (func : F → F) (maxIter : Nat) (tol dx : F) : F :=
  (solver1dFdRun initGuess func maxIter tol dx).1

end
end Nrf
