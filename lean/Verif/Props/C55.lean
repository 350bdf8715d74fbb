import Verif.Model.Solver1d
import Verif.Spec.Exact
import Mathlib.Logic.Function.Iterate
import Mathlib.Algebra.Order.Ring.Rat

/-!
# C55: solver1d stops correctly
-/

namespace Nrf

/-- `x` is reached from `x0` by `k` applications of `next`, the first time that the error
is not above the tolerance, or after `maxIter` applications. -/
structure Spec.FirstWithin {F : Type} (above : F → Prop) (next : F → F) (maxIter : Nat)
    (x0 x : F) (k : Nat) : Prop where
  reached : x = next^[k] x0
  budget : k ≤ maxIter
  before : ∀ j, j < k → above (next^[j] x0)
  stop : above x → k = maxIter

theorem loop1d_spec {F : Type} [Scalar F] (func : F → F) (slope : F → F → F) (tol : F) :
    ∀ (fuel : Nat) (guess : F), Spec.FirstWithin
      (fun x => Scalar.lt tol (Scalar.abs (func x)) = true)
      (fun x => x -ᶠ (func x /ᶠ slope x (func x))) fuel guess
      (loop1d func slope tol fuel guess (func guess)).1
      (loop1d func slope tol fuel guess (func guess)).2
  | 0, guess => ⟨rfl, Nat.le_refl _, fun j hj => absurd hj (Nat.not_lt_zero j), fun _ => rfl⟩
  | fuel + 1, guess => by
    rw [loop1d]
    by_cases h : Scalar.lt tol (Scalar.abs (func guess)) = true
    · rw [if_pos h]
      dsimp only
      obtain ⟨h1, h2, h3, h4⟩ := loop1d_spec func slope tol fuel
        (guess -ᶠ (func guess /ᶠ slope guess (func guess)))
      refine ⟨by rw [Function.iterate_succ_apply]; exact h1, Nat.succ_le_succ h2, ?_, ?_⟩
      · intro j hj
        cases j with
        | zero => exact h
        | succ j =>
          rw [Function.iterate_succ_apply]
          exact h3 j (Nat.lt_of_succ_lt_succ hj)
      · intro ha
        rw [h4 ha]
    · rw [if_neg h]
      exact ⟨rfl, Nat.zero_le _, fun j hj => absurd hj (Nat.not_lt_zero j), fun ha => absurd ha h⟩

/-- `solver1d` returns the first point of the Newton sequence that is not above the
tolerance, or point number `max_iter`; `k` is the number of iterations used. -/
theorem C55_solver1d {F : Type} [Scalar F] (guess : F) (func deriv : F → F) (maxIter : Nat)
    (tol : F) : ∃ k, Spec.FirstWithin
      (fun x => Scalar.lt tol (Scalar.abs (func x)) = true)
      (fun x => x -ᶠ (func x /ᶠ deriv x)) maxIter guess
      (solver1d guess func deriv maxIter tol) k :=
  ⟨_, loop1d_spec func (fun guess _ => deriv guess) tol maxIter guess⟩

/-- The same for `solver1d_fd` with difference quotients. -/
theorem C55_solver1d_fd {F : Type} [Scalar F] (guess : F) (func : F → F) (maxIter : Nat)
    (tol dx : F) : ∃ k, Spec.FirstWithin
      (fun x => Scalar.lt tol (Scalar.abs (func x)) = true)
      (fun x => x -ᶠ (func x /ᶠ ((func (x +ᶠ dx) -ᶠ func x) /ᶠ dx))) maxIter guess
      (solver1dFd guess func maxIter tol dx) k :=
  ⟨_, loop1d_spec func (fun guess res => finiteDiff guess res func dx) tol maxIter guess⟩

/-- A guess already within the tolerance is returned. -/
theorem C55_initial_guess {F : Type} [Scalar F] (guess : F) (func deriv : F → F) (maxIter : Nat)
    (tol dx : F) (h : Scalar.lt tol (Scalar.abs (func guess)) = false) :
    solver1d guess func deriv maxIter tol = guess ∧
      solver1dFd guess func maxIter tol dx = guess := by
  have key : ∀ {next : F → F} {x k}, Spec.FirstWithin
      (fun x => Scalar.lt tol (Scalar.abs (func x)) = true) next maxIter guess x k →
      x = guess := by
    intro next x k hk
    cases k with
    | zero => exact hk.reached
    | succ k =>
      have := hk.before 0 (Nat.succ_pos k)
      simp only [Function.iterate_zero, id_eq] at this
      rw [h] at this
      cases this
  obtain ⟨k, hk⟩ := C55_solver1d guess func deriv maxIter tol
  obtain ⟨k', hk'⟩ := C55_solver1d_fd guess func maxIter tol dx
  exact ⟨key hk, key hk'⟩

open scoped Exact in
/-- In exact arithmetic: the result is within the tolerance, or it is point number
`max_iter` of the Newton sequence. -/
theorem C55_exact {K : Type} [Field K] [LinearOrder K] [IsStrictOrderedRing K] (guess : K)
    (func deriv : K → K) (maxIter : Nat) (tol dx : K) :
    (|func (solver1d guess func deriv maxIter tol)| ≤ tol ∨
      solver1d guess func deriv maxIter tol =
        (fun x => x - func x / deriv x)^[maxIter] guess) ∧
    (|func (solver1dFd guess func maxIter tol dx)| ≤ tol ∨
      solver1dFd guess func maxIter tol dx =
        (fun x => x - func x / ((func (x + dx) - func x) / dx))^[maxIter] guess) := by
  have key : ∀ {next : K → K} {x k}, Spec.FirstWithin
      (fun x => Scalar.lt tol (Scalar.abs (func x)) = true) next maxIter guess x k →
      |func x| ≤ tol ∨ x = next^[maxIter] guess := by
    intro next x k hk
    by_cases h : |func x| ≤ tol
    · exact .inl h
    · have h1 : k = maxIter := hk.stop (decide_eq_true (not_le.1 h))
      exact .inr (h1 ▸ hk.reached)
  obtain ⟨k, hk⟩ := C55_solver1d guess func deriv maxIter tol
  obtain ⟨k', hk'⟩ := C55_solver1d_fd guess func maxIter tol dx
  exact ⟨key hk, key hk'⟩

open scoped Exact in
/-- Three iterations from 2 towards the square root of two. -/
example : solver1dRun (2 : ℚ) (fun x => x * x - 2) (fun x => 2 * x) 50 (1 / 1000) =
    (577 / 408, 3) := by
  decide +kernel

end Nrf
