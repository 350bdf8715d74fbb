import Verif.Proofs.Limits
import Verif.Proofs.Points
import Verif.Model.Binary64
import Verif.Spec.Demo

/-!
# C18: iterates stay inside the declared range
-/

namespace Nrf

/-- Floating point: with an analytic Jacobian and no damping, the model is first
evaluated at the guess and then only at points inside the declared range, whatever
it returns, for every method, linear algebra and history of the solver. -/
theorem C18_float {K : Type} [Field K] [LinearOrder K] [Rounding K] [IsStrictOrderedRing K]
    {n : Nat} {EI EU S : Type} (c : Config (Fl K) n) (m : UserModel (Fl K) n EI EU S)
    (hp : ∀ s, m.jacobianProvided s = true) (hd : c.params.damping = false)
    (p : Fin n → IterativeParams (Fl K))
    (hlim : ∀ i, (c.iters i).stepLimitation = (p i).stepLimitation)
    (hnew : ∀ i, ∃ a b lo hi, IterativeParams.new a b lo hi = .ok (p i))
    (hlo : ∀ i, (p i).minValue ≠ .nan) (hhi : ∀ i, (p i).maxValue ≠ .nan)
    (st st' : Solver (Fl K) n) (s s' : S) (calls : List (Call (Fl K) n EI EU))
    (r : Except (SolverError EI EU) Unit)
    (h : solve c (recorded m) st (s, []) = .ok (st', (s', calls), r)) :
    ∃ rest, points calls = c.guess :: rest ∧ ∀ x ∈ rest, ∀ i,
      Scalar.le (p i).minValue (x i) = true ∧ Scalar.le (x i) (p i).maxValue = true := by
  obtain ⟨rest, h1, h2⟩ := solve_points hp hd h
  refine ⟨rest, h1, fun x hx i => ?_⟩
  obtain ⟨v, raw, rfl⟩ := h2 x hx
  obtain ⟨a, b, lo, hi, hn⟩ := hnew i
  simp only [stepLimitations, hlim, fl_stepLimitation]
  exact Fl.clamp_range _ (fl_bounds hn (hlo i) (hhi i))

open scoped Exact in
/-- Exact arithmetic: the same. -/
theorem C18_exact {K : Type} [Field K] [LinearOrder K] {n : Nat} {EI EU S : Type}
    (c : Config K n) (m : UserModel K n EI EU S)
    (hp : ∀ s, m.jacobianProvided s = true) (hd : c.params.damping = false)
    (p : Fin n → IterativeParams K)
    (hlim : ∀ i, (c.iters i).stepLimitation = (p i).stepLimitation)
    (hnew : ∀ i, ∃ a b lo hi, IterativeParams.new a b lo hi = .ok (p i))
    (st st' : Solver K n) (s s' : S) (calls : List (Call K n EI EU))
    (r : Except (SolverError EI EU) Unit)
    (h : solve c (recorded m) st (s, []) = .ok (st', (s', calls), r)) :
    ∃ rest, points calls = c.guess :: rest ∧ ∀ x ∈ rest, ∀ i,
      (p i).minValue ≤ x i ∧ x i ≤ (p i).maxValue := by
  obtain ⟨rest, h1, h2⟩ := solve_points hp hd h
  refine ⟨rest, h1, fun x hx i => ?_⟩
  obtain ⟨v, raw, rfl⟩ := h2 x hx
  obtain ⟨a, b, lo, hi, hn⟩ := hnew i
  obtain ⟨-, -, h3, hpi⟩ := params_new_eq_ok.1 hn
  rw [ex_le_false] at h3
  simp only [stepLimitations, hlim]
  have hle : (p i).minValue ≤ (p i).maxValue := by rw [hpi]; exact h3.le
  exact ⟨le_min (le_max_right _ _) hle, min_le_right _ _⟩

namespace Demo64
open Binary64

/-- The `f64` nearest to a rational. -/
def ofRat (q : ℚ) : F64 := Fl.ofExact false q

/-- `f64` linear algebra in dimension one. -/
def la1 : LinAlg F64 1 where
  dot v w := Scalar.mul (v 0) (w 0)
  inv A := if Scalar.le (Scalar.abs (A 0 0)) Scalar.zero then none
    else some fun _ _ => Scalar.div Scalar.one (A 0 0)

def params : IterativeParams F64 := ⟨ofRat 100, ofRat 100, ofRat (-3 / 2), ofRat (3 / 2)⟩

def cfg (maxIter : Nat) : Config F64 1 where
  params := { problemSize := 1, tolerance := ofRat (1 / 1000), maxIter, method := .NewtonRaphson,
              damping := false }
  guess := fun _ => ofRat (1 / 10)
  iters := fun _ => params.toIterative
  res := { stop := fun _ => .Abs, upd := fun _ => .Abs }
  la := la1

/-- `x² = 2` in `f64`. -/
def sqrt2 : UserModel F64 1 Empty Empty (AdapterState F64 1) :=
  fromFunctionAndJacobian (fun x _ => Scalar.sub (Scalar.mul (x 0) (x 0)) Scalar.two)
    (fun x _ _ => Scalar.mul Scalar.two (x 0))

/-- Bounds accepted by the constructor, and a solve of `x² = 2` in `f64` that needs several
iterations and whose first raw step leaves the range. -/
example : (∃ a b lo hi, IterativeParams.new a b lo hi = .ok params) ∧
    Demo.kind (solve (cfg 3) (recorded sqrt2) .new (.new, [])) = .ok ∧
    Demo.kind (solve (cfg 1) (recorded sqrt2) .new (.new, [])) = .nonConvergence := by
  refine ⟨⟨_, _, _, _, params_new_eq_ok.2 ⟨?_, ?_, ?_, rfl⟩⟩, ?_, ?_⟩ <;> decide +kernel

end Demo64
end Nrf
