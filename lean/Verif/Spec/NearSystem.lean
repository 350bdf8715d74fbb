import Verif.Model.Lu
import Verif.Model.Binary64
import Verif.Proofs.RelError
import Verif.Spec.Function
import Mathlib.Analysis.Normed.Group.Constructions
import Mathlib.Analysis.Normed.Group.Real
import Mathlib.Data.Matrix.Mul

/-!
# A system of equations near a root, the accuracy of its evaluation and of the linear algebra in binary64

Vectors of reals carry the maximum norm.
-/

namespace Nrf.Spec

variable {n : Nat}

/-- The values of a vector of doubles. -/
noncomputable def reals (x : Vec F64 n) : Fin n → ℝ := fun i => ((x i).val : ℝ)

/-- The finite vectors within `R` of `ρ`. -/
def Near (ρ : Fin n → ℝ) (R : ℝ) (x : Vec F64 n) : Prop := (∀ i, (x i).IsFinite) ∧ ‖reals x - ρ‖ ≤ R

/-- `ρ` is a root of `Φ`.  Within `R` of `ρ`, `Φ` differs from the linear map `A` by at most `ω` times the distance, and is
at most `L` times the distance.  `σ` bounds the root and the distance.  The orders of magnitude are far from the limits of
binary64. -/
structure NearSystem (Φ : (Fin n → ℝ) → Fin n → ℝ) (A : Matrix (Fin n) (Fin n) ℝ) (ρ : Fin n → ℝ) (R σ L ω : ℝ) : Prop where
  linear : ∀ x, ‖x - ρ‖ ≤ R → ‖Φ x - A.mulVec (x - ρ)‖ ≤ ω * ‖x - ρ‖
  slope : ∀ x, ‖x - ρ‖ ≤ R → ‖Φ x‖ ≤ L * ‖x - ρ‖
  slopeLow : 0 ≤ L
  slopeHigh : L ≤ 2 ^ 200
  scaleLow : 2 ^ (-900 : ℤ) ≤ σ
  scaleHigh : σ ≤ 2 ^ 200
  rootSize : ‖ρ‖ ≤ σ
  radius : R ≤ σ

/-- A finite matrix `C` which is an inverse of `A` up to one eighth, with rows of at most `β`. -/
structure ApproxInverse (A : Matrix (Fin n) (Fin n) ℝ) (β : ℝ) (C : Mat F64 n) : Prop where
  finite : ∀ i j, (C i j).IsFinite
  rows : ∀ i, ∑ j, |((C i j).val : ℝ)| ≤ β
  close : ∀ i, ∑ j, |(1 : Matrix (Fin n) (Fin n) ℝ) i j - ∑ k, ((C i k).val : ℝ) * A k j| ≤ 1 / 8

/-- A matrix `A` with entries of at most `α`, whose inverse `B` has rows of at most `β`.  The last condition bounds the
condition number; it excludes dimensions above 15. -/
structure WellPosed (A B : Matrix (Fin n) (Fin n) ℝ) (α β : ℝ) : Prop where
  inverse : B * A = 1
  entries : ∀ i j, |A i j| ≤ α
  rows : ∀ i, ∑ j, |B i j| ≤ β
  alphaHigh : α ≤ 2 ^ 89
  betaHigh : β ≤ 2 ^ 89
  condition : 2048 * (n : ℝ) ^ 5 * 3 ^ n * 2 ^ (-53 : ℤ) * (α * β) ^ 2 ≤ 1

/-- How well conditioned the system has to be. -/
structure Conditioned (n : Nat) (β L ω : ℝ) : Prop where
  positive : 0 ≤ β
  bounded : β ≤ 2 ^ 200
  almostLinear : β * ω ≤ 1 / 8
  condition : 24 * n * 2 ^ (-53 : ℤ) * (β * L) ≤ 1

/-- The update residuals of the `Abs` normalization. -/
def differences {F : Type} [Scalar F] (f : Vec F n → ResidualsValues F n) (x : Vec F n) : Vec F n :=
  fun i => (f x).left i -ᶠ (f x).right i

/-- At the finite vectors within `R` of `ρ`, the differences of both sides are `Φ` with an error of at most `ε`. -/
def EvaluatesSystem (f : Vec F64 n → ResidualsValues F64 n) (Φ : (Fin n → ℝ) → Fin n → ℝ) (ρ : Fin n → ℝ) (R ε : ℝ) : Prop :=
  ∀ x : Vec F64 n, Near ρ R x → (∀ i, (differences f x i).IsFinite) ∧ ‖reals (differences f x) - Φ (reals x)‖ ≤ ε

/-- Sums of products, in any order of summation, with the errors of at most three roundings per term. -/
def AccurateDot (la : LinAlg F64 n) : Prop :=
  ∀ a b : Vec F64 n, (∀ i, (a i).IsFinite) → (∀ i, (b i).IsFinite) → ∑ i, |(a i).val * (b i).val| ≤ 2 ^ 1000 →
    (la.dot a b).IsFinite ∧ |(la.dot a b).val - ∑ i, (a i).val * (b i).val| ≤
      3 * n * 2 ^ (-53 : ℤ) * ∑ i, |(a i).val * (b i).val| + 2 * n * 2 ^ (-1075 : ℤ)

/-- The defaults of the library: no damping, `Abs` residuals, default limits of the steps. -/
structure SystemDefault {F : Type} [Scalar F] [HasSpecials F] (c : Config F n) : Prop where
  damping : c.params.damping = false
  stop : ∀ i, c.res.stop i = .Abs
  update : ∀ i, c.res.upd i = .Abs
  limits : ∀ i, (c.iters i).stepLimitation = IterativeParams.default.stepLimitation

/-- The Jacobian the solver inverts when the model provides it and the residuals are `Abs`. -/
def jacobianDifferences {F : Type} [Scalar F] (g : Vec F n → JacobianValues F n) (x : Vec F n) : Mat F n :=
  fun i j => (g x).left i j -ᶠ (g x).right i j

/-- `x` with `p` added to its component `j`. -/
def shifted {F : Type} [Scalar F] (x : Vec F n) (j : Fin n) (p : F) : Vec F n :=
  fun i => if i = j then x i +ᶠ p else x i

/-- The matrix of finite differences the solver inverts when the residuals are `Abs`. -/
def quotients {F : Type} [Scalar F] (f : Vec F n → ResidualsValues F n) (p x : Vec F n) : Mat F n :=
  fun i j => (differences f (shifted x j (p j)) i -ᶠ differences f x i) /ᶠ p j

/-- The perturbations `p` at `x` move the finite vector `x` by at most `h`, and the finite differences they give have an
approximate inverse. -/
structure GoodQuotients (c : Config F64 n) (f : Vec F64 n → ResidualsValues F64 n) (A : Matrix (Fin n) (Fin n) ℝ)
    (β h : ℝ) (x p : Vec F64 n) (C : Mat F64 n) : Prop where
  perturbations : computePerturbations c.iters x = some p
  finite : ∀ j i, (shifted x j (p j) i).IsFinite
  small : ∀ j, ‖reals (shifted x j (p j)) - reals x‖ ≤ h
  inverse : c.la.inv (quotients f p x) = some C
  approx : ApproxInverse A β C

/-- Between any two points within `R` of `ρ`, the change of `Φ` differs from that of the linear map `A` by at most `ω` times
the distance. -/
structure NearLinear (Φ : (Fin n → ℝ) → Fin n → ℝ) (A : Matrix (Fin n) (Fin n) ℝ) (ρ : Fin n → ℝ) (R ω : ℝ) : Prop where
  change : ∀ x y, ‖x - ρ‖ ≤ R → ‖y - ρ‖ ≤ R → ‖Φ x - Φ y - A.mulVec (x - y)‖ ≤ ω * ‖x - y‖
  nonneg : 0 ≤ ω

/-- At the finite vectors within `r` of `ρ`, the perturbations are finite, between `lo` and `hi`, and at least `1 / K` times
the unknown. -/
def Perturbs (c : Config F64 n) (ρ : Fin n → ℝ) (r lo hi K : ℝ) : Prop :=
  ∀ x, Near ρ r x → ∃ p, computePerturbations c.iters x = some p ∧
    ∀ j, (p j).IsFinite ∧ lo ≤ (p j).val ∧ (p j).val ≤ hi ∧ |((x j).val : ℝ)| ≤ K * (p j).val

/-- A bound of the sums of the errors in the rows of the finite differences. -/
noncomputable def quotientError (n : Nat) (α ω ε lo K : ℝ) : ℝ :=
  n * (2 ^ (-53 : ℤ) * (2 * K + 6) * α + 9 / 8 * ω + 3 * (ε / lo))

/-- The solution found. -/
structure SystemSolved {EI EU S : Type} (c : Config F64 n) (m : UserModel F64 n EI EU S) (inv : S → Prop)
    (f : Vec F64 n → ResidualsValues F64 n) (Φ : (Fin n → ℝ) → Fin n → ℝ) (ρ : Fin n → ℝ) (β ε : ℝ) (N : Nat) (s : S) :
    Prop where
  solved : ∃ st' s' x, solve c m .new s = .ok (st', s', .ok ()) ∧ st'.iter ≤ N ∧ At m inv f s' x ∧
    (∀ i, (x i).IsFinite) ∧ ‖Φ (reals x)‖ ≤ c.params.tolerance.val + ε ∧
    ‖reals x - ρ‖ ≤ 4 / 3 * (β * (c.params.tolerance.val + ε))

end Nrf.Spec
