import Verif.Props.C30
import Verif.Proofs.Exact
import Mathlib.Data.Matrix.Mul

/-!
# C29: finite differences are exact on affine models
-/

namespace Nrf
open scoped Exact

/-- Exact arithmetic, any dimension: for a model whose sides are affine maps `AL x + bL` and
`AR x + bR`, with absolute update residuals and non-zero perturbations, the finite-difference
matrix is the analytic one. -/
theorem C29_affine {K : Type} [Field K] [LinearOrder K] {n : Nat} {EI EU S C : Type}
    (c : Config K n) (m : UserModel K n EI EU S) (ctx : S → C) (hmem : Spec.Memory m ctx) (AL AR : Mat K n) (bL bR : Vec K n)
    (hupd : ∀ i, c.res.upd i = .Abs)
    (hu : ∀ s e, (m.evaluate s).2 ≠ .error (.unusable e)) (s : S)
    (haff : ∀ y, Spec.residualsAt m s y = ⟨AL.mulVec y + bL, AR.mulVec y + bR⟩)
    (hlen : m.lenProblem s = n)
    (hcur : m.getResiduals s = ⟨AL.mulVec (m.getIteratives s) + bL, AR.mulVec (m.getIteratives s) + bR⟩)
    (pert : Vec K n) (hpert : ∀ i, pert i ≠ 0) :
    ∃ s', fdCompute c.res m pert s =
      .ok (s', .ok (JacobianValues.normalize ⟨AL, AR⟩ (m.getResiduals s) c.res.upd)) := by
  obtain ⟨s', J, hJ⟩ : ∃ s' J, fdCompute c.res m pert s = .ok (s', .ok J) :=
    fdLoop_completes hu _ _ _ _ _ _ _ _ (by omega)
  refine ⟨s', ?_⟩
  rw [hJ]
  refine congrArg (fun x => Except.ok (s', Except.ok x)) (Matrix.ext fun row col => ?_)
  rw [C30_columns c m _ hmem s s' hlen pert J hJ row col]
  rw [haff, hcur]
  change (normalization _ _ (c.res.upd row) - normalization _ _ (c.res.upd row)) / pert col =
    derivNormalization _ _ (AL row col) (AR row col) (c.res.upd row)
  rw [hupd]
  change ((AL.mulVec _ row + bL row) - (AR.mulVec _ row + bR row) -
    ((AL.mulVec _ row + bL row) - (AR.mulVec _ row + bR row))) / pert col = AL row col - AR row col
  have hmv : ∀ A : Mat K n, A.mulVec (fun l => if l = col then Scalar.add (m.getIteratives s col) (pert col)
      else m.getIteratives s l) row = A.mulVec (m.getIteratives s) row + A row col * pert col := by
    intro A
    have e : (fun l => if l = col then Scalar.add (m.getIteratives s col) (pert col)
        else m.getIteratives s l) = m.getIteratives s + Pi.single col (pert col) := by
      funext l
      by_cases h : l = col
      · subst h; simp [ex_add]
      · simp [h]
    rw [e, Matrix.mulVec_add]
    simp [Matrix.mulVec_single, mul_comm]
  rw [hmv, hmv, div_eq_iff (hpert col)]
  ring

/-- The stored matrix is the difference of the two linear parts, whatever the perturbation
parameters. -/
theorem C29_stored {K : Type} [Field K] [LinearOrder K] {n : Nat} {EI EU S C : Type}
    (c : Config K n) (m : UserModel K n EI EU S) (ctx : S → C) (hmem : Spec.Memory m ctx) (AL AR : Mat K n) (bL bR : Vec K n)
    (hupd : ∀ i, c.res.upd i = .Abs)
    (hu : ∀ s e, (m.evaluate s).2 ≠ .error (.unusable e)) (s s' : S)
    (haff : ∀ y, Spec.residualsAt m s y = ⟨AL.mulVec y + bL, AR.mulVec y + bR⟩)
    (hlen : m.lenProblem s = n) (hp : m.jacobianProvided s = false)
    (hcur : m.getResiduals s = ⟨AL.mulVec (m.getIteratives s) + bL, AR.mulVec (m.getIteratives s) + bR⟩)
    (hpert : ∀ i f, (c.iters i).computePerturbation = some f → ∀ x, f x ≠ 0)
    (j j' : JacobianMatrix K n) (h : computeJac c m j s = .ok (j', s', .ok ())) :
    j'.matrix = some (AL - AR) := by
  cases computeJac_outcome h with
  | success _ M inv hM hi =>
    cases hM with
    | analytic v hp' => rw [hp] at hp'; cases hp'
    | fd pert _ hpe hM =>
      have hne : ∀ i, pert i ≠ 0 := by
        intro i
        unfold computePerturbations at hpe
        split at hpe
        · rename_i hs
          cases hpe
          obtain ⟨f, hf⟩ := Option.isSome_iff_exists.1 (hs i)
          change (c.iters i).computePerturbation.get (hs i) _ ≠ 0
          rw [show (c.iters i).computePerturbation.get (hs i) = f from Option.get_of_eq_some _ hf]
          exact hpert i f hf _
        · cases hpe
      obtain ⟨s2, hs2⟩ := C29_affine c m ctx hmem AL AR bL bR hupd hu s haff hlen hcur pert hne
      rw [hM] at hs2
      cases hs2
      refine congrArg some (Matrix.ext fun row col => ?_)
      change derivNormalization _ _ (AL row col) (AR row col) (c.res.upd row) = _
      rw [hupd]; rfl
  | inaccurate _ e hp' => rw [hp] at hp'; cases hp'

namespace Demo

/-- `3 x - 6 = 0` without a Jacobian. -/
def line : UserModel ℚ 1 Empty Empty (AdapterState ℚ 1) := fromFunction (fun x _ => 3 * x 0 - 6)

/-- The adapters obey the memory contract: the only other state is the constant right side. -/
theorem line_memory : Spec.Memory line AdapterState.right where
  residuals s s' x h := by simp [line, fromFunction, h]
  restore s s0 x h := h

/-- The state after an evaluation at 4. -/
def atFour : AdapterState ℚ 1 := ⟨fun _ => 4, fun _ => 6, fun _ => 0⟩

/-- Evaluated at 4, all hypotheses hold and the computed slope is 3, with a coarse perturbation. -/
example : (∃ (AL AR : Mat ℚ 1) (bL bR : Vec ℚ 1),
      ∀ y, (Spec.residualsAt line atFour y = ⟨AL.mulVec y + bL, AR.mulVec y + bR⟩) ∧
        line.getResiduals atFour = Spec.residualsAt line atFour (line.getIteratives atFour)) ∧
    (∀ s e, (line.evaluate s).2 ≠ .error (.unusable e)) ∧
    (∃ s' J, fdCompute (cfg .NewtonRaphson false 1 1 2).res line (fun _ => 1/2) atFour = .ok (s', .ok J) ∧
      J 0 0 = 3) := by
  refine ⟨⟨fun _ _ => 3, fun _ _ => 0, fun _ => -6, fun _ => 0, fun y => ⟨?_, ?_⟩⟩, ?_, ?_⟩
  · simp only [Spec.residualsAt, line, fromFunction, ResidualsValues.mk.injEq]
    refine ⟨?_, ?_⟩
    · funext i; simp [Matrix.mulVec, dotProduct]; ring
    · funext i; simp [Matrix.mulVec, dotProduct, atFour]
  · simp only [Spec.residualsAt, line, fromFunction, ResidualsValues.mk.injEq, atFour]
    refine ⟨?_, trivial⟩
    funext i; norm_num
  · intro s e h; cases h
  · exact ⟨_, _, rfl, by decide +kernel⟩

end Demo
end Nrf
