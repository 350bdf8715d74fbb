import Verif.Proofs.FollowExact
import Verif.Spec.Demo

/-!
# C39: affine problems are solved in one iteration
-/

namespace Nrf
open Spec
open scoped Exact
open Matrix

/-- The points the model can be at when the first step is limited: the guess, or the guess with one
coordinate perturbed. -/
def Spec.StepsFrom {K : Type} [Add K] {n : Nat} (c : Config K n) (z : Vec K n) : Prop :=
  z = c.guess ∨ ∃ i p, (c.iters i).computePerturbation = some p ∧
    z = fun l => if l = i then c.guess i + p (c.guess i) else c.guess l

/-- Exact arithmetic, any dimension, method, damping, stopping criteria, tolerance `≥ 0` and at least
one iteration: for sides `AL x + bL` and `AR x + bR` with `AL - AR` invertible, with an analytic
Jacobian or with non-zero perturbations, a new solver returns `Ok`.  It does so without iterating when
the guess is within tolerance, and otherwise after exactly one iteration at the solution.  The limits
must not cut the way from the guess (or the perturbed guess) to the solution. -/
theorem C39_one_iteration {K : Type} [Field K] [LinearOrder K] [IsStrictOrderedRing K] {n : Nat}
    {EI EU S : Type} (c : Config K n) (m : UserModel K n EI EU S) (hL : c.la.IsExact) (inv : S → Prop)
    (AL AR : Mat K n) (bL bR root : Vec K n)
    (hf : Computes m inv (fun _ => True) (fun x => ⟨AL *ᵥ x + bL, AR *ᵥ x + bR⟩))
    (hjac : Differentiates m inv (fun x => ⟨AL *ᵥ x + bL, AR *ᵥ x + bR⟩) (fun _ => ⟨AL, AR⟩) ∨
      (Underived m inv (fun x => ⟨AL *ᵥ x + bL, AR *ᵥ x + bR⟩) ∧
        ∀ i, ∃ p, (c.iters i).computePerturbation = some p ∧ p (c.guess i) ≠ 0))
    (hupd : ∀ i, c.res.upd i = .Abs) (htol : 0 ≤ c.params.tolerance) (hmax : 1 ≤ c.params.maxIter)
    (hdet : (AL - AR).det ≠ 0) (hroot : AL *ᵥ root + bL = AR *ᵥ root + bR)
    (hlim : ∀ z, Spec.StepsFrom c z → ∀ i,
      (c.iters i).stepLimitation (z i) (root i - z i) = root i)
    (s : S) (hs : inv s) :
    ∃ st' s', solve c m .new s = .ok (st', s', .ok ()) ∧
      ((st'.iter = 1 ∧ m.getIteratives s' = root) ∨
       (st'.iter = 0 ∧ m.getIteratives s' = c.guess ∧
        ∀ i, |Spec.residual (c.res.stop i) ((AL *ᵥ c.guess + bL) i) ((AR *ᵥ c.guess + bR) i)| ≤
          c.params.tolerance)) := by
  set f : Vec K n → ResidualsValues K n := fun x => ⟨AL *ᵥ x + bL, AR *ᵥ x + bR⟩ with hfdef
  have hupdate : ∀ x, updateAt c f x = (AL - AR) *ᵥ (x - root) := by
    intro x
    have h1 : updateAt c f x = (AL *ᵥ x + bL) - (AR *ᵥ x + bR) := by
      funext i
      change c.res.evaluateUpdate (f x) i = _
      rw [evaluateUpdate_exact, hupd]
      rfl
    rw [h1, Matrix.sub_mulVec, Matrix.mulVec_sub, Matrix.mulVec_sub]
    have : bL - bR = AR *ᵥ root - AL *ᵥ root := by
      rw [sub_eq_sub_iff_add_eq_add, add_comm, hroot, add_comm]
    calc (AL *ᵥ x + bL) - (AR *ᵥ x + bR) = AL *ᵥ x - AR *ᵥ x + (bL - bR) := by abel
      _ = _ := by rw [this]; abel
  have hnewton : c.guess - (AL - AR)⁻¹ *ᵥ updateAt c f c.guess = root := by
    rw [hupdate, Matrix.mulVec_mulVec, ex_inv_mul hdet, Matrix.one_mulVec]
    abel
  have herr : ∀ i, errorsAt c f root i = 0 := by
    intro i
    change c.res.evaluateStopping (f root) i = 0
    rw [evaluateStopping_exact]
    have : (f root).left i = (f root).right i := congrFun hroot i
    rw [this]
    cases c.res.stop i <;> simp [Spec.residual]
  have hamax : amax (errorsAt c f root) = 0 :=
    le_antisymm ((amax_le_iff _ (le_refl 0)).2 fun i => by rw [herr i]; simp) (amax_nonneg _)
  -- the computed matrix
  obtain ⟨pert, hsrc, hbase⟩ : ∃ pert, Source c m inv (fun _ => True) f c.guess pert (AL - AR) ∧
      ∀ z, Base c.guess pert z → Spec.StepsFrom c z := by
    rcases hjac with hg | ⟨hu, hp⟩
    · refine ⟨0, ?_, ?_⟩
      · have e : analyticAt c f (fun _ => ⟨AL, AR⟩) c.guess = AL - AR := by
          ext i j
          change derivNormalization _ _ (AL i j) (AR i j) (c.res.upd i) = _
          rw [hupd]; rfl
        rw [← e]
        exact .analytic _ hg
      · rintro z (rfl | ⟨i, rfl⟩)
        · exact .inl rfl
        · left
          rw [moved_eq]; simp
    · have hsome : ∀ i, (c.iters i).computePerturbation.isSome := by
        intro i
        obtain ⟨p, h1, -⟩ := hp i
        rw [h1]; rfl
      have hpe : computePerturbations c.iters c.guess =
          some fun i => (c.iters i).computePerturbation.get (hsome i) (c.guess i) := by
        unfold computePerturbations
        rw [dif_pos hsome]
      have hval : ∀ i p, (c.iters i).computePerturbation = some p →
          (c.iters i).computePerturbation.get (hsome i) (c.guess i) = p (c.guess i) := by
        intro i p h
        exact congrFun (Option.get_of_eq_some _ h) _
      have hne : ∀ i, (c.iters i).computePerturbation.get (hsome i) (c.guess i) ≠ 0 := by
        intro i
        obtain ⟨p, h1, h2⟩ := hp i
        rw [hval i p h1]; exact h2
      refine ⟨fun i => (c.iters i).computePerturbation.get (hsome i) (c.guess i), ?_, ?_⟩
      · have e : differencesAt c f (fun i => (c.iters i).computePerturbation.get (hsome i) (c.guess i))
            c.guess = AL - AR := by
          ext row col
          unfold differencesAt
          rw [ex_div, ex_sub, div_eq_iff (hne col), hupdate, hupdate, moved_eq]
          rw [← Pi.sub_apply, ← Matrix.mulVec_sub]
          rw [show c.guess + Pi.single col ((c.iters col).computePerturbation.get (hsome col) (c.guess col)) -
            root - (c.guess - root) =
              Pi.single col ((c.iters col).computePerturbation.get (hsome col) (c.guess col)) by abel]
          rw [Matrix.mulVec_single]
          rfl
        rw [← e]
        exact .fd hu hpe hne fun _ => trivial
      · rintro z (rfl | ⟨i, rfl⟩)
        · exact .inl rfl
        · obtain ⟨p, h1, -⟩ := hp i
          refine .inr ⟨i, p, h1, ?_⟩
          exact congrArg (moved c.guess i) (hval i p h1)
  -- follow the solve
  obtain ⟨k, st', s', h1, h2, h3, h4⟩ := solve_follow (c := c) hf
    (fun k st s => st.debug = false ∧ st.valid = true ∧ st.iter = k ∧
      ((k = 0 ∧ st.jac.computeNext = true ∧ At m inv f s c.guess) ∨ (k = 1 ∧ At m inv f s root)))
    (by
      rintro k st s ⟨hd, hv, hi, h | h⟩ hc
      · obtain ⟨rfl, hcn, hat⟩ := h
        obtain ⟨st', s', z, hs', -, hit, rfl⟩ := iterate_newton hL hf hsrc hdet hnewton trivial
          (fun z hz => hlim z (hbase z hz))
          (fun _ z _ _ => by rw [hamax]; exact amax_nonneg _) hd (.inr hcn) hat
        refine ⟨_, s', hit, ?_⟩
        obtain ⟨g1, -, -, g4, g5⟩ := storeSteps_fields c.params.method
          { st with iter := st.iter + 1, jac := ⟨some (AL - AR), some (AL - AR)⁻¹, false, false⟩, valid := true }
          root z (errorsAt c f root) (errorsAt c f z)
        refine ⟨by rw [g5]; exact hd, by rw [g4], ?_, .inr ⟨rfl, hs'⟩⟩
        rw [g1]
        change st.iter + 1 = _
        rw [hi]
      · obtain ⟨rfl, hat⟩ := h
        rw [hat.errors, hamax] at hc
        simp only [continues, Bool.and_eq_true] at hc
        exact absurd ((ex_lt _ _).1 hc.1) (not_lt.2 htol))
    hs trivial (fun s0 h0 => ⟨rfl, rfl, rfl, .inl ⟨rfl, rfl, h0⟩⟩)
  obtain ⟨-, hv, hi, h2⟩ := h2
  refine ⟨st', s', ?_, ?_⟩
  · rw [h1]
    have hlt : Scalar.lt c.params.tolerance (amax (evaluateErrors c m s')) = false := by
      rcases h2 with ⟨rfl, -, -⟩ | ⟨rfl, hat⟩
      · have : decide (st'.iter < c.params.maxIter) = true := by rw [hi]; simp; omega
        rw [continues, this, Bool.and_true] at h3
        exact h3
      · rw [hat.errors, hamax, ex_lt_false]; exact htol
    simp only [finalResult, hlt, Bool.false_eq_true, if_false, hv, if_true]
  · rcases h2 with ⟨rfl, -, hat⟩ | ⟨rfl, hat⟩
    · right
      refine ⟨hi, hat.iteratives, ?_⟩
      have : decide (st'.iter < c.params.maxIter) = true := by rw [hi]; simp; omega
      rw [continues, this, Bool.and_true] at h3
      intro i
      have := stopping_le c.res (m.getResiduals s') h3 i
      rw [hat.residuals] at this
      exact this
    · exact .inl ⟨hi, hat.iteratives⟩

namespace Demo

/-- `2 x + y = 5`, `x - y = 1` without a Jacobian. -/
def system : UserModel ℚ 2 Empty Empty (AdapterState ℚ 2) :=
  fromFunction (fun x => (!![2, 1; 1, -1] : Mat ℚ 2) *ᵥ x + ![-5, -1])

/-- Configuration for two unknowns, guess far from the solution, tolerance zero. -/
def cfg2 (method : ResolutionMethod) : Config ℚ 2 where
  params := { problemSize := 2, tolerance := 0, maxIter := 1, method, damping := true }
  guess := ![10, 20]
  iters := fun _ => wide.toIterative
  res := { stop := fun _ => .Rel, upd := fun _ => .Abs }
  la := exactLinAlg ℚ 2

theorem det_system : ((!![2, 1; 1, -1] : Mat ℚ 2) - 0).det ≠ 0 := by decide +kernel

/-- The hypotheses hold with real limits and perturbations: every method finds `(2, 1)` in one
iteration. -/
example (method : ResolutionMethod) :
    ∃ st' s', solve (cfg2 method) system .new ⟨0, 0, 0⟩ = .ok (st', s', .ok ()) ∧
      st'.iter = 1 ∧ system.getIteratives s' = ![2, 1] := by
  have hfun : (fun x : Vec ℚ 2 => (⟨(!![2, 1; 1, -1] : Mat ℚ 2) *ᵥ x + ![-5, -1], 0⟩ : ResidualsValues ℚ 2)) =
      fun x => ⟨(!![2, 1; 1, -1] : Mat ℚ 2) *ᵥ x + ![-5, -1], (0 : Mat ℚ 2) *ᵥ x + 0⟩ := by
    funext x; simp
  have hc := fromFunction_computes (fun x : Vec ℚ 2 => (!![2, 1; 1, -1] : Mat ℚ 2) *ᵥ x + ![-5, -1]) 0
  have hu := fromFunction_underived (fun x : Vec ℚ 2 => (!![2, 1; 1, -1] : Mat ℚ 2) *ᵥ x + ![-5, -1]) 0
  rw [hfun] at hc hu
  have h1 : ∀ i, wide.computePerturbation ((![10, 20] : Vec ℚ 2) i) ≠ 0 := by decide +kernel
  have h2 : (!![2, 1; 1, -1] : Mat ℚ 2) *ᵥ ![2, 1] + ![-5, -1] = (0 : Mat ℚ 2) *ᵥ ![2, 1] + 0 := by
    decide +kernel
  have h3 : ∀ z, Spec.StepsFrom (cfg2 method) z → ∀ i, ((cfg2 method).iters i).stepLimitation (z i)
      ((![2, 1] : Vec ℚ 2) i - z i) = (![2, 1] : Vec ℚ 2) i := by
    rintro z (rfl | ⟨i, p, hp, rfl⟩)
    · change ∀ i, wide.iterativeParams.stepLimitation ((![10, 20] : Vec ℚ 2) i)
        ((![2, 1] : Vec ℚ 2) i - (![10, 20] : Vec ℚ 2) i) = (![2, 1] : Vec ℚ 2) i
      decide +kernel
    · cases hp
      change ∀ k, wide.iterativeParams.stepLimitation
        (if k = i then (![10, 20] : Vec ℚ 2) i + wide.computePerturbation ((![10, 20] : Vec ℚ 2) i)
          else (![10, 20] : Vec ℚ 2) k)
        ((![2, 1] : Vec ℚ 2) k - (if k = i then (![10, 20] : Vec ℚ 2) i + wide.computePerturbation ((![10, 20] : Vec ℚ 2) i)
          else (![10, 20] : Vec ℚ 2) k)) = (![2, 1] : Vec ℚ 2) k
      revert i; decide +kernel
  obtain ⟨st', s', h, h' | ⟨-, -, h'⟩⟩ := C39_one_iteration (cfg2 method) system
    (exactLinAlg_isExact ℚ 2) _ _ 0 ![-5, -1] 0 ![2, 1]
    hc (.inr ⟨hu, fun i => ⟨_, rfl, h1 i⟩⟩) (fun _ => rfl) (le_refl _) (le_refl _) det_system h2 h3
    ⟨0, 0, 0⟩ rfl
  · exact ⟨st', s', h, h'⟩
  · have h0 := h' 0
    have : ¬ |Spec.residual .Rel (((!![2, 1; 1, -1] : Mat ℚ 2) *ᵥ (![10, 20] : Vec ℚ 2) + (![-5, -1] : Vec ℚ 2)) 0)
          (((0 : Mat ℚ 2) *ᵥ (![10, 20] : Vec ℚ 2) + (0 : Vec ℚ 2)) 0)| ≤ 0 := by decide +kernel
    exact absurd h0 this

end Demo
end Nrf
