import Verif.Props.C111

/-!
# C113: Broyden's methods are faster than every linear rate, and so is the solver while no residual is negative
-/

namespace Nrf
open Spec
open scoped Exact Topology
open Matrix Broyden

variable {n : Nat}

/-- Broyden's first method of the literature, near a simple root, in any dimension: the quotient of successive distances
tends to zero. -/
theorem C113_first {F : Vec ℝ n → Vec ℝ n} {jac : Vec ℝ n → Mat ℝ n} {r : Vec ℝ n} (h : LocalRoot F jac r) :
    ∃ ρ > 0, ∀ x0, ‖x0 - r‖ < ρ → ∀ ε > 0, ∃ N, ∀ k, N ≤ k →
      ‖((firstBroyden F)^[k + 1] (x0, jac x0)).1 - r‖ ≤ ε * ‖((firstBroyden F)^[k] (x0, jac x0)).1 - r‖ := by
  obtain ⟨ρ, hρ, b, hb⟩ := local_first h
  exact ⟨ρ, hρ, fun x0 hx0 => (hb x0 hx0).2⟩

/-- The same for Broyden's second method. -/
theorem C113_second {F : Vec ℝ n → Vec ℝ n} {jac : Vec ℝ n → Mat ℝ n} {r : Vec ℝ n} (h : LocalRoot F jac r) :
    ∃ ρ > 0, ∀ x0, ‖x0 - r‖ < ρ → ∀ ε > 0, ∃ N, ∀ k, N ≤ k →
      ‖((secondBroyden F)^[k + 1] (x0, (jac x0)⁻¹)).1 - r‖ ≤ ε * ‖((secondBroyden F)^[k] (x0, (jac x0)⁻¹)).1 - r‖ := by
  obtain ⟨ρ, hρ, b, hb⟩ := local_second h
  exact ⟨ρ, hρ, fun x0 hx0 => (hb x0 hx0).2.2⟩

/-- `BroydenFirst`, updating the Jacobian or its inverse, in exact arithmetic with absolute residuals, without damping,
with limits that do not act within `R` of a simple root. From every close guess, for every factor `θ < 1` there is a
number `K` such that every tolerance `θ ^ m` is reached in at most `m + K` iterations, as long as no residual is negative
at the points of the method: from then on every further iteration gains the factor, however small it is. -/
theorem C113_first_solver {F : Vec ℝ n → Vec ℝ n} {jac : Vec ℝ n → Mat ℝ n} {r : Vec ℝ n} (h : LocalRoot F jac r) {R : ℝ}
    (hR : 0 < R) : ∃ ρ > 0, ∀ g, ‖g - r‖ < ρ → ∀ θ, 0 < θ → θ < 1 → ∃ K, ∀ (m : Nat) (c : Config ℝ n),
      PlainUpdating c .BroydenFirst → c.guess = g → c.params.tolerance = θ ^ m → m + K ≤ c.params.maxIter →
      (∀ i v d, |v - r i| < R → |d| < R → (c.iters i).stepLimitation v d = v + d) →
      (∀ k i, 0 ≤ F ((firstBroyden F)^[k] (g, jac g)).1 i) → ∀ s : AdapterState ℝ n, s.right = 0 →
      ∃ st' s', solve c (fromFunctionAndJacobian F jac) .new s = .ok (st', s', .ok ()) ∧ st'.iter ≤ m + K ∧
        s'.inputs = ((firstBroyden F)^[st'.iter] (g, jac g)).1 ∧ ∀ i, |F s'.inputs i| ≤ θ ^ m := by
  obtain ⟨ρ, hρ, b, hb⟩ := local_first h
  obtain ⟨R', hR', B, hB, hres⟩ := residual_near h
  refine ⟨min ρ (min (R / (2 * (n + 1))) (R' / (2 * (n + 1)))), by positivity, fun g hg θ hθ hθ1 => ?_⟩
  obtain ⟨hb, hfast⟩ := hb g (hg.trans_le (min_le_left _ _))
  have hin := fun k => inside (hg.trans_le ((min_le_right _ _).trans (min_le_left _ _))) k (hb k).2.1
  have hin' := fun k => inside (hg.trans_le ((min_le_right _ _).trans (min_le_right _ _))) k (hb k).2.1
  obtain ⟨P, hP⟩ : ∃ P : Nat → Iterate n, P = fun k => (firstBroyden F)^[k] (g, jac g) := ⟨_, rfl⟩
  have hPk : ∀ k, (firstBroyden F)^[k] (g, jac g) = P k := fun k => by rw [hP]
  simp only [hPk] at hb hfast hin hin' ⊢
  obtain ⟨C, hC, hgeo⟩ := geometric (e := fun k => ‖(P k).1 - r‖) hfast (fun k => norm_nonneg _) hθ
  obtain ⟨K, hK⟩ := reached (f := fun k => ‖F (P k).1‖) hB hC hθ hθ1 hgeo
    (fun k => hres _ ((hin' k).trans (by linarith)))
  refine ⟨K, fun m c hc hgc htol hmax hfree hpos s hs => ?_⟩
  subst hgc
  obtain ⟨st', s', h1, h2, h3, h4⟩ := first_run hc P hP (fun k => (hb k).1) (m + K) hmax
    (fun k _ i => unlimited hfree (hin k) (hin (k + 1)) i) (fun k _ => hpos k)
    (fun i => by rw [htol]; exact (norm_le_pi_norm (F _) i).trans (hK m)) (by rw [htol]; positivity) s hs
  exact ⟨st', s', h1, h2, h3, by rw [← htol]; exact h4⟩

/-- The same for `BroydenSecond`. -/
theorem C113_second_solver {F : Vec ℝ n → Vec ℝ n} {jac : Vec ℝ n → Mat ℝ n} {r : Vec ℝ n} (h : LocalRoot F jac r) {R : ℝ}
    (hR : 0 < R) : ∃ ρ > 0, ∀ g, ‖g - r‖ < ρ → ∀ θ, 0 < θ → θ < 1 → ∃ K, ∀ (m : Nat) (c : Config ℝ n),
      PlainUpdating c .BroydenSecond → c.guess = g → c.params.tolerance = θ ^ m → m + K ≤ c.params.maxIter →
      (∀ i v d, |v - r i| < R → |d| < R → (c.iters i).stepLimitation v d = v + d) →
      (∀ k i, 0 ≤ F ((secondBroyden F)^[k] (g, (jac g)⁻¹)).1 i) → ∀ s : AdapterState ℝ n, s.right = 0 →
      ∃ st' s', solve c (fromFunctionAndJacobian F jac) .new s = .ok (st', s', .ok ()) ∧ st'.iter ≤ m + K ∧
        s'.inputs = ((secondBroyden F)^[st'.iter] (g, (jac g)⁻¹)).1 ∧ ∀ i, |F s'.inputs i| ≤ θ ^ m := by
  obtain ⟨ρ, hρ, b, hb⟩ := local_second h
  obtain ⟨R', hR', B, hB, hres⟩ := residual_near h
  refine ⟨min ρ (min (R / (2 * (n + 1))) (R' / (2 * (n + 1)))), by positivity, fun g hg θ hθ hθ1 => ?_⟩
  obtain ⟨hdet, hb, hfast⟩ := hb g (hg.trans_le (min_le_left _ _))
  have hin := fun k => inside (hg.trans_le ((min_le_right _ _).trans (min_le_left _ _))) k (hb k).2.2.1
  have hin' := fun k => inside (hg.trans_le ((min_le_right _ _).trans (min_le_right _ _))) k (hb k).2.2.1
  obtain ⟨P, hP⟩ : ∃ P : Nat → Iterate n, P = fun k => (secondBroyden F)^[k] (g, (jac g)⁻¹) := ⟨_, rfl⟩
  have hPk : ∀ k, (secondBroyden F)^[k] (g, (jac g)⁻¹) = P k := fun k => by rw [hP]
  simp only [hPk] at hb hfast hin hin' ⊢
  obtain ⟨C, hC, hgeo⟩ := geometric (e := fun k => ‖(P k).1 - r‖) hfast (fun k => norm_nonneg _) hθ
  obtain ⟨K, hK⟩ := reached (f := fun k => ‖F (P k).1‖) hB hC hθ hθ1 hgeo
    (fun k => hres _ ((hin' k).trans (by linarith)))
  refine ⟨K, fun m c hc hgc htol hmax hfree hpos s hs => ?_⟩
  subst hgc
  obtain ⟨st', s', h1, h2, h3, h4⟩ := second_run hc P hP hdet (fun k => (hb k).1) (fun k => (hb k).2.1) (m + K) hmax
    (fun k _ i => unlimited hfree (hin k) (hin (k + 1)) i) (fun k _ => hpos k)
    (fun i => by rw [htol]; exact (norm_le_pi_norm (F _) i).trans (hK m)) (by rw [htol]; positivity) s hs
  exact ⟨st', s', h1, h2, h3, by rw [← htol]; exact h4⟩

/-! ## Examples -/

namespace DemoReal

/-- The first method on `x² = 2`, `x + y = 3`, both forms, with the limits of the crate, from every guess on the line to
the right of the root: from some point on every iteration gains a digit, or three. -/
example : ∃ ρ > 0, ∀ t, √2 ≤ t → t < √2 + ρ → ∀ θ ∈ [(1 / 10 : ℝ), 1 / 1000], ∃ K, ∀ m : Nat,
    ∀ method ∈ [QuasiNewtonMethod.JacobianUpdate .BroydenFirst, .InverseJacobianUpdate .BroydenFirst],
    ∃ st' s', solve (updatingCfg method ![t, 3 - t] (θ ^ m) (m + K)) (fromFunctionAndJacobian lineF lineJ) .new ⟨0, 0, 0⟩ =
      .ok (st', s', .ok ()) ∧ ∀ i, |lineF s'.inputs i| ≤ θ ^ m := by
  obtain ⟨ρ, hρ, h⟩ := C113_first_solver line_root (show (0 : ℝ) < 1 / 4 by norm_num)
  refine ⟨ρ, hρ, fun t ht htρ θ hθ => ?_⟩
  have hθ : 0 < θ ∧ θ < 1 := by
    simp only [List.mem_cons, List.not_mem_nil, or_false] at hθ
    rcases hθ with rfl | rfl <;> norm_num
  obtain ⟨K, hK⟩ := h _ (line_dist hρ ht htρ) θ hθ.1 hθ.2
  have hline : ∀ k, OnLine ((firstBroyden lineF)^[k] (![t, 3 - t], lineJ ![t, 3 - t])) := by
    intro k
    induction k with
    | zero => exact ⟨t, 2 * t, 0, rfl, ht, by linarith⟩
    | succ k ih => rw [Function.iterate_succ_apply']; exact line_step ih
  refine ⟨K, fun m method hm => ?_⟩
  obtain ⟨st', s', h1, -, -, h4⟩ := hK m (updatingCfg method ![t, 3 - t] (θ ^ m) (m + K))
    ⟨exactLinAlg_isExact ℝ 2, by
      simp only [List.mem_cons, List.not_mem_nil, or_false] at hm
      rcases hm with rfl | rfl
      · exact .inl rfl
      · exact .inr rfl, rfl, fun _ => rfl, fun _ => rfl⟩ rfl rfl le_rfl line_limits
    (fun k => line_nonneg (hline k)) ⟨0, 0, 0⟩ rfl
  exact ⟨st', s', h1, h4⟩

/-- The second method. -/
example : ∃ ρ > 0, ∀ t, √2 ≤ t → t < √2 + ρ → ∀ θ ∈ [(1 / 10 : ℝ), 1 / 1000], ∃ K, ∀ m : Nat,
    ∀ method ∈ [QuasiNewtonMethod.JacobianUpdate .BroydenSecond, .InverseJacobianUpdate .BroydenSecond],
    ∃ st' s', solve (updatingCfg method ![t, 3 - t] (θ ^ m) (m + K)) (fromFunctionAndJacobian lineF lineJ) .new ⟨0, 0, 0⟩ =
      .ok (st', s', .ok ()) ∧ ∀ i, |lineF s'.inputs i| ≤ θ ^ m := by
  obtain ⟨ρ, hρ, h⟩ := C113_second_solver line_root (show (0 : ℝ) < 1 / 4 by norm_num)
  refine ⟨ρ, hρ, fun t ht htρ θ hθ => ?_⟩
  have hθ : 0 < θ ∧ θ < 1 := by
    simp only [List.mem_cons, List.not_mem_nil, or_false] at hθ
    rcases hθ with rfl | rfl <;> norm_num
  obtain ⟨K, hK⟩ := h _ (line_dist hρ ht htρ) θ hθ.1 hθ.2
  have hline : ∀ k, OnLine2 ((secondBroyden lineF)^[k] (![t, 3 - t], (lineJ ![t, 3 - t])⁻¹)) := by
    intro k
    induction k with
    | zero => exact line_start2 ht
    | succ k ih => rw [Function.iterate_succ_apply']; exact line_step2 ih
  refine ⟨K, fun m method hm => ?_⟩
  obtain ⟨st', s', h1, -, -, h4⟩ := hK m (updatingCfg method ![t, 3 - t] (θ ^ m) (m + K))
    ⟨exactLinAlg_isExact ℝ 2, by
      simp only [List.mem_cons, List.not_mem_nil, or_false] at hm
      rcases hm with rfl | rfl
      · exact .inl rfl
      · exact .inr rfl, rfl, fun _ => rfl, fun _ => rfl⟩ rfl rfl le_rfl line_limits
    (fun k => line_nonneg2 (hline k)) ⟨0, 0, 0⟩ rfl
  exact ⟨st', s', h1, h4⟩

end DemoReal

/-- Hypotheses of `C113_first`, `C113_second`: the solution of case 8 of the crate's tests, in dimension 20. -/
example : LocalRoot TestCases.broydenCase8 TestCases.broydenCase8Jac (TestCases.solutionCase8 Real.sqrt) :=
  ⟨C69_case8.zero, C69_case8.smooth.contDiffAt, .of_forall C69_case8.jacobian, C69_case8.invertible⟩

end Nrf
