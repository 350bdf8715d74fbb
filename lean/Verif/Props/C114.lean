import Verif.Proofs.BroydenFd
import Verif.Props.C113

/-!
# C114: Broyden's methods without a Jacobian: the solver follows them from the displaced point

With finite differences the model is left with its last variable displaced, and the first pass of the solver starts there
(C31). The pairs of the updates start there as well: what the solver computes is Broyden's method of the literature from
the displaced point, with the matrix of the difference quotients at the guess.
-/

namespace Nrf
open Spec
open scoped Exact Topology
open Matrix Broyden

variable {n : Nat}

/-- `BroydenFirst`, updating the Jacobian or its inverse, on a function without a Jacobian, in exact arithmetic with
absolute residuals, without damping, with limits that do not act within `R` of a simple root: from every close guess, with
small displacements, the solve returns the points of the method of the literature from the displaced point and converges,
as long as no residual is negative at these points. -/
theorem C114_first {F : Vec ℝ (n + 1) → Vec ℝ (n + 1)} {jac : Vec ℝ (n + 1) → Mat ℝ (n + 1)} {r : Vec ℝ (n + 1)}
    (h : LocalRoot F jac r) {R : ℝ} (hR : 0 < R) : ∃ ρ > 0, ∀ tol > 0, ∃ N, ∀ (c : Config ℝ (n + 1)) (d : Vec ℝ (n + 1)),
      PlainUpdating c .BroydenFirst → c.params.tolerance = tol → ‖c.guess - r‖ < ρ →
      computePerturbations c.iters c.guess = some d → (∀ i, d i ≠ 0 ∧ |d i| < ρ) → N ≤ c.params.maxIter →
      (∀ i v d, |v - r i| < R → |d| < R → (c.iters i).stepLimitation v d = v + d) →
      (∀ k < N, ∀ i, 0 ≤ F ((firstBroyden F)^[k] (lastMoved c.guess d, differenceQuotients F c.guess d)).1 i) →
      ∀ s : AdapterState ℝ (n + 1), s.right = 0 →
      ∃ st' s', solve c (fromFunction F) .new s = .ok (st', s', .ok ()) ∧ st'.iter ≤ N ∧
        s'.inputs = (if st'.iter = 0 then c.guess else
          ((firstBroyden F)^[st'.iter] (lastMoved c.guess d, differenceQuotients F c.guess d)).1) ∧
        (∀ i, |F s'.inputs i| ≤ tol) ∧
        ‖s'.inputs - r‖ ≤ (n + 2) * (‖c.guess - r‖ + |d (Fin.last n)|) / 2 ^ st'.iter := by
  obtain ⟨ρ, hρ, b, hb⟩ := first_start h
  have hRn : 0 < R / (2 * ((n + 1 : ℕ) + 1 : ℝ)) := by positivity
  refine ⟨min ρ (R / (2 * ((n + 1 : ℕ) + 1)) / 2), by positivity, fun tol htol => ?_⟩
  obtain ⟨N, hN⟩ := enough_succ b htol
  refine ⟨N + 1, ?_⟩
  rintro c d hc rfl hg hd hds hmax hfree hpos s hs
  have hdis := displaced_norm c.guess r (Fin.last n) (d (Fin.last n))
  obtain ⟨hb, -⟩ := hb c.guess d (hg.trans_le (min_le_left _ _))
    fun i => ⟨(hds i).1, (hds i).2.trans_le (min_le_left _ _)⟩
  have hz : ‖lastMoved c.guess d - r‖ < R / (2 * ((n + 1 : ℕ) + 1)) := by
    have h1 := hg.trans_le (min_le_right _ _)
    have h2 := (hds (Fin.last n)).2.trans_le (min_le_right _ _)
    exact hdis.trans_lt (by linarith)
  have hin := fun k => inside hz k (hb k).2.1
  obtain ⟨P, hP⟩ : ∃ P : Nat → Iterate (n + 1), P = fun k => (firstBroyden F)^[k] (lastMoved c.guess d, differenceQuotients F c.guess d) :=
    ⟨_, rfl⟩
  have hPk : ∀ k, (firstBroyden F)^[k] (lastMoved c.guess d, differenceQuotients F c.guess d) = P k := fun k => by rw [hP]
  simp only [hPk] at hb hin hpos ⊢
  obtain ⟨st', s', h1, h2, h3, h4⟩ := first_run_differences hc hd P hP (fun k => (hb k).1) (N + 1)
    hmax N.succ_pos (fun k _ i => unlimited hfree (hin k) (hin (k + 1)) i) hpos
    (fun i => (norm_le_pi_norm (F _) i).trans ((hb (N + 1)).2.2.trans hN)) htol.le s hs
  refine ⟨st', s', h1, h2, h3, h4, ?_⟩
  rw [h3]
  split
  · next h0 =>
    rw [h0, pow_zero, div_one]
    nlinarith [norm_nonneg (c.guess - r), abs_nonneg (d (Fin.last n)), (Nat.cast_nonneg n : (0 : ℝ) ≤ n)]
  · refine (hb _).2.1.trans (div_le_div_of_nonneg_right ?_ (by positivity))
    rw [show ((n + 1 : ℕ) : ℝ) + 1 = n + 2 by push_cast; ring]
    exact mul_le_mul_of_nonneg_left hdis (by positivity)

/-- The same for `BroydenSecond`. -/
theorem C114_second {F : Vec ℝ (n + 1) → Vec ℝ (n + 1)} {jac : Vec ℝ (n + 1) → Mat ℝ (n + 1)} {r : Vec ℝ (n + 1)}
    (h : LocalRoot F jac r) {R : ℝ} (hR : 0 < R) : ∃ ρ > 0, ∀ tol > 0, ∃ N, ∀ (c : Config ℝ (n + 1)) (d : Vec ℝ (n + 1)),
      PlainUpdating c .BroydenSecond → c.params.tolerance = tol → ‖c.guess - r‖ < ρ →
      computePerturbations c.iters c.guess = some d → (∀ i, d i ≠ 0 ∧ |d i| < ρ) → N ≤ c.params.maxIter →
      (∀ i v d, |v - r i| < R → |d| < R → (c.iters i).stepLimitation v d = v + d) →
      (∀ k < N, ∀ i, 0 ≤ F ((secondBroyden F)^[k] (lastMoved c.guess d, (differenceQuotients F c.guess d)⁻¹)).1 i) →
      ∀ s : AdapterState ℝ (n + 1), s.right = 0 →
      ∃ st' s', solve c (fromFunction F) .new s = .ok (st', s', .ok ()) ∧ st'.iter ≤ N ∧
        s'.inputs = (if st'.iter = 0 then c.guess else
          ((secondBroyden F)^[st'.iter] (lastMoved c.guess d, (differenceQuotients F c.guess d)⁻¹)).1) ∧
        (∀ i, |F s'.inputs i| ≤ tol) ∧
        ‖s'.inputs - r‖ ≤ (n + 2) * (‖c.guess - r‖ + |d (Fin.last n)|) / 2 ^ st'.iter := by
  obtain ⟨ρ, hρ, b, hb⟩ := second_start h
  have hRn : 0 < R / (2 * ((n + 1 : ℕ) + 1 : ℝ)) := by positivity
  refine ⟨min ρ (R / (2 * ((n + 1 : ℕ) + 1)) / 2), by positivity, fun tol htol => ?_⟩
  obtain ⟨N, hN⟩ := enough_succ b htol
  refine ⟨N + 1, ?_⟩
  rintro c d hc rfl hg hd hds hmax hfree hpos s hs
  have hdis := displaced_norm c.guess r (Fin.last n) (d (Fin.last n))
  obtain ⟨hdet, hb, -⟩ := hb c.guess d (hg.trans_le (min_le_left _ _))
    fun i => ⟨(hds i).1, (hds i).2.trans_le (min_le_left _ _)⟩
  have hz : ‖lastMoved c.guess d - r‖ < R / (2 * ((n + 1 : ℕ) + 1)) := by
    have h1 := hg.trans_le (min_le_right _ _)
    have h2 := (hds (Fin.last n)).2.trans_le (min_le_right _ _)
    exact hdis.trans_lt (by linarith)
  have hin := fun k => inside hz k (hb k).2.2.1
  obtain ⟨P, hP⟩ : ∃ P : Nat → Iterate (n + 1), P = fun k => (secondBroyden F)^[k] (lastMoved c.guess d, (differenceQuotients F c.guess d)⁻¹) :=
    ⟨_, rfl⟩
  have hPk : ∀ k, (secondBroyden F)^[k] (lastMoved c.guess d, (differenceQuotients F c.guess d)⁻¹) = P k := fun k => by rw [hP]
  simp only [hPk] at hb hin hpos ⊢
  obtain ⟨st', s', h1, h2, h3, h4⟩ := second_run_differences hc hd P hP hdet (fun k => (hb k).1) (fun k => (hb k).2.1) (N + 1)
    hmax N.succ_pos (fun k _ i => unlimited hfree (hin k) (hin (k + 1)) i) hpos
    (fun i => (norm_le_pi_norm (F _) i).trans ((hb (N + 1)).2.2.2.trans hN)) htol.le s hs
  refine ⟨st', s', h1, h2, h3, h4, ?_⟩
  rw [h3]
  split
  · next h0 =>
    rw [h0, pow_zero, div_one]
    nlinarith [norm_nonneg (c.guess - r), abs_nonneg (d (Fin.last n)), (Nat.cast_nonneg n : (0 : ℝ) ≤ n)]
  · refine (hb _).2.2.1.trans (div_le_div_of_nonneg_right ?_ (by positivity))
    rw [show ((n + 1 : ℕ) : ℝ) + 1 = n + 2 by push_cast; ring]
    exact mul_le_mul_of_nonneg_left hdis (by positivity)

/-- It is faster than every linear rate: from every close guess with small displacements, for every factor `θ < 1` there
is a number `K` such that every tolerance `θ ^ m` is reached in at most `m + K` iterations, as long as no residual is
negative at the points of the method. -/
theorem C114_first_fast {F : Vec ℝ (n + 1) → Vec ℝ (n + 1)} {jac : Vec ℝ (n + 1) → Mat ℝ (n + 1)} {r : Vec ℝ (n + 1)}
    (h : LocalRoot F jac r) {R : ℝ} (hR : 0 < R) : ∃ ρ > 0, ∀ g d : Vec ℝ (n + 1), ‖g - r‖ < ρ →
      (∀ i, d i ≠ 0 ∧ |d i| < ρ) → ∀ θ, 0 < θ → θ < 1 → ∃ K, ∀ (m : Nat) (c : Config ℝ (n + 1)),
      PlainUpdating c .BroydenFirst → c.guess = g → computePerturbations c.iters c.guess = some d →
      c.params.tolerance = θ ^ m → m + K ≤ c.params.maxIter →
      (∀ i v d, |v - r i| < R → |d| < R → (c.iters i).stepLimitation v d = v + d) →
      (∀ k i, 0 ≤ F ((firstBroyden F)^[k] (lastMoved g d, differenceQuotients F g d)).1 i) →
      ∀ s : AdapterState ℝ (n + 1), s.right = 0 →
      ∃ st' s', solve c (fromFunction F) .new s = .ok (st', s', .ok ()) ∧ st'.iter ≤ m + K ∧
        s'.inputs = (if st'.iter = 0 then g else ((firstBroyden F)^[st'.iter] (lastMoved g d, differenceQuotients F g d)).1) ∧
        ∀ i, |F s'.inputs i| ≤ θ ^ m := by
  obtain ⟨ρ, hρ, b, hb⟩ := first_start h
  obtain ⟨R', hR', B, hB, hres⟩ := residual_near h
  have hRn : 0 < R / (2 * ((n + 1 : ℕ) + 1 : ℝ)) := by positivity
  have hRn' : 0 < R' / (2 * ((n + 1 : ℕ) + 1 : ℝ)) := by positivity
  refine ⟨min ρ (min (R / (2 * ((n + 1 : ℕ) + 1)) / 2) (R' / (2 * ((n + 1 : ℕ) + 1)) / 2)), by positivity,
    fun g d hg hds θ hθ hθ1 => ?_⟩
  have hdis := displaced_norm g r (Fin.last n) (d (Fin.last n))
  obtain ⟨hb, hfast⟩ := hb g d (hg.trans_le (min_le_left _ _))
    fun i => ⟨(hds i).1, (hds i).2.trans_le (min_le_left _ _)⟩
  have hz : ‖lastMoved g d - r‖ < R / (2 * ((n + 1 : ℕ) + 1)) := by
    have h1 := hg.trans_le ((min_le_right _ _).trans (min_le_left _ _))
    have h2 := (hds (Fin.last n)).2.trans_le ((min_le_right _ _).trans (min_le_left _ _))
    exact hdis.trans_lt (by linarith)
  have hz' : ‖lastMoved g d - r‖ < R' / (2 * ((n + 1 : ℕ) + 1)) := by
    have h1 := hg.trans_le ((min_le_right _ _).trans (min_le_right _ _))
    have h2 := (hds (Fin.last n)).2.trans_le ((min_le_right _ _).trans (min_le_right _ _))
    exact hdis.trans_lt (by linarith)
  have hin := fun k => inside hz k (hb k).2.1
  have hin' := fun k => inside hz' k (hb k).2.1
  obtain ⟨P, hP⟩ : ∃ P : Nat → Iterate (n + 1), P = fun k => (firstBroyden F)^[k] (lastMoved g d, differenceQuotients F g d) := ⟨_, rfl⟩
  have hPk : ∀ k, (firstBroyden F)^[k] (lastMoved g d, differenceQuotients F g d) = P k := fun k => by rw [hP]
  simp only [hPk] at hb hfast hin hin' ⊢
  obtain ⟨C, hC, hgeo⟩ := geometric (e := fun k => ‖(P k).1 - r‖) hfast (fun k => norm_nonneg _) hθ
  obtain ⟨K, hK⟩ := reached (f := fun k => ‖F (P k).1‖) hB hC hθ hθ1 hgeo
    (fun k => hres _ ((hin' k).trans (by linarith)))
  refine ⟨K + 1, fun m c hc hgc hd htol hmax hfree hpos s hs => ?_⟩
  subst hgc
  have hK' := hK (m + 1)
  rw [add_right_comm] at hK'
  obtain ⟨st', s', h1, h2, h3, h4⟩ := first_run_differences hc hd P hP (fun k => (hb k).1) (m + K + 1)
    hmax (Nat.succ_pos _) (fun k _ i => unlimited hfree (hin k) (hin (k + 1)) i) (fun k _ => hpos k)
    (fun i => by
      rw [htol]
      refine (norm_le_pi_norm (F _) i).trans (hK'.trans ?_)
      rw [pow_succ]
      exact mul_le_of_le_one_right (by positivity) hθ1.le) (by rw [htol]; positivity) s hs
  exact ⟨st', s', h1, h2, h3, by rw [← htol]; exact h4⟩

/-- The same for `BroydenSecond`. -/
theorem C114_second_fast {F : Vec ℝ (n + 1) → Vec ℝ (n + 1)} {jac : Vec ℝ (n + 1) → Mat ℝ (n + 1)} {r : Vec ℝ (n + 1)}
    (h : LocalRoot F jac r) {R : ℝ} (hR : 0 < R) : ∃ ρ > 0, ∀ g d : Vec ℝ (n + 1), ‖g - r‖ < ρ →
      (∀ i, d i ≠ 0 ∧ |d i| < ρ) → ∀ θ, 0 < θ → θ < 1 → ∃ K, ∀ (m : Nat) (c : Config ℝ (n + 1)),
      PlainUpdating c .BroydenSecond → c.guess = g → computePerturbations c.iters c.guess = some d →
      c.params.tolerance = θ ^ m → m + K ≤ c.params.maxIter →
      (∀ i v d, |v - r i| < R → |d| < R → (c.iters i).stepLimitation v d = v + d) →
      (∀ k i, 0 ≤ F ((secondBroyden F)^[k] (lastMoved g d, (differenceQuotients F g d)⁻¹)).1 i) →
      ∀ s : AdapterState ℝ (n + 1), s.right = 0 →
      ∃ st' s', solve c (fromFunction F) .new s = .ok (st', s', .ok ()) ∧ st'.iter ≤ m + K ∧
        s'.inputs = (if st'.iter = 0 then g else ((secondBroyden F)^[st'.iter] (lastMoved g d, (differenceQuotients F g d)⁻¹)).1) ∧
        ∀ i, |F s'.inputs i| ≤ θ ^ m := by
  obtain ⟨ρ, hρ, b, hb⟩ := second_start h
  obtain ⟨R', hR', B, hB, hres⟩ := residual_near h
  have hRn : 0 < R / (2 * ((n + 1 : ℕ) + 1 : ℝ)) := by positivity
  have hRn' : 0 < R' / (2 * ((n + 1 : ℕ) + 1 : ℝ)) := by positivity
  refine ⟨min ρ (min (R / (2 * ((n + 1 : ℕ) + 1)) / 2) (R' / (2 * ((n + 1 : ℕ) + 1)) / 2)), by positivity,
    fun g d hg hds θ hθ hθ1 => ?_⟩
  have hdis := displaced_norm g r (Fin.last n) (d (Fin.last n))
  obtain ⟨hdet, hb, hfast⟩ := hb g d (hg.trans_le (min_le_left _ _))
    fun i => ⟨(hds i).1, (hds i).2.trans_le (min_le_left _ _)⟩
  have hz : ‖lastMoved g d - r‖ < R / (2 * ((n + 1 : ℕ) + 1)) := by
    have h1 := hg.trans_le ((min_le_right _ _).trans (min_le_left _ _))
    have h2 := (hds (Fin.last n)).2.trans_le ((min_le_right _ _).trans (min_le_left _ _))
    exact hdis.trans_lt (by linarith)
  have hz' : ‖lastMoved g d - r‖ < R' / (2 * ((n + 1 : ℕ) + 1)) := by
    have h1 := hg.trans_le ((min_le_right _ _).trans (min_le_right _ _))
    have h2 := (hds (Fin.last n)).2.trans_le ((min_le_right _ _).trans (min_le_right _ _))
    exact hdis.trans_lt (by linarith)
  have hin := fun k => inside hz k (hb k).2.2.1
  have hin' := fun k => inside hz' k (hb k).2.2.1
  obtain ⟨P, hP⟩ : ∃ P : Nat → Iterate (n + 1), P = fun k => (secondBroyden F)^[k] (lastMoved g d, (differenceQuotients F g d)⁻¹) := ⟨_, rfl⟩
  have hPk : ∀ k, (secondBroyden F)^[k] (lastMoved g d, (differenceQuotients F g d)⁻¹) = P k := fun k => by rw [hP]
  simp only [hPk] at hb hfast hin hin' ⊢
  obtain ⟨C, hC, hgeo⟩ := geometric (e := fun k => ‖(P k).1 - r‖) hfast (fun k => norm_nonneg _) hθ
  obtain ⟨K, hK⟩ := reached (f := fun k => ‖F (P k).1‖) hB hC hθ hθ1 hgeo
    (fun k => hres _ ((hin' k).trans (by linarith)))
  refine ⟨K + 1, fun m c hc hgc hd htol hmax hfree hpos s hs => ?_⟩
  subst hgc
  have hK' := hK (m + 1)
  rw [add_right_comm] at hK'
  obtain ⟨st', s', h1, h2, h3, h4⟩ := second_run_differences hc hd P hP hdet (fun k => (hb k).1) (fun k => (hb k).2.1) (m + K + 1)
    hmax (Nat.succ_pos _) (fun k _ i => unlimited hfree (hin k) (hin (k + 1)) i) (fun k _ => hpos k)
    (fun i => by
      rw [htol]
      refine (norm_le_pi_norm (F _) i).trans (hK'.trans ?_)
      rw [pow_succ]
      exact mul_le_of_le_one_right (by positivity) hθ1.le) (by rw [htol]; positivity) s hs
  exact ⟨st', s', h1, h2, h3, by rw [← htol]; exact h4⟩

/-! ## Examples -/

namespace DemoReal

/-- `y² = 2`, `x + y = 3`: the last variable is `y`. -/
def lastF (x : Vec ℝ 2) : Vec ℝ 2 := ![x 1 ^ 2 - 2, x 0 + x 1 - 3]
def lastJ (x : Vec ℝ 2) : Mat ℝ 2 := !![0, 2 * x 1; 1, 1]
noncomputable def lastR : Vec ℝ 2 := ![3 - √2, √2]

theorem last_root : LocalRoot lastF lastJ lastR where
  root := by
    funext i
    fin_cases i <;> simp [lastF, lastR]
  smooth := by
    refine ContDiff.contDiffAt (contDiff_pi.2 fun i => ?_)
    fin_cases i <;> simp [lastF] <;> fun_prop
  jacobian := by
    refine .of_forall fun x => hasFDerivAt_pi'.2 fun i => ?_
    have h0 : HasFDerivAt (fun x : Vec ℝ 2 => x 0) (ContinuousLinearMap.proj (R := ℝ) (φ := fun _ : Fin 2 => ℝ) 0) x :=
      hasFDerivAt_apply 0 x
    have h1 : HasFDerivAt (fun x : Vec ℝ 2 => x 1) (ContinuousLinearMap.proj (R := ℝ) (φ := fun _ : Fin 2 => ℝ) 1) x :=
      hasFDerivAt_apply 1 x
    fin_cases i
    · refine ((h1.pow 2).sub_const 2).congr_fderiv ?_
      ext v
      simp [lastJ, Matrix.mulVec, dotProduct, Fin.sum_univ_two]
    · refine ((h0.add h1).sub_const 3).congr_fderiv ?_
      ext v
      simp [lastJ, Matrix.mulVec, dotProduct, Fin.sum_univ_two]
  invertible := by
    have := one_lt_sqrt2
    simp [lastJ, lastR, Matrix.det_fin_two]

/-- Points on the line `x + y = 3` above the root; the slope along the line is steep enough. -/
def Above (p : Iterate 2) : Prop :=
  ∃ t a b : ℝ, p = (![3 - t, t], !![b, a; 1, 1]) ∧ √2 ≤ t ∧ t + √2 ≤ a - b

theorem above_step {p : Iterate 2} (h : Above p) : Above (firstBroyden lastF p) := by
  obtain ⟨t, a, b, rfl, ht, hab⟩ := h
  have h2 := one_lt_sqrt2
  have hs := sq2
  have hd : 0 < a - b := by linarith
  set δ := (t ^ 2 - 2) / (a - b) with hδ
  have hδm : (a - b) * δ = t ^ 2 - 2 := by rw [hδ]; field_simp
  have hδ0 : 0 ≤ δ := div_nonneg (by nlinarith) hd.le
  have hδt : δ ≤ t - √2 := by
    rw [hδ, div_le_iff₀ hd]
    nlinarith
  have hdet : (!![b, a; 1, 1] : Mat ℝ 2).det ≠ 0 := by simp [Matrix.det_fin_two]; intro e; linarith
  have hF : lastF ![3 - t, t] = (!![b, a; 1, 1] : Mat ℝ 2) *ᵥ ![-δ, δ] := by
    funext i
    fin_cases i
    · simp [lastF]; linarith
    · simp [lastF]
  have hx : ![3 - t, t] - (!![b, a; 1, 1] : Mat ℝ 2)⁻¹ *ᵥ lastF ![3 - t, t] = ![3 - (t - δ), t - δ] := by
    rw [hF, mulVec_inv hdet]
    funext i
    fin_cases i <;> simp; ring
  have hstep : ![3 - (t - δ), t - δ] - ![3 - t, t] = ![δ, -δ] := by
    funext i
    fin_cases i <;> simp
  have hy : lastF ![3 - (t - δ), t - δ] - lastF ![3 - t, t] - (!![b, a; 1, 1] : Mat ℝ 2) *ᵥ ![δ, -δ] =
      ![δ * (a - b - (2 * t - δ)), 0] := by
    funext i
    fin_cases i <;> simp [lastF]; ring
  have hnew : (firstBroyden lastF (![3 - t, t], !![b, a; 1, 1])) = (![3 - (t - δ), t - δ],
      !![b, a; 1, 1] + (![δ, -δ] ⬝ᵥ ![δ, -δ])⁻¹ • vecMulVec ![δ * (a - b - (2 * t - δ)), 0] ![δ, -δ]) := by
    simp only [firstBroyden, hx, hstep, hy]
  rw [hnew]
  by_cases h0 : δ = 0
  · refine ⟨t - δ, a, b, ?_, by linarith, by linarith⟩
    rw [h0]
    congr 1
    ext i j
    fin_cases i <;> fin_cases j <;> simp [vecMulVec_apply]
  · refine ⟨t - δ, a - (a - b - (2 * t - δ)) / 2, b + (a - b - (2 * t - δ)) / 2, ?_, by linarith, by linarith⟩
    congr 1
    have e : (![δ, -δ] ⬝ᵥ ![δ, -δ])⁻¹ = (2 * δ ^ 2)⁻¹ := by simp [dotProduct, Fin.sum_univ_two]; ring
    rw [e]
    ext i j
    fin_cases i <;> fin_cases j <;> simp [vecMulVec_apply] <;> field_simp
    ring

/-- The first step, from the point displaced by `q`. -/
theorem above_start {t q : ℝ} (ht : √2 ≤ t) (hq : 0 < q) :
    Above (firstBroyden lastF (![3 - t, t + q], !![0, 2 * t + q; 1, 1])) := by
  have h2 := one_lt_sqrt2
  have hs := sq2
  have hd : 0 < 2 * t + q := by linarith
  set δ := (t ^ 2 - 2) / (2 * t + q) with hδ
  have hδm : (2 * t + q) * δ = t ^ 2 - 2 := by rw [hδ]; field_simp
  have hδ0 : 0 ≤ δ := div_nonneg (by nlinarith) hd.le
  have hδt : δ ≤ t - √2 := by
    rw [hδ, div_le_iff₀ hd]
    nlinarith
  have hdet : (!![0, 2 * t + q; 1, 1] : Mat ℝ 2).det ≠ 0 := by simp [Matrix.det_fin_two]; intro e; linarith
  have hF : lastF ![3 - t, t + q] = (!![0, 2 * t + q; 1, 1] : Mat ℝ 2) *ᵥ ![-δ, δ + q] := by
    funext i
    fin_cases i
    · simp [lastF]; linear_combination -hδm
    · simp [lastF]; ring
  have hx : ![3 - t, t + q] - (!![0, 2 * t + q; 1, 1] : Mat ℝ 2)⁻¹ *ᵥ lastF ![3 - t, t + q] =
      ![3 - (t - δ), t - δ] := by
    rw [hF, mulVec_inv hdet]
    funext i
    fin_cases i <;> simp <;> ring
  have hstep : ![3 - (t - δ), t - δ] - ![3 - t, t + q] = ![δ, -(δ + q)] := by
    funext i
    fin_cases i <;> simp <;> ring
  have hy : lastF ![3 - (t - δ), t - δ] - lastF ![3 - t, t + q] - (!![0, 2 * t + q; 1, 1] : Mat ℝ 2) *ᵥ ![δ, -(δ + q)] =
      ![δ * (δ + q), 0] := by
    funext i
    fin_cases i <;> simp [lastF] <;> ring
  have hnew : (firstBroyden lastF (![3 - t, t + q], !![0, 2 * t + q; 1, 1])) = (![3 - (t - δ), t - δ],
      !![0, 2 * t + q; 1, 1] + (![δ, -(δ + q)] ⬝ᵥ ![δ, -(δ + q)])⁻¹ •
        vecMulVec ![δ * (δ + q), 0] ![δ, -(δ + q)]) := by
    simp only [firstBroyden, hx, hstep, hy]
  rw [hnew]
  have hD : 0 < δ ^ 2 + (δ + q) ^ 2 := by positivity
  have e : (![δ, -(δ + q)] ⬝ᵥ ![δ, -(δ + q)])⁻¹ = (δ ^ 2 + (δ + q) ^ 2)⁻¹ := by
    congr 1
    simp only [dotProduct, Fin.sum_univ_two, Matrix.cons_val_zero, Matrix.cons_val_one]; ring
  refine ⟨t - δ, 2 * t + q - δ * (δ + q) ^ 2 / (δ ^ 2 + (δ + q) ^ 2), δ ^ 2 * (δ + q) / (δ ^ 2 + (δ + q) ^ 2), ?_,
    by linarith, ?_⟩
  · congr 1
    rw [e]
    ext i j
    fin_cases i <;> fin_cases j <;> simp [vecMulVec_apply] <;> field_simp
    ring
  · rw [sub_sub, ← add_div]
    have : (δ * (δ + q) ^ 2 + δ ^ 2 * (δ + q)) / (δ ^ 2 + (δ + q) ^ 2) ≤ δ + q := by
      rw [div_le_iff₀ hD]
      nlinarith [mul_nonneg (add_nonneg hδ0 hq.le) (sq_nonneg q), mul_nonneg hδ0 (sq_nonneg (δ + q)),
        mul_nonneg hδ0 (mul_nonneg hδ0 hq.le), mul_nonneg hδ0 (sq_nonneg δ), mul_nonneg hq.le (sq_nonneg δ)]
    linarith

theorem above_nonneg {p : Iterate 2} (h : Above p) (i : Fin 2) : 0 ≤ lastF p.1 i := by
  obtain ⟨t, a, b, rfl, ht, -⟩ := h
  have h2 := one_lt_sqrt2
  have hs := sq2
  fin_cases i
  · simp [lastF]; nlinarith
  · simp [lastF]

/-- The same points for the second method; the first column of the matrix is `h (-1, 1)`. -/
def Above2 (p : Iterate 2) : Prop :=
  ∃ t h b d : ℝ, p = (![3 - t, t], !![-h, d; h, b]) ∧ √2 ≤ t ∧ 0 < h ∧ h * (t + √2) ≤ 1

theorem above_step2 {p : Iterate 2} (h : Above2 p) : Above2 (secondBroyden lastF p) := by
  obtain ⟨t, g, b, d, rfl, ht, hg, hgt⟩ := h
  have h2 := one_lt_sqrt2
  have hs := sq2
  set δ := g * (t ^ 2 - 2) with hδ
  have hδ0 : 0 ≤ δ := mul_nonneg hg.le (by nlinarith)
  have hδt : δ ≤ t - √2 := by
    have : δ = g * (t + √2) * (t - √2) := by rw [hδ]; linear_combination g * hs
    rw [this]
    exact mul_le_of_le_one_left (by linarith) hgt
  have hx : ![3 - t, t] - (!![-g, d; g, b] : Mat ℝ 2) *ᵥ lastF ![3 - t, t] = ![3 - (t - δ), t - δ] := by
    funext i
    fin_cases i <;> simp [lastF, hδ] <;> ring
  have hstep : ![3 - (t - δ), t - δ] - ![3 - t, t] = ![δ, -δ] := by
    funext i
    fin_cases i <;> simp
  have hy : lastF ![3 - (t - δ), t - δ] - lastF ![3 - t, t] = ![-δ * (2 * t - δ), 0] := by
    funext i
    fin_cases i <;> simp [lastF]; ring
  have hr : ![δ, -δ] - (!![-g, d; g, b] : Mat ℝ 2) *ᵥ ![-δ * (2 * t - δ), 0] =
      ![δ * (1 - g * (2 * t - δ)), -δ * (1 - g * (2 * t - δ))] := by
    funext i
    fin_cases i <;> simp <;> ring
  have hnew : (secondBroyden lastF (![3 - t, t], !![-g, d; g, b])) = (![3 - (t - δ), t - δ],
      !![-g, d; g, b] + (![-δ * (2 * t - δ), 0] ⬝ᵥ ![-δ * (2 * t - δ), 0])⁻¹ •
        vecMulVec ![δ * (1 - g * (2 * t - δ)), -δ * (1 - g * (2 * t - δ))] ![-δ * (2 * t - δ), 0]) := by
    simp only [secondBroyden, hx, hstep, hy, hr]
  rw [hnew]
  have hw : 0 < 2 * t - δ := by linarith
  by_cases h0 : δ = 0
  · refine ⟨t - δ, g, b, d, ?_, by linarith, hg, by rw [h0, sub_zero]; exact hgt⟩
    rw [h0]
    congr 1
    ext i j
    fin_cases i <;> fin_cases j <;> simp [vecMulVec_apply]
  · refine ⟨t - δ, (2 * t - δ)⁻¹, b, d, ?_, by linarith, by positivity, ?_⟩
    · congr 1
      have e : (![-δ * (2 * t - δ), 0] ⬝ᵥ ![-δ * (2 * t - δ), 0])⁻¹ = ((δ * (2 * t - δ)) ^ 2)⁻¹ := by
        congr 1
        simp only [dotProduct, Fin.sum_univ_two, Matrix.cons_val_zero, Matrix.cons_val_one]; ring
      rw [e]
      have hw' := hw.ne'
      ext i j
      fin_cases i <;> fin_cases j <;> simp [vecMulVec_apply] <;> field_simp <;> ring
    · rw [inv_mul_le_iff₀ hw]
      linarith

theorem above_start2 {t q : ℝ} (ht : √2 ≤ t) (hq : 0 < q) :
    Above2 (secondBroyden lastF (![3 - t, t + q], (!![0, 2 * t + q; 1, 1])⁻¹)) := by
  have h2 := one_lt_sqrt2
  have hs := sq2
  have hd : 0 < 2 * t + q := by linarith
  have hinv : (!![0, 2 * t + q; 1, 1] : Mat ℝ 2)⁻¹ = !![-(2 * t + q)⁻¹, 1; (2 * t + q)⁻¹, 0] := by
    refine Matrix.inv_eq_right_inv ?_
    ext i j
    fin_cases i <;> fin_cases j <;> simp [Matrix.mul_apply, Fin.sum_univ_two, hd.ne']
  rw [hinv]
  set g := (2 * t + q)⁻¹ with hgd
  have hg : 0 < g := inv_pos.2 hd
  have hgm : g * (2 * t + q) = 1 := inv_mul_cancel₀ hd.ne'
  set δ := g * (t ^ 2 - 2) with hδ
  have hδm : (2 * t + q) * δ = t ^ 2 - 2 := by rw [hδ]; linear_combination (t ^ 2 - 2) * hgm
  have hδ0 : 0 ≤ δ := mul_nonneg hg.le (by nlinarith)
  have hδt : δ ≤ t - √2 := by
    have h3 : (2 * t + q) * δ ≤ (2 * t + q) * (t - √2) := by rw [hδm]; nlinarith
    exact le_of_mul_le_mul_left h3 hd
  have hx : ![3 - t, t + q] - (!![-g, 1; g, 0] : Mat ℝ 2) *ᵥ lastF ![3 - t, t + q] = ![3 - (t - δ), t - δ] := by
    funext i
    fin_cases i <;> simp [lastF, hδ]
    · linear_combination q * hgm
    · linear_combination (-q) * hgm
  have hstep : ![3 - (t - δ), t - δ] - ![3 - t, t + q] = ![δ, -(δ + q)] := by
    funext i
    fin_cases i <;> simp <;> ring
  obtain ⟨e, he⟩ : ∃ e, e = 2 * t + q - δ := ⟨_, rfl⟩
  have he0 : 0 < e := by rw [he]; linarith
  have hy : lastF ![3 - (t - δ), t - δ] - lastF ![3 - t, t + q] = ![-((δ + q) * e), -q] := by
    funext i
    fin_cases i <;> simp [lastF, he] <;> ring
  have hr : ![δ, -(δ + q)] - (!![-g, 1; g, 0] : Mat ℝ 2) *ᵥ ![-((δ + q) * e), -q] =
      ![g * (δ * (δ + q)), -(g * (δ * (δ + q)))] := by
    funext i
    fin_cases i <;> simp [he]
    · linear_combination -(δ + q) * hgm
    · linear_combination (δ + q) * hgm
  have hnew : (secondBroyden lastF (![3 - t, t + q], !![-g, 1; g, 0])) = (![3 - (t - δ), t - δ],
      !![-g, 1; g, 0] + (![-((δ + q) * e), -q] ⬝ᵥ ![-((δ + q) * e), -q])⁻¹ •
        vecMulVec ![g * (δ * (δ + q)), -(g * (δ * (δ + q)))] ![-((δ + q) * e), -q]) := by
    simp only [secondBroyden, hx, hstep, hy, hr]
  rw [hnew]
  have hD : 0 < ((δ + q) * e) ^ 2 + q ^ 2 := by positivity
  have e1 : (![-((δ + q) * e), -q] ⬝ᵥ ![-((δ + q) * e), -q])⁻¹ = (((δ + q) * e) ^ 2 + q ^ 2)⁻¹ := by
    congr 1
    simp only [dotProduct, Fin.sum_univ_two, Matrix.cons_val_zero, Matrix.cons_val_one]; ring
  have hc0 : 0 ≤ δ * (δ + q) * ((δ + q) * e) / (((δ + q) * e) ^ 2 + q ^ 2) := by positivity
  refine ⟨t - δ, g * (1 + δ * (δ + q) * ((δ + q) * e) / (((δ + q) * e) ^ 2 + q ^ 2)),
    g * (δ * (δ + q)) * q / (((δ + q) * e) ^ 2 + q ^ 2), 1 - g * (δ * (δ + q)) * q / (((δ + q) * e) ^ 2 + q ^ 2), ?_,
    by linarith, by positivity, ?_⟩
  · congr 1
    rw [e1]
    have hD' := hD.ne'
    ext i j
    fin_cases i <;> fin_cases j <;> simp [vecMulVec_apply] <;> field_simp <;> ring
  · have h3 : δ * (δ + q) * ((δ + q) * e) / (((δ + q) * e) ^ 2 + q ^ 2) ≤ δ / e := by
      rw [div_le_div_iff₀ hD he0]
      nlinarith [mul_nonneg hδ0 (sq_nonneg q)]
    have h4 : g * (1 + δ / e) = 1 / e := by
      have h5 : g * (e + δ) = 1 := by rw [he]; linear_combination hgm
      rw [eq_div_iff he0.ne', mul_assoc, add_mul, div_mul_cancel₀ _ he0.ne', one_mul, h5]
    have h6 : g * (1 + δ * (δ + q) * ((δ + q) * e) / (((δ + q) * e) ^ 2 + q ^ 2)) ≤ 1 / e := by
      rw [← h4]
      exact mul_le_mul_of_nonneg_left (by linarith) hg.le
    refine (mul_le_mul_of_nonneg_right h6 (by linarith)).trans ?_
    rw [one_div, inv_mul_le_iff₀ he0]
    linarith

theorem above_nonneg2 {p : Iterate 2} (h : Above2 p) (i : Fin 2) : 0 ≤ lastF p.1 i := by
  obtain ⟨t, g, b, d, rfl, ht, -⟩ := h
  exact above_nonneg ⟨t, t + √2, 0, rfl, ht, by linarith⟩ i

theorem displaced_nonneg {t q : ℝ} (ht : √2 ≤ t) (hq : 0 < q) (i : Fin 2) : 0 ≤ lastF ![3 - t, t + q] i := by
  have h2 := one_lt_sqrt2
  have hs := sq2
  fin_cases i
  · simp [lastF]; nlinarith
  · simp [lastF]; linarith

theorem last_limits (i : Fin 2) (v d : ℝ) (hv : |v - lastR i| < 1 / 4) (hd : |d| < 1 / 4) :
    (limits 1).toIterative.stepLimitation v d = v + d := by
  refine line_limits i.rev v d ?_ hd
  have e : lineR i.rev = lastR i := by fin_cases i <;> rfl
  rwa [e]

/-- An updating method with displacements of size `dx`. -/
noncomputable def differencesCfg (method : QuasiNewtonMethod) (guess : Vec ℝ 2) (tol dx : ℝ) (maxIter : Nat) : Config ℝ 2 :=
  { updatingCfg method guess tol maxIter with iters := fun _ => (limits dx).toIterative }

/-- Its displacements. -/
noncomputable def shifts (guess : Vec ℝ 2) (dx : ℝ) : Vec ℝ 2 := fun i => max dx (|guess i| * dx)

theorem shifts_eq (method : QuasiNewtonMethod) (guess : Vec ℝ 2) (tol dx : ℝ) (maxIter : Nat) :
    computePerturbations (differencesCfg method guess tol dx maxIter).iters guess = some (shifts guess dx) := by
  have h : ∀ i, ((differencesCfg method guess tol dx maxIter).iters i).computePerturbation.isSome = true := fun _ => rfl
  rw [computePerturbations, dif_pos h]
  rfl

theorem shifts_bound {t dx ρ : ℝ} (ht : √2 ≤ t) (htρ : t < √2 + 1 / 2) (hdx : 0 < dx) (hdρ : dx < ρ / 2) (i : Fin 2) :
    0 < shifts ![3 - t, t] dx i ∧ shifts ![3 - t, t] dx i < ρ := by
  have h2 := one_lt_sqrt2
  have h3 : √2 < 3 / 2 := by rw [Real.sqrt_lt' (by norm_num)]; norm_num
  refine ⟨lt_max_of_lt_left hdx, max_lt (by linarith) ?_⟩
  have hg : |(![3 - t, t] : Vec ℝ 2) i| ≤ 2 := by
    rw [abs_le]
    fin_cases i <;> simp <;> constructor <;> linarith
  nlinarith [mul_le_mul_of_nonneg_right hg hdx.le]

theorem last_dist {t ρ : ℝ} (hρ : 0 < ρ) (ht : √2 ≤ t) (htρ : t < √2 + ρ) : ‖![3 - t, t] - lastR‖ < ρ := by
  refine (pi_norm_lt_iff hρ).2 fun i => ?_
  rw [Real.norm_eq_abs, abs_lt]
  fin_cases i <;> simp [lastR] <;> constructor <;> linarith

/-- Where the method starts. -/
theorem last_start {t : ℝ} {d : Vec ℝ 2} (hd : ∀ i, 0 < d i) :
    (lastMoved ![3 - t, t] d = ![3 - t, t + d 1]) ∧
      differenceQuotients lastF ![3 - t, t] d = !![0, 2 * t + d 1; 1, 1] := by
  have h0 := (hd 0).ne'
  have h1 := (hd 1).ne'
  constructor
  · funext i
    fin_cases i <;> simp [lastMoved, Fin.last]
  · ext i j
    fin_cases i <;> fin_cases j <;> simp [differenceQuotients, lastF] <;> field_simp <;> ring

theorem nonneg_first {t : ℝ} (ht : √2 ≤ t) {d : Vec ℝ 2} (hd : ∀ i, 0 < d i) (k : Nat) (i : Fin 2) :
    0 ≤ lastF ((firstBroyden lastF)^[k] (lastMoved ![3 - t, t] d, differenceQuotients lastF ![3 - t, t] d)).1 i := by
  rw [(last_start hd).1, (last_start hd).2]
  cases k with
  | zero => exact displaced_nonneg ht (hd 1) i
  | succ k =>
    refine above_nonneg ?_ i
    induction k with
    | zero => exact above_start ht (hd 1)
    | succ k ih => rw [Function.iterate_succ_apply']; exact above_step ih

theorem nonneg_second {t : ℝ} (ht : √2 ≤ t) {d : Vec ℝ 2} (hd : ∀ i, 0 < d i) (k : Nat) (i : Fin 2) :
    0 ≤ lastF ((secondBroyden lastF)^[k] (lastMoved ![3 - t, t] d, (differenceQuotients lastF ![3 - t, t] d)⁻¹)).1 i := by
  rw [(last_start hd).1, (last_start hd).2]
  cases k with
  | zero => exact displaced_nonneg ht (hd 1) i
  | succ k =>
    refine above_nonneg2 ?_ i
    induction k with
    | zero => exact above_start2 ht (hd 1)
    | succ k ih => rw [Function.iterate_succ_apply']; exact above_step2 ih

theorem last_plain {u : UpdateMethod} {method : QuasiNewtonMethod} (hm : method ∈ [QuasiNewtonMethod.JacobianUpdate u,
    .InverseJacobianUpdate u]) (guess : Vec ℝ 2) (tol dx : ℝ) (N : Nat) :
    PlainUpdating (differencesCfg method guess tol dx N) u :=
  ⟨exactLinAlg_isExact ℝ 2, by
    simp only [List.mem_cons, List.not_mem_nil, or_false] at hm
    rcases hm with rfl | rfl
    · exact .inl rfl
    · exact .inr rfl, rfl, fun _ => rfl, fun _ => rfl⟩

/-- Both forms of the first method, with the limits of the crate, on the line above the root, for all small displacements. -/
example : ∃ ρ > 0, ∀ tol > 0, ∃ N, ∀ t dx, √2 ≤ t → t < √2 + ρ → 0 < dx → dx < ρ →
    ∀ method ∈ [QuasiNewtonMethod.JacobianUpdate .BroydenFirst, .InverseJacobianUpdate .BroydenFirst],
    ∃ st' s', solve (differencesCfg method ![3 - t, t] tol dx N) (fromFunction lastF) .new ⟨0, 0, 0⟩ =
      .ok (st', s', .ok ()) ∧ ∀ i, |lastF s'.inputs i| ≤ tol := by
  obtain ⟨ρ, hρ, h⟩ := C114_first last_root (show (0 : ℝ) < 1 / 4 by norm_num)
  refine ⟨min (ρ / 2) (1 / 2), by positivity, fun tol htol => ?_⟩
  obtain ⟨N, hN⟩ := h tol htol
  refine ⟨N, fun t dx ht htρ hdx hdρ method hm => ?_⟩
  have h1 := min_le_left (ρ / 2) (1 / 2)
  have h2 := min_le_right (ρ / 2) (1 / 2)
  have hb := shifts_bound ht (by linarith) hdx (hdρ.trans_le h1)
  obtain ⟨st', s', g1, -, -, g4, -⟩ := hN (differencesCfg method ![3 - t, t] tol dx N) (shifts ![3 - t, t] dx)
    (last_plain hm _ _ _ _) rfl (last_dist hρ ht (by linarith)) (shifts_eq ..)
    (fun i => ⟨(hb i).1.ne', by rw [abs_of_pos (hb i).1]; exact (hb i).2⟩) le_rfl last_limits
    (fun k _ => nonneg_first ht (fun i => (hb i).1) k) ⟨0, 0, 0⟩ rfl
  exact ⟨st', s', g1, g4⟩

/-- The second method. -/
example : ∃ ρ > 0, ∀ tol > 0, ∃ N, ∀ t dx, √2 ≤ t → t < √2 + ρ → 0 < dx → dx < ρ →
    ∀ method ∈ [QuasiNewtonMethod.JacobianUpdate .BroydenSecond, .InverseJacobianUpdate .BroydenSecond],
    ∃ st' s', solve (differencesCfg method ![3 - t, t] tol dx N) (fromFunction lastF) .new ⟨0, 0, 0⟩ =
      .ok (st', s', .ok ()) ∧ ∀ i, |lastF s'.inputs i| ≤ tol := by
  obtain ⟨ρ, hρ, h⟩ := C114_second last_root (show (0 : ℝ) < 1 / 4 by norm_num)
  refine ⟨min (ρ / 2) (1 / 2), by positivity, fun tol htol => ?_⟩
  obtain ⟨N, hN⟩ := h tol htol
  refine ⟨N, fun t dx ht htρ hdx hdρ method hm => ?_⟩
  have h1 := min_le_left (ρ / 2) (1 / 2)
  have h2 := min_le_right (ρ / 2) (1 / 2)
  have hb := shifts_bound ht (by linarith) hdx (hdρ.trans_le h1)
  obtain ⟨st', s', g1, -, -, g4, -⟩ := hN (differencesCfg method ![3 - t, t] tol dx N) (shifts ![3 - t, t] dx)
    (last_plain hm _ _ _ _) rfl (last_dist hρ ht (by linarith)) (shifts_eq ..)
    (fun i => ⟨(hb i).1.ne', by rw [abs_of_pos (hb i).1]; exact (hb i).2⟩) le_rfl last_limits
    (fun k _ => nonneg_second ht (fun i => (hb i).1) k) ⟨0, 0, 0⟩ rfl
  exact ⟨st', s', g1, g4⟩

/-- From some point on every iteration of the first method gains a digit, or three. -/
example : ∃ ρ > 0, ∀ t dx, √2 ≤ t → t < √2 + ρ → 0 < dx → dx < ρ → ∀ θ ∈ [(1 / 10 : ℝ), 1 / 1000], ∃ K, ∀ m : Nat,
    ∀ method ∈ [QuasiNewtonMethod.JacobianUpdate .BroydenFirst, .InverseJacobianUpdate .BroydenFirst],
    ∃ st' s', solve (differencesCfg method ![3 - t, t] (θ ^ m) dx (m + K)) (fromFunction lastF) .new ⟨0, 0, 0⟩ =
      .ok (st', s', .ok ()) ∧ ∀ i, |lastF s'.inputs i| ≤ θ ^ m := by
  obtain ⟨ρ, hρ, h⟩ := C114_first_fast last_root (show (0 : ℝ) < 1 / 4 by norm_num)
  refine ⟨min (ρ / 2) (1 / 2), by positivity, fun t dx ht htρ hdx hdρ θ hθ => ?_⟩
  have hθ : 0 < θ ∧ θ < 1 := by
    simp only [List.mem_cons, List.not_mem_nil, or_false] at hθ
    rcases hθ with rfl | rfl <;> norm_num
  have h1 := min_le_left (ρ / 2) (1 / 2)
  have h2 := min_le_right (ρ / 2) (1 / 2)
  have hb := shifts_bound ht (by linarith) hdx (hdρ.trans_le h1)
  obtain ⟨K, hK⟩ := h ![3 - t, t] (shifts ![3 - t, t] dx) (last_dist hρ ht (by linarith))
    (fun i => ⟨(hb i).1.ne', by rw [abs_of_pos (hb i).1]; exact (hb i).2⟩) θ hθ.1 hθ.2
  refine ⟨K, fun m method hm => ?_⟩
  obtain ⟨st', s', g1, -, -, g4⟩ := hK m (differencesCfg method ![3 - t, t] (θ ^ m) dx (m + K))
    (last_plain hm _ _ _ _) rfl (shifts_eq ..) rfl le_rfl last_limits
    (fun k => nonneg_first ht (fun i => (hb i).1) k) ⟨0, 0, 0⟩ rfl
  exact ⟨st', s', g1, g4⟩

/-- The second method. -/
example : ∃ ρ > 0, ∀ t dx, √2 ≤ t → t < √2 + ρ → 0 < dx → dx < ρ → ∀ θ ∈ [(1 / 10 : ℝ), 1 / 1000], ∃ K, ∀ m : Nat,
    ∀ method ∈ [QuasiNewtonMethod.JacobianUpdate .BroydenSecond, .InverseJacobianUpdate .BroydenSecond],
    ∃ st' s', solve (differencesCfg method ![3 - t, t] (θ ^ m) dx (m + K)) (fromFunction lastF) .new ⟨0, 0, 0⟩ =
      .ok (st', s', .ok ()) ∧ ∀ i, |lastF s'.inputs i| ≤ θ ^ m := by
  obtain ⟨ρ, hρ, h⟩ := C114_second_fast last_root (show (0 : ℝ) < 1 / 4 by norm_num)
  refine ⟨min (ρ / 2) (1 / 2), by positivity, fun t dx ht htρ hdx hdρ θ hθ => ?_⟩
  have hθ : 0 < θ ∧ θ < 1 := by
    simp only [List.mem_cons, List.not_mem_nil, or_false] at hθ
    rcases hθ with rfl | rfl <;> norm_num
  have h1 := min_le_left (ρ / 2) (1 / 2)
  have h2 := min_le_right (ρ / 2) (1 / 2)
  have hb := shifts_bound ht (by linarith) hdx (hdρ.trans_le h1)
  obtain ⟨K, hK⟩ := h ![3 - t, t] (shifts ![3 - t, t] dx) (last_dist hρ ht (by linarith))
    (fun i => ⟨(hb i).1.ne', by rw [abs_of_pos (hb i).1]; exact (hb i).2⟩) θ hθ.1 hθ.2
  refine ⟨K, fun m method hm => ?_⟩
  obtain ⟨st', s', g1, -, -, g4⟩ := hK m (differencesCfg method ![3 - t, t] (θ ^ m) dx (m + K))
    (last_plain hm _ _ _ _) rfl (shifts_eq ..) rfl le_rfl last_limits
    (fun k => nonneg_second ht (fun i => (hb i).1) k) ⟨0, 0, 0⟩ rfl
  exact ⟨st', s', g1, g4⟩

end DemoReal

end Nrf
