import Verif.Proofs.BroydenBall

/-!
# Broyden's methods with difference quotients
-/

set_option linter.unusedSectionVars false

namespace Nrf
open Spec
open scoped Topology
open Matrix Filter

variable {n : Nat} {F : Vec ℝ n → Vec ℝ n} {jac : Vec ℝ n → Mat ℝ n} {r : Vec ℝ n}

theorem displaced_norm (x r : Vec ℝ n) (k : Fin n) (d : ℝ) : ‖x + Pi.single k d - r‖ ≤ ‖x - r‖ + |d| := by
  rw [add_sub_right_comm]
  refine (norm_add_le _ _).trans (add_le_add le_rfl ?_)
  rw [Pi.norm_single, Real.norm_eq_abs]

/-- Near the root the quotients stretch vectors nearly as the Jacobian at the root. -/
theorem quotients_near (h : LocalRoot F jac r) {e : ℝ} (he : 0 < e) :
    ∃ δ > 0, ∀ x d : Vec ℝ n, ‖x - r‖ < δ → (∀ i, d i ≠ 0 ∧ |d i| < δ) → Stretch (differenceQuotients F x d - jac r) e := by
  obtain ⟨R, hR, L, hF⟩ := nearAffine h.smooth h.root h.jacobian.self_of_nhds
  obtain ⟨ρ, hρ, -, h2, h3⟩ := small_radius (n := n) hF.nonneg hR
    (show 0 < e / ((n + 1) * (n + 1) * (n + 1)) by positivity) 1 one_pos
  refine ⟨ρ / 2, by positivity, fun x d hx hd => ?_⟩
  have hLρ : 0 ≤ L * ((n + 1) * ρ) := mul_nonneg hF.nonneg (by positivity)
  refine (stretch_of_entries (a := (n + 1) * (L * ((n + 1) * ρ))) (by positivity) fun i k => ?_).mono ?_
  · have hlen : ∀ y : Vec ℝ n, ‖y‖ ≤ ρ → len y ≤ (n + 1) * ρ := fun y hy =>
      (len_le_norm y).trans (mul_le_mul_of_nonneg_left hy (by positivity))
    have hdk := hd k
    obtain ⟨y, hy⟩ : ∃ y : Vec ℝ n, y = Pi.single k (d k) := ⟨_, rfl⟩
    have hyn : ‖y‖ = |d k| := by rw [hy, Pi.norm_single, Real.norm_eq_abs]
    have hx1 : ‖x - r‖ ≤ ρ := by linarith
    have hx2 : ‖x + y - r‖ ≤ ρ := by
      rw [hy]
      exact (displaced_norm x r k (d k)).trans (by linarith)
    have hc := hF.close x (x + y) ((n + 1) * ρ) (hlen _ hx1) (hlen _ hx2) h2
    rw [add_sub_cancel_left] at hc
    have hs : len y ≤ (n + 1) * |d k| := by rw [← hyn]; exact len_le_norm y
    have hi := (norm_le_pi_norm (F (x + y) - F x - jac r *ᵥ y) i).trans
      ((norm_le_len _).trans (hc.trans (mul_le_mul_of_nonneg_left hs hLρ)))
    rw [hy] at hi
    have e1 : (F (x + Pi.single k (d k)) - F x - jac r *ᵥ Pi.single k (d k)) i =
        (differenceQuotients F x d - jac r) i k * d k := by
      rw [Matrix.mulVec_single]
      simp only [Pi.sub_apply, Matrix.sub_apply, differenceQuotients, Matrix.of_apply, Matrix.col_apply, Pi.smul_apply,
        MulOpposite.smul_eq_mul_unop, MulOpposite.unop_op]
      rw [sub_mul, div_mul_cancel₀ _ hdk.1]
    rw [e1, Real.norm_eq_abs, abs_mul] at hi
    have hpos : 0 < |d k| := abs_pos.2 hdk.1
    refine le_of_mul_le_mul_right (hi.trans (le_of_eq (by ring))) hpos
  · have h4 := mul_le_mul_of_nonneg_left h3 (by positivity : (0 : ℝ) ≤ (n + 1) * (n + 1) * (n + 1))
    rw [show ((n : ℝ) + 1) * (n + 1) * (n + 1) * (e / ((n + 1) * (n + 1) * (n + 1))) = e by field_simp] at h4
    have h5 : (0 : ℝ) ≤ (n + 1) * (n + 1) * (L * ((n + 1) * ρ)) := by positivity
    nlinarith

open scoped Exact
variable {F : Vec ℝ (n + 1) → Vec ℝ (n + 1)}

/-- Broyden's first method from the displaced point with the quotients at a point near the root. -/
theorem first_start {jac : Vec ℝ (n + 1) → Mat ℝ (n + 1)} {r : Vec ℝ (n + 1)} (h : LocalRoot F jac r) :
    ∃ ρ > 0, ∃ b, ∀ x d : Vec ℝ (n + 1), ‖x - r‖ < ρ → (∀ i, d i ≠ 0 ∧ |d i| < ρ) → (∀ k,
    ((firstBroyden F)^[k] (lastMoved x d, differenceQuotients F x d)).2.det ≠ 0 ∧
    ‖((firstBroyden F)^[k] (lastMoved x d, differenceQuotients F x d)).1 - r‖ ≤
      ((n + 1 : ℕ) + 1) * ‖lastMoved x d - r‖ / 2 ^ k ∧
    ‖F ((firstBroyden F)^[k] (lastMoved x d, differenceQuotients F x d)).1‖ ≤ b / 2 ^ k) ∧
    ∀ ε > 0, ∃ N, ∀ k, N ≤ k → ‖((firstBroyden F)^[k + 1] (lastMoved x d, differenceQuotients F x d)).1 - r‖ ≤
      ε * ‖((firstBroyden F)^[k] (lastMoved x d, differenceQuotients F x d)).1 - r‖ := by
  obtain ⟨e, he, ρ, hρ, b, hb⟩ := near_first h
  obtain ⟨δ, hδ, hq⟩ := quotients_near h he
  refine ⟨min (ρ / 2) δ, by positivity, b, fun x d hx hd => ?_⟩
  refine hb (lastMoved x d) (differenceQuotients F x d) ?_ (hq x d (hx.trans_le (min_le_right _ _))
    fun i => ⟨(hd i).1, (hd i).2.trans_le (min_le_right _ _)⟩)
  have h1 := hx.trans_le (min_le_left _ _)
  have h2 := (hd (Fin.last n)).2.trans_le (min_le_left _ _)
  exact (displaced_norm x r (Fin.last n) (d (Fin.last n))).trans_lt (by linarith)

/-- Broyden's second method from the displaced point with the quotients at a point near the root. -/
theorem second_start {jac : Vec ℝ (n + 1) → Mat ℝ (n + 1)} {r : Vec ℝ (n + 1)} (h : LocalRoot F jac r) :
    ∃ ρ > 0, ∃ b, ∀ x d : Vec ℝ (n + 1), ‖x - r‖ < ρ → (∀ i, d i ≠ 0 ∧ |d i| < ρ) → (differenceQuotients F x d).det ≠ 0 ∧ (∀ k,
    ((secondBroyden F)^[k] (lastMoved x d, (differenceQuotients F x d)⁻¹)).2.det ≠ 0 ∧
    (F ((secondBroyden F)^[k + 1] (lastMoved x d, (differenceQuotients F x d)⁻¹)).1 = F ((secondBroyden F)^[k] (lastMoved x d, (differenceQuotients F x d)⁻¹)).1 →
      ((secondBroyden F)^[k + 1] (lastMoved x d, (differenceQuotients F x d)⁻¹)).1 = ((secondBroyden F)^[k] (lastMoved x d, (differenceQuotients F x d)⁻¹)).1) ∧
    ‖((secondBroyden F)^[k] (lastMoved x d, (differenceQuotients F x d)⁻¹)).1 - r‖ ≤
      ((n + 1 : ℕ) + 1) * ‖lastMoved x d - r‖ / 2 ^ k ∧
    ‖F ((secondBroyden F)^[k] (lastMoved x d, (differenceQuotients F x d)⁻¹)).1‖ ≤ b / 2 ^ k) ∧
    ∀ ε > 0, ∃ N, ∀ k, N ≤ k → ‖((secondBroyden F)^[k + 1] (lastMoved x d, (differenceQuotients F x d)⁻¹)).1 - r‖ ≤
      ε * ‖((secondBroyden F)^[k] (lastMoved x d, (differenceQuotients F x d)⁻¹)).1 - r‖ := by
  obtain ⟨e, he, ρ, hρ, b, hb⟩ := near_second h
  obtain ⟨δ, hδ, hq⟩ := quotients_near h he
  refine ⟨min (ρ / 2) δ, by positivity, b, fun x d hx hd => ?_⟩
  refine hb (lastMoved x d) (differenceQuotients F x d) ?_ (hq x d (hx.trans_le (min_le_right _ _))
    fun i => ⟨(hd i).1, (hd i).2.trans_le (min_le_right _ _)⟩)
  have h1 := hx.trans_le (min_le_left _ _)
  have h2 := (hd (Fin.last n)).2.trans_le (min_le_left _ _)
  exact (displaced_norm x r (Fin.last n) (d (Fin.last n))).trans_lt (by linarith)

theorem enough_succ (b : ℝ) {tol : ℝ} (htol : 0 < tol) : ∃ N : Nat, b / 2 ^ (N + 1) ≤ tol := by
  obtain ⟨N, hN⟩ := Broyden.enough (b / 2) htol
  exact ⟨N, by rwa [pow_succ', ← div_div]⟩

theorem quotients_moved (x d : Vec ℝ n) (F : Vec ℝ n → Vec ℝ n) (i k : Fin n) :
    differenceQuotients F x d i k = (F (moved x k (d k)) i - F x i) / d k := by
  rw [moved_eq]; rfl

/-- The solver follows Broyden's first method from the displaced point. -/
theorem first_run_differences {c : Config ℝ (n + 1)} (hc : PlainUpdating c .BroydenFirst) {d : Vec ℝ (n + 1)}
    (hd : computePerturbations c.iters c.guess = some d) (p : Nat → Iterate (n + 1))
    (hp : p = fun k => (firstBroyden F)^[k] (lastMoved c.guess d, differenceQuotients F c.guess d)) (hdet : ∀ k, (p k).2.det ≠ 0)
    (N : Nat) (hN : N ≤ c.params.maxIter) (hN0 : 0 < N)
    (hlim : ∀ k < N, ∀ i, (c.iters i).stepLimitation ((p k).1 i) ((p (k + 1)).1 i - (p k).1 i) = (p (k + 1)).1 i)
    (hpos : ∀ k < N, ∀ i, 0 ≤ F (p k).1 i) (hend : ∀ i, |F (p N).1 i| ≤ c.params.tolerance)
    (htol : 0 ≤ c.params.tolerance) (s : AdapterState ℝ (n + 1)) (hs : s.right = 0) :
    ∃ st' s', solve c (fromFunction F) .new s = .ok (st', s', .ok ()) ∧ st'.iter ≤ N ∧
      s'.inputs = (if st'.iter = 0 then c.guess else (p st'.iter).1) ∧ ∀ i, |F s'.inputs i| ≤ c.params.tolerance := by
  have hstep : ∀ k, p (k + 1) = firstBroyden F (p k) := fun k => by
    rw [hp]; exact Function.iterate_succ_apply' _ _ _
  exact pair_run_differences hc F hd (fun k => (p k).1) (fun k => (p k).2) (fun k => (p k).2⁻¹) N hN hN0
    (by rw [hp, moved_eq]; rfl) (by rw [hp]; exact quotients_moved _ _ _) (first_pairs p hstep hdet) hlim hpos hend htol s hs

/-- The solver follows Broyden's second method from the displaced point. -/
theorem second_run_differences {c : Config ℝ (n + 1)} (hc : PlainUpdating c .BroydenSecond) {d : Vec ℝ (n + 1)}
    (hd : computePerturbations c.iters c.guess = some d) (p : Nat → Iterate (n + 1))
    (hp : p = fun k => (secondBroyden F)^[k] (lastMoved c.guess d, (differenceQuotients F c.guess d)⁻¹))
    (hdet0 : (differenceQuotients F c.guess d).det ≠ 0) (hdet : ∀ k, (p k).2.det ≠ 0)
    (hy : ∀ k, F (p (k + 1)).1 = F (p k).1 → (p (k + 1)).1 = (p k).1)
    (N : Nat) (hN : N ≤ c.params.maxIter) (hN0 : 0 < N)
    (hlim : ∀ k < N, ∀ i, (c.iters i).stepLimitation ((p k).1 i) ((p (k + 1)).1 i - (p k).1 i) = (p (k + 1)).1 i)
    (hpos : ∀ k < N, ∀ i, 0 ≤ F (p k).1 i) (hend : ∀ i, |F (p N).1 i| ≤ c.params.tolerance)
    (htol : 0 ≤ c.params.tolerance) (s : AdapterState ℝ (n + 1)) (hs : s.right = 0) :
    ∃ st' s', solve c (fromFunction F) .new s = .ok (st', s', .ok ()) ∧ st'.iter ≤ N ∧
      s'.inputs = (if st'.iter = 0 then c.guess else (p st'.iter).1) ∧ ∀ i, |F s'.inputs i| ≤ c.params.tolerance := by
  have hstep : ∀ k, p (k + 1) = secondBroyden F (p k) := fun k => by
    rw [hp]; exact Function.iterate_succ_apply' _ _ _
  exact pair_run_differences hc F hd (fun k => (p k).1) (fun k => (p k).2⁻¹) (fun k => (p k).2) N hN hN0
    (by rw [hp, moved_eq]; rfl)
    (by
      rw [hp]
      change ∀ i k, ((differenceQuotients F c.guess d)⁻¹)⁻¹ i k = _
      rw [nonsing_inv_nonsing_inv _ (isUnit_iff_ne_zero.2 hdet0)]
      exact quotients_moved _ _ _)
    (second_pairs p hstep hdet hy) hlim hpos hend htol s hs

end Nrf
