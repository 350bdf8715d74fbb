import Verif.Proofs.BroydenLocal
import Verif.Proofs.BroydenSuper
import Verif.Proofs.BroydenSolve
import Verif.Proofs.Rate

/-!
# Balls in which Broyden's methods converge
-/

set_option linter.unusedSectionVars false

namespace Nrf
open Spec
open scoped Topology
open Matrix Filter

variable {n : Nat} {F : Vec ℝ n → Vec ℝ n} {jac : Vec ℝ n → Mat ℝ n} {r : Vec ℝ n}

/-- Near the root the Jacobian stretches vectors nearly as at the root. -/
theorem jac_near (h : LocalRoot F jac r) {e : ℝ} (he : 0 < e) :
    ∃ δ > 0, ∀ x, ‖x - r‖ < δ → Stretch (jac x - jac r) e := by
  have hc := jacobian_continuous h.smooth h.jacobian
  have ha : 0 < e / ((n + 1) * (n + 1)) := by positivity
  have hij : ∀ᶠ x in 𝓝 r, ∀ i j, |jac x i j - jac r i j| < e / ((n + 1) * (n + 1)) := by
    refine eventually_all.2 fun i => eventually_all.2 fun j => ?_
    have := Metric.continuousAt_iff'.1 (continuousAt_pi.1 (continuousAt_pi.1 hc i) j) _ ha
    exact this.mono fun x hx => by rwa [Real.dist_eq] at hx
  obtain ⟨δ, hδ, hball⟩ := Metric.eventually_nhds_iff.1 hij
  refine ⟨δ, hδ, fun x hx => ?_⟩
  have hx := hball (by rwa [dist_eq_norm] : dist x r < δ)
  refine (stretch_of_entries ha.le fun i j => (hx i j).le).mono ?_
  rw [mul_div, mul_div, div_le_iff₀ (by positivity)]
  nlinarith [he.le]

theorem residual_le {A : Mat ℝ n} {R L α : ℝ} (hF : NearAffine F A r R L) (hA : Stretch A α) {x : Vec ℝ n}
    (hx : len (x - r) ≤ R) : ‖F x‖ ≤ (α + L * R) * len (x - r) := by
  have h1 := hF.close r x R (by rw [sub_self, len_zero]; exact (len_nonneg _).trans hx) hx le_rfl
  have h2 : F x = (F x - F r - A *ᵥ (x - r)) + A *ᵥ (x - r) := by rw [hF.root]; abel
  refine (norm_le_len _).trans ?_
  rw [h2]
  have := len_add (F x - F r - A *ᵥ (x - r)) (A *ᵥ (x - r))
  have := hA (x - r)
  linarith

/-- The points of a sequence that halves the distance. -/
theorem halving_points {A : Mat ℝ n} {R L α ρ : ℝ} (hF : NearAffine F A r R L) (hα : 0 < α) (hA : Stretch A α) {x : Nat → Vec ℝ n}
    (hρ : (n + 1) * ρ ≤ R) (h0 : ‖x 0 - r‖ < ρ) (hx : ∀ k, len (x k - r) ≤ len (x 0 - r) / 2 ^ k) (k : Nat) :
    ‖x k - r‖ ≤ (n + 1) * ‖x 0 - r‖ / 2 ^ k ∧ ‖F (x k)‖ ≤ (α + L * R) * R / 2 ^ k := by
  have h2 : (0 : ℝ) < 2 ^ k := by positivity
  have h1 : (1 : ℝ) ≤ 2 ^ k := one_le_pow₀ one_le_two
  have hl := len_le_norm (x 0 - r)
  have hn : (n + 1 : ℝ) * ‖x 0 - r‖ ≤ R := (mul_le_mul_of_nonneg_left h0.le (by positivity)).trans hρ
  have hR : 0 ≤ R := le_trans (by positivity) hn
  have hk := hx k
  refine ⟨(norm_le_len _).trans (hk.trans (div_le_div_of_nonneg_right hl h2.le)), ?_⟩
  have hkR : len (x k - r) ≤ R / 2 ^ k := hk.trans (div_le_div_of_nonneg_right (hl.trans hn) h2.le)
  refine (residual_le hF hA (hkR.trans (div_le_self hR h1))).trans ?_
  rw [mul_div_assoc]
  exact mul_le_mul_of_nonneg_left hkR (add_nonneg hα.le (mul_nonneg hF.nonneg hR))

/-- Every positive number bounds `L ρ` for small `ρ`. -/
theorem small_radius {L R e : ℝ} (hL : 0 ≤ L) (hR : 0 < R) (he : 0 < e) (δ : ℝ) (hδ : 0 < δ) :
    ∃ ρ > 0, ρ ≤ δ ∧ (n + 1) * ρ ≤ R ∧ L * ((n + 1) * ρ) ≤ e := by
  refine ⟨min δ (min (R / (n + 1)) (e / ((L + 1) * (n + 1)))), by positivity, min_le_left _ _, ?_, ?_⟩
  · have := (min_le_right δ _).trans (min_le_left (R / (n + 1 : ℝ)) (e / ((L + 1) * (n + 1))))
    rwa [le_div_iff₀ (by positivity), mul_comm] at this
  · have := (min_le_right δ _).trans (min_le_right (R / (n + 1 : ℝ)) (e / ((L + 1) * (n + 1))))
    rw [le_div_iff₀ (by positivity)] at this
    have hp : 0 < min δ (min (R / (n + 1 : ℝ)) (e / ((L + 1) * (n + 1)))) := by positivity
    nlinarith [mul_pos hp (by positivity : (0 : ℝ) < n + 1)]

/-- From lengths to the norm. -/
theorem super_norm {f : Iterate n → Iterate n} {p : Iterate n}
    (h : ∀ ε > (0 : ℝ), ∃ N, ∀ k, N ≤ k → len ((f^[k + 1] p).1 - r) ≤ ε * len ((f^[k] p).1 - r)) (ε : ℝ)
    (hε : 0 < ε) : ∃ N, ∀ k, N ≤ k → ‖(f^[k + 1] p).1 - r‖ ≤ ε * ‖(f^[k] p).1 - r‖ := by
  obtain ⟨N, hN⟩ := h (ε / (n + 1)) (by positivity)
  refine ⟨N, fun k hk => (norm_le_len _).trans ((hN k hk).trans ?_)⟩
  calc ε / (n + 1) * len ((f^[k] p).1 - r) ≤ ε / (n + 1) * ((n + 1) * ‖(f^[k] p).1 - r‖) :=
        mul_le_mul_of_nonneg_left (len_le_norm _) (by positivity)
    _ = ε * ‖(f^[k] p).1 - r‖ := by field_simp

/-- Broyden's first method from a point near the root with a matrix near the Jacobian there. -/
theorem near_first (h : LocalRoot F jac r) : ∃ e > 0, ∃ ρ > 0, ∃ b, ∀ (x0 : Vec ℝ n) (J0 : Mat ℝ n),
    ‖x0 - r‖ < ρ → Stretch (J0 - jac r) e → (∀ k,
    ((firstBroyden F)^[k] (x0, J0)).2.det ≠ 0 ∧
    ‖((firstBroyden F)^[k] (x0, J0)).1 - r‖ ≤ (n + 1) * ‖x0 - r‖ / 2 ^ k ∧
    ‖F ((firstBroyden F)^[k] (x0, J0)).1‖ ≤ b / 2 ^ k) ∧
    ∀ ε > 0, ∃ N, ∀ k, N ≤ k →
      ‖((firstBroyden F)^[k + 1] (x0, J0)).1 - r‖ ≤ ε * ‖((firstBroyden F)^[k] (x0, J0)).1 - r‖ := by
  obtain ⟨R, hR, L, hF⟩ := nearAffine h.smooth h.root h.jacobian.self_of_nhds
  obtain ⟨α, hα, hA⟩ := exists_stretch (jac r)
  obtain ⟨β, hβ, hB⟩ := exists_stretch (jac r)⁻¹
  obtain ⟨ρ, hρ, h1, h2, h3⟩ := small_radius (n := n) hF.nonneg hR (show 0 < 1 / (32 * β) by positivity) 1 one_pos
  refine ⟨1 / (16 * β), by positivity, ρ, hρ, (α + L * R) * R, fun x0 J0 hx0 hst => ?_⟩
  have hlen : len (x0 - r) ≤ (n + 1) * ρ := (len_le_norm _).trans (mul_le_mul_of_nonneg_left hx0.le (by positivity))
  have hk : ∀ v, len v ≤ β * len (jac r *ᵥ v) := fun v => by
    have := hB (jac r *ᵥ v); rwa [mulVec_inv h.invertible] at this
  have hb : β * (L * ((n + 1) * ρ)) ≤ 1 / 32 := by
    have := mul_le_mul_of_nonneg_left h3 hβ.le
    rwa [show β * (1 / (32 * β)) = 1 / 32 by field_simp] at this
  have hc := first_converges hF hβ hk (p := (x0, J0)) hst hlen h2 hb
  have hs := fun ε hε => first_super hF hβ hk (p := (x0, J0)) hst hlen h2 hb (ε := ε) hε
  exact ⟨fun k => ⟨(hc k).1, halving_points hF hα hA h2 (x := fun k => ((firstBroyden F)^[k] (x0, J0)).1) hx0
    (fun k => (hc k).2) k⟩, super_norm hs⟩

theorem local_first (h : LocalRoot F jac r) : ∃ ρ > 0, ∃ b, ∀ x0, ‖x0 - r‖ < ρ → (∀ k,
    ((firstBroyden F)^[k] (x0, jac x0)).2.det ≠ 0 ∧
    ‖((firstBroyden F)^[k] (x0, jac x0)).1 - r‖ ≤ (n + 1) * ‖x0 - r‖ / 2 ^ k ∧
    ‖F ((firstBroyden F)^[k] (x0, jac x0)).1‖ ≤ b / 2 ^ k) ∧
    ∀ ε > 0, ∃ N, ∀ k, N ≤ k →
      ‖((firstBroyden F)^[k + 1] (x0, jac x0)).1 - r‖ ≤ ε * ‖((firstBroyden F)^[k] (x0, jac x0)).1 - r‖ := by
  obtain ⟨e, he, ρ, hρ, b, hb⟩ := near_first h
  obtain ⟨δ, hδ, hjac⟩ := jac_near h he
  exact ⟨min ρ δ, lt_min hρ hδ, b, fun x0 hx0 => hb x0 (jac x0) (hx0.trans_le (min_le_left _ _))
    (hjac x0 (hx0.trans_le (min_le_right _ _)))⟩

/-- The same for the second method. -/
theorem near_second (h : LocalRoot F jac r) : ∃ e > 0, ∃ ρ > 0, ∃ b, ∀ (x0 : Vec ℝ n) (J0 : Mat ℝ n),
    ‖x0 - r‖ < ρ → Stretch (J0 - jac r) e → J0.det ≠ 0 ∧ (∀ k,
    ((secondBroyden F)^[k] (x0, J0⁻¹)).2.det ≠ 0 ∧
    (F ((secondBroyden F)^[k + 1] (x0, J0⁻¹)).1 = F ((secondBroyden F)^[k] (x0, J0⁻¹)).1 →
      ((secondBroyden F)^[k + 1] (x0, J0⁻¹)).1 = ((secondBroyden F)^[k] (x0, J0⁻¹)).1) ∧
    ‖((secondBroyden F)^[k] (x0, J0⁻¹)).1 - r‖ ≤ (n + 1) * ‖x0 - r‖ / 2 ^ k ∧
    ‖F ((secondBroyden F)^[k] (x0, J0⁻¹)).1‖ ≤ b / 2 ^ k) ∧
    ∀ ε > 0, ∃ N, ∀ k, N ≤ k →
      ‖((secondBroyden F)^[k + 1] (x0, J0⁻¹)).1 - r‖ ≤ ε * ‖((secondBroyden F)^[k] (x0, J0⁻¹)).1 - r‖ := by
  obtain ⟨R, hR, L, hF⟩ := nearAffine h.smooth h.root h.jacobian.self_of_nhds
  obtain ⟨α, hα, hA⟩ := exists_stretch (jac r)
  obtain ⟨β, hβ, hB⟩ := exists_stretch (jac r)⁻¹
  have hkeep : ∀ v, len v ≤ β * len (jac r *ᵥ v) := fun v => by
    have := hB (jac r *ᵥ v); rwa [mulVec_inv h.invertible] at this
  set e := min (1 / (2 * β)) (1 / (2 * β * β * (8 * (α + 1)))) with he
  have he0 : 0 < e := by positivity
  have he1 : β * e ≤ 1 / 2 := by
    have := mul_le_mul_of_nonneg_left (min_le_left (1 / (2 * β)) (1 / (2 * β * β * (8 * (α + 1))))) hβ.le
    rwa [show β * (1 / (2 * β)) = 1 / 2 by field_simp] at this
  have he2 : 2 * β * (e * β) ≤ 1 / (8 * (α + 1)) := by
    have := mul_le_mul_of_nonneg_left (min_le_right (1 / (2 * β)) (1 / (2 * β * β * (8 * (α + 1))))) (by positivity : 0 ≤ 2 * β * β)
    rw [show 2 * β * β * (1 / (2 * β * β * (8 * (α + 1)))) = 1 / (8 * (α + 1)) by field_simp] at this
    linarith
  set q := min 1 (min (1 / (4 * β)) (1 / (2 * β * β * (16 * (α + 1))))) with hq
  have hq1 : q ≤ 1 := min_le_left _ _
  have hq2 : β * q ≤ 1 / 4 := by
    have := mul_le_mul_of_nonneg_left ((min_le_right 1 _).trans (min_le_left (1 / (4 * β)) (1 / (2 * β * β * (16 * (α + 1)))))) hβ.le
    rwa [show β * (1 / (4 * β)) = 1 / 4 by field_simp] at this
  have hq3 : 2 * β * (β * q) ≤ 1 / (16 * (α + 1)) := by
    have := mul_le_mul_of_nonneg_left ((min_le_right 1 _).trans (min_le_right (1 / (4 * β)) (1 / (2 * β * β * (16 * (α + 1)))))) (by positivity : 0 ≤ 2 * β * β)
    rw [show 2 * β * β * (1 / (2 * β * β * (16 * (α + 1)))) = 1 / (16 * (α + 1)) by field_simp] at this
    linarith
  obtain ⟨ρ, hρ, h1, h2, h3⟩ := small_radius (n := n) hF.nonneg hR (show 0 < q by positivity) 1 one_pos
  refine ⟨e, he0, ρ, hρ, (α + L * R) * R, fun x0 J0 hx0 hst => ?_⟩
  have hlen : len (x0 - r) ≤ (n + 1) * ρ := (len_le_norm _).trans (mul_le_mul_of_nonneg_left hx0.le (by positivity))
  have hk0 := keeps_length hkeep hβ he1 hst
  have hdet : J0.det ≠ 0 := det_ne_of_len hk0
  have hp : Stretch (J0⁻¹ - (jac r)⁻¹) (1 / (8 * (α + 1))) := by
    intro v
    have e1 : (J0⁻¹ - (jac r)⁻¹) *ᵥ v = -(J0⁻¹ *ᵥ ((J0 - jac r) *ᵥ ((jac r)⁻¹ *ᵥ v))) := by
      rw [sub_mulVec J0, inv_mulVec h.invertible, mulVec_sub, mulVec_inv hdet, sub_mulVec]
      abel
    rw [e1, len_neg]
    have a1 := hk0 (J0⁻¹ *ᵥ ((J0 - jac r) *ᵥ ((jac r)⁻¹ *ᵥ v)))
    rw [inv_mulVec hdet] at a1
    have a2 := hst ((jac r)⁻¹ *ᵥ v)
    have a3 := mul_le_mul_of_nonneg_left (hB v) he0.le
    have a4 := mul_le_mul_of_nonneg_left (a2.trans a3) (by positivity : 0 ≤ 2 * β)
    have a5 := mul_le_mul_of_nonneg_right he2 (len_nonneg v)
    linarith
  have b1 := (mul_le_mul_of_nonneg_left h3 hβ.le).trans hq2
  have b2 := (mul_le_mul_of_nonneg_left (mul_le_mul_of_nonneg_left h3 hβ.le) (by positivity : 0 ≤ 2 * β)).trans hq3
  have hc := second_converges hF h.invertible hα hβ hA hB (p := (x0, J0⁻¹)) hp hlen h2 (h3.trans hq1) b1 b2
  have hs := fun ε hε => second_super hF h.invertible hα hβ hA hB (p := (x0, J0⁻¹)) hp hlen h2 (h3.trans hq1) b1 b2
    (ε := ε) hε
  refine ⟨hdet, ?_, super_norm hs⟩
  refine fun k => ⟨(hc k).1, fun hy => ?_, halving_points hF hα hA h2
    (x := fun k => ((secondBroyden F)^[k] (x0, J0⁻¹)).1) hx0 (fun k => (hc k).2.1) k⟩
  have := (hc k).2.2
  rw [hy, sub_self, len_zero, mul_zero] at this
  exact sub_eq_zero.1 (len_eq_zero.1 (le_antisymm this (len_nonneg _)))

theorem local_second (h : LocalRoot F jac r) : ∃ ρ > 0, ∃ b, ∀ x0, ‖x0 - r‖ < ρ → (jac x0).det ≠ 0 ∧ (∀ k,
    ((secondBroyden F)^[k] (x0, (jac x0)⁻¹)).2.det ≠ 0 ∧
    (F ((secondBroyden F)^[k + 1] (x0, (jac x0)⁻¹)).1 = F ((secondBroyden F)^[k] (x0, (jac x0)⁻¹)).1 →
      ((secondBroyden F)^[k + 1] (x0, (jac x0)⁻¹)).1 = ((secondBroyden F)^[k] (x0, (jac x0)⁻¹)).1) ∧
    ‖((secondBroyden F)^[k] (x0, (jac x0)⁻¹)).1 - r‖ ≤ (n + 1) * ‖x0 - r‖ / 2 ^ k ∧
    ‖F ((secondBroyden F)^[k] (x0, (jac x0)⁻¹)).1‖ ≤ b / 2 ^ k) ∧
    ∀ ε > 0, ∃ N, ∀ k, N ≤ k →
      ‖((secondBroyden F)^[k + 1] (x0, (jac x0)⁻¹)).1 - r‖ ≤ ε * ‖((secondBroyden F)^[k] (x0, (jac x0)⁻¹)).1 - r‖ := by
  obtain ⟨e, he, ρ, hρ, b, hb⟩ := near_second h
  obtain ⟨δ, hδ, hjac⟩ := jac_near h he
  exact ⟨min ρ δ, lt_min hρ hδ, b, fun x0 hx0 => hb x0 (jac x0) (hx0.trans_le (min_le_left _ _))
    (hjac x0 (hx0.trans_le (min_le_right _ _)))⟩

open scoped Exact

theorem dot_self_ne {v : Vec ℝ n} (h : v ≠ 0) : v ⬝ᵥ v ≠ 0 := by
  rw [dot_self]
  exact pow_ne_zero 2 (len_pos h).ne'

/-- Broyden's first method gives pairs. -/
theorem first_pairs (p : Nat → Iterate n) (hstep : ∀ k, p (k + 1) = firstBroyden F (p k)) (hdet : ∀ k, (p k).2.det ≠ 0) :
    Pairs .BroydenFirst F (fun k => (p k).1) (fun k => (p k).2) (fun k => (p k).2⁻¹) := by
  have hJH : ∀ k, (p k).2 * (p k).2⁻¹ = 1 := fun k => mul_nonsing_inv _ (isUnit_iff_ne_zero.2 (hdet k))
  have hx : ∀ k, (p (k + 1)).1 = (p k).1 - (p k).2⁻¹ *ᵥ F (p k).1 := fun k => by rw [hstep]; rfl
  have hJ : ∀ k, (p (k + 1)).2 = rankJac (p k).2 ((p (k + 1)).1 - (p k).1) (F (p (k + 1)).1 - F (p k).1)
      ((p (k + 1)).1 - (p k).1) := fun k => by
    rw [rankJac, ← neg_sub (F _ - F _), neg_vecMulVec, smul_neg, sub_neg_eq_add, hstep]; rfl
  have he : ∀ k, (p (k + 1)).1 - (p k).1 ≠ 0 →
      (((p (k + 1)).1 - (p k).1) ᵥ* (p k).2⁻¹) ⬝ᵥ (F (p (k + 1)).1 - F (p k).1) ≠ 0 := fun k h =>
    (rank_invertible (hJH k) _ _ _ (dot_self_ne h)).1 (by rw [← hJ]; exact hdet _)
  refine ⟨hJH, hx, fun k _ => hJ k, fun k h => ?_, fun k h => dot_self_ne h, fun k h => he k h⟩
  have := rank_mul (hJH k) _ _ _ (dot_self_ne h) (he k h)
  rw [← hJ] at this
  exact Matrix.inv_eq_right_inv this

/-- Broyden's second method gives pairs. -/
theorem second_pairs (p : Nat → Iterate n) (hstep : ∀ k, p (k + 1) = secondBroyden F (p k))
    (hdet : ∀ k, (p k).2.det ≠ 0) (hy : ∀ k, F (p (k + 1)).1 = F (p k).1 → (p (k + 1)).1 = (p k).1) :
    Pairs .BroydenSecond F (fun k => (p k).1) (fun k => (p k).2⁻¹) (fun k => (p k).2) := by
  have hHJ : ∀ k, (p k).2 * (p k).2⁻¹ = 1 := fun k => mul_nonsing_inv _ (isUnit_iff_ne_zero.2 (hdet k))
  have hJH : ∀ k, (p k).2⁻¹ * (p k).2 = 1 := fun k => nonsing_inv_mul _ (isUnit_iff_ne_zero.2 (hdet k))
  have hx : ∀ k, (p (k + 1)).1 = (p k).1 - (p k).2 *ᵥ F (p k).1 := fun k => by rw [hstep]; rfl
  have hH : ∀ k, (p (k + 1)).2 = rankInv (p k).2 ((p (k + 1)).1 - (p k).1) (F (p (k + 1)).1 - F (p k).1)
      (F (p (k + 1)).1 - F (p k).1) := fun k => by
    rw [rankInv, ← neg_sub ((p (k + 1)).1 - (p k).1), neg_vecMulVec, smul_neg, sub_neg_eq_add, hstep]; rfl
  have hye : ∀ k, (p (k + 1)).1 - (p k).1 ≠ 0 → F (p (k + 1)).1 - F (p k).1 ≠ 0 := fun k h h0 =>
    h (sub_eq_zero.2 (hy k (sub_eq_zero.1 h0)))
  have hd : ∀ k, (p (k + 1)).1 - (p k).1 ≠ 0 →
      ((F (p (k + 1)).1 - F (p k).1) ᵥ* (p k).2⁻¹) ⬝ᵥ ((p (k + 1)).1 - (p k).1) ≠ 0 := fun k h =>
    (rank_invertible (hHJ k) (F (p (k + 1)).1 - F (p k).1) ((p (k + 1)).1 - (p k).1) (F (p (k + 1)).1 - F (p k).1)
      (dot_self_ne (hye k h))).1 (by
        have := hdet (k + 1)
        rw [hH] at this
        exact this)
  refine ⟨hJH, hx, fun k h => ?_, fun k _ => hH k, fun k h => hd k h, fun k h => dot_self_ne (hye k h)⟩
  have hw : ((F (p (k + 1)).1 - F (p k).1) ᵥ* (p k).2⁻¹) ᵥ* (p k).2 = F (p (k + 1)).1 - F (p k).1 := by
    rw [vecMul_vecMul, hJH, Matrix.vecMul_one]
  have := rank_mul (hJH k) _ _ _ (hd k h) (by rw [hw]; exact dot_self_ne (hye k h))
  rw [hw, ← hH] at this
  exact Matrix.inv_eq_left_inv this

/-- The solver follows Broyden's first method. -/
theorem first_run {c : Config ℝ n} (hc : PlainUpdating c .BroydenFirst) (p : Nat → Iterate n)
    (hp : p = fun k => (firstBroyden F)^[k] (c.guess, jac c.guess)) (hdet : ∀ k, (p k).2.det ≠ 0) (N : Nat)
    (hN : N ≤ c.params.maxIter)
    (hlim : ∀ k < N, ∀ i, (c.iters i).stepLimitation ((p k).1 i) ((p (k + 1)).1 i - (p k).1 i) = (p (k + 1)).1 i)
    (hpos : ∀ k < N, ∀ i, 0 ≤ F (p k).1 i) (hend : ∀ i, |F (p N).1 i| ≤ c.params.tolerance)
    (htol : 0 ≤ c.params.tolerance) (s : AdapterState ℝ n) (hs : s.right = 0) :
    ∃ st' s', solve c (fromFunctionAndJacobian F jac) .new s = .ok (st', s', .ok ()) ∧ st'.iter ≤ N ∧
      s'.inputs = (p st'.iter).1 ∧ ∀ i, |F s'.inputs i| ≤ c.params.tolerance := by
  have hstep : ∀ k, p (k + 1) = firstBroyden F (p k) := fun k => by
    rw [hp]; exact Function.iterate_succ_apply' _ _ _
  exact pair_run hc F jac (fun k => (p k).1) (fun k => (p k).2) (fun k => (p k).2⁻¹) N hN (by rw [hp]; rfl)
    (by rw [hp]; rfl) (first_pairs p hstep hdet) hlim hpos hend htol s hs

/-- The solver follows Broyden's second method. -/
theorem second_run {c : Config ℝ n} (hc : PlainUpdating c .BroydenSecond) (p : Nat → Iterate n)
    (hp : p = fun k => (secondBroyden F)^[k] (c.guess, (jac c.guess)⁻¹)) (hdet0 : (jac c.guess).det ≠ 0)
    (hdet : ∀ k, (p k).2.det ≠ 0) (hy : ∀ k, F (p (k + 1)).1 = F (p k).1 → (p (k + 1)).1 = (p k).1) (N : Nat)
    (hN : N ≤ c.params.maxIter)
    (hlim : ∀ k < N, ∀ i, (c.iters i).stepLimitation ((p k).1 i) ((p (k + 1)).1 i - (p k).1 i) = (p (k + 1)).1 i)
    (hpos : ∀ k < N, ∀ i, 0 ≤ F (p k).1 i) (hend : ∀ i, |F (p N).1 i| ≤ c.params.tolerance)
    (htol : 0 ≤ c.params.tolerance) (s : AdapterState ℝ n) (hs : s.right = 0) :
    ∃ st' s', solve c (fromFunctionAndJacobian F jac) .new s = .ok (st', s', .ok ()) ∧ st'.iter ≤ N ∧
      s'.inputs = (p st'.iter).1 ∧ ∀ i, |F s'.inputs i| ≤ c.params.tolerance := by
  have hstep : ∀ k, p (k + 1) = secondBroyden F (p k) := fun k => by
    rw [hp]; exact Function.iterate_succ_apply' _ _ _
  exact pair_run hc F jac (fun k => (p k).1) (fun k => (p k).2⁻¹) (fun k => (p k).2) N hN (by rw [hp]; rfl)
    (by rw [hp]; exact nonsing_inv_nonsing_inv _ (isUnit_iff_ne_zero.2 hdet0)) (second_pairs p hstep hdet hy) hlim hpos
    hend htol s hs

namespace Broyden

/-- Points within the radius in which the limits do not act. -/
theorem unlimited {c : Config ℝ n} {r : Vec ℝ n} {R : ℝ}
    (hfree : ∀ i v d, |v - r i| < R → |d| < R → (c.iters i).stepLimitation v d = v + d) {x y : Vec ℝ n}
    (hx : ‖x - r‖ < R / 2) (hy : ‖y - r‖ < R / 2) (i : Fin n) :
    (c.iters i).stepLimitation (x i) (y i - x i) = y i := by
  have h1 := (norm_le_pi_norm (x - r) i).trans_lt hx
  have h2 := (norm_le_pi_norm (y - r) i).trans_lt hy
  simp only [Pi.sub_apply, Real.norm_eq_abs, abs_lt] at h1 h2
  rw [hfree i _ _ (by rw [abs_lt]; constructor <;> linarith) (by rw [abs_lt]; constructor <;> linarith)]
  ring

theorem inside {x0 r y : Vec ℝ n} {R : ℝ} (hx0 : ‖x0 - r‖ < R / (2 * (n + 1))) (k : Nat)
    (hy : ‖y - r‖ ≤ (n + 1) * ‖x0 - r‖ / 2 ^ k) : ‖y - r‖ < R / 2 := by
  refine hy.trans_lt ((div_le_self (by positivity) (one_le_pow₀ one_le_two)).trans_lt ?_)
  rw [lt_div_iff₀ (by positivity)] at hx0
  linarith

/-- Near the root the residuals are at most proportional to the distance. -/
theorem residual_near {F : Vec ℝ n → Vec ℝ n} {jac : Vec ℝ n → Mat ℝ n} {r : Vec ℝ n} (h : LocalRoot F jac r) :
    ∃ R > 0, ∃ B > 0, ∀ x, ‖x - r‖ < R → ‖F x‖ ≤ B * ‖x - r‖ := by
  obtain ⟨R, hR, L, hF⟩ := nearAffine h.smooth h.root h.jacobian.self_of_nhds
  obtain ⟨α, hα, hA⟩ := exists_stretch (jac r)
  have hL := hF.nonneg
  refine ⟨R / (n + 1), by positivity, (α + L * R) * (n + 1), by positivity, fun x hx => ?_⟩
  have hl := len_le_norm (x - r)
  rw [lt_div_iff₀ (by positivity), mul_comm] at hx
  refine (residual_le hF hA (hl.trans hx.le)).trans ?_
  rw [mul_assoc]
  exact mul_le_mul_of_nonneg_left hl (by positivity)

/-- From the quotients to every geometric sequence. -/
theorem geometric {e : Nat → ℝ} (h : ∀ ε > 0, ∃ N, ∀ k, N ≤ k → e (k + 1) ≤ ε * e k) (he : ∀ k, 0 ≤ e k) {θ : ℝ}
    (hθ : 0 < θ) : ∃ C > 0, ∀ k, e k ≤ C * θ ^ k := by
  obtain ⟨N, hN⟩ := h θ hθ
  have hpos : ∀ k, 0 ≤ e k / θ ^ k := fun k => div_nonneg (he k) (by positivity)
  have hsum : 0 ≤ ∑ k ∈ Finset.range (N + 1), e k / θ ^ k := Finset.sum_nonneg fun k _ => hpos k
  refine ⟨∑ k ∈ Finset.range (N + 1), e k / θ ^ k + 1, by positivity, fun k => ?_⟩
  induction k with
  | zero =>
    rw [← div_le_iff₀ (by positivity)]
    have := Finset.single_le_sum (f := fun k => e k / θ ^ k) (fun k _ => hpos k)
      (Finset.mem_range.2 (Nat.succ_pos N))
    linarith
  | succ k ih =>
    by_cases hk : N ≤ k
    · refine (hN k hk).trans ((mul_le_mul_of_nonneg_left ih hθ.le).trans (le_of_eq ?_))
      rw [pow_succ]; ring
    · rw [← div_le_iff₀ (by positivity)]
      have := Finset.single_le_sum (f := fun k => e k / θ ^ k) (fun k _ => hpos k)
        (Finset.mem_range.2 (by omega : k + 1 < N + 1))
      linarith

/-- Iterations enough for a tolerance that is a power. -/
theorem reached {e f : Nat → ℝ} {B C θ : ℝ} (hB : 0 < B) (hC : 0 < C) (hθ : 0 < θ) (hθ1 : θ < 1)
    (he : ∀ k, e k ≤ C * θ ^ k) (hf : ∀ k, f k ≤ B * e k) : ∃ K, ∀ m, f (m + K) ≤ θ ^ m := by
  obtain ⟨K, hK⟩ := exists_pow_lt_of_lt_one (show 0 < 1 / (B * C) by positivity) hθ1
  rw [lt_div_iff₀ (by positivity)] at hK
  refine ⟨K, fun m => (hf _).trans ((mul_le_mul_of_nonneg_left (he _) hB.le).trans ?_)⟩
  have hm : 0 < θ ^ m := by positivity
  calc B * (C * θ ^ (m + K)) = θ ^ m * (θ ^ K * (B * C)) := by rw [pow_add]; ring
    _ ≤ θ ^ m * 1 := mul_le_mul_of_nonneg_left hK.le hm.le
    _ = θ ^ m := mul_one _

theorem enough (b : ℝ) {tol : ℝ} (htol : 0 < tol) : ∃ N : Nat, b / 2 ^ N ≤ tol := by
  obtain ⟨N, hN⟩ := exists_pow_lt_of_lt_one (show 0 < tol / (|b| + 1) by positivity) (show (1 / 2 : ℝ) < 1 by norm_num)
  rw [lt_div_iff₀ (by positivity)] at hN
  refine ⟨N, ?_⟩
  have h1 : b / 2 ^ N = (1 / 2) ^ N * b := by rw [one_div, inv_pow]; ring
  have h2 : (0 : ℝ) < (1 / 2) ^ N := by positivity
  rw [h1]
  nlinarith [le_abs_self b]

end Broyden
end Nrf
