import Verif.Proofs.Euclid
import Verif.Proofs.Rate
import Verif.Spec.Broyden

/-!
# Broyden's methods near a simple root
-/

namespace Nrf
open Spec
open Matrix

variable {n : Nat}

/-- Near the root `r` the function is affine up to a factor proportional to the distance. -/
structure NearAffine (F : (Fin n → ℝ) → Fin n → ℝ) (A : Matrix (Fin n) (Fin n) ℝ) (r : Fin n → ℝ) (R L : ℝ) : Prop where
  root : F r = 0
  nonneg : 0 ≤ L
  close : ∀ x x' ρ, len (x - r) ≤ ρ → len (x' - r) ≤ ρ → ρ ≤ R →
    len (F x' - F x - A *ᵥ (x' - x)) ≤ L * ρ * len (x' - x)

section
variable {F : (Fin n → ℝ) → Fin n → ℝ} {A : Matrix (Fin n) (Fin n) ℝ} {r : Fin n → ℝ} {R L : ℝ}

theorem keeps_length {A J : Matrix (Fin n) (Fin n) ℝ} {β d : ℝ} (hA : ∀ v, len v ≤ β * len (A *ᵥ v)) (hβ : 0 < β)
    (hd : β * d ≤ 1 / 2) (h : Stretch (J - A) d) (v : Fin n → ℝ) : len v ≤ 2 * β * len (J *ᵥ v) := by
  have h1 : len (A *ᵥ v) ≤ len (J *ᵥ v) + d * len v := by
    have e : A *ᵥ v = J *ᵥ v - (J - A) *ᵥ v := by rw [sub_mulVec]; abel
    rw [e]
    exact (len_sub _ _).trans (add_le_add le_rfl (h v))
  have h2 := mul_le_mul_of_nonneg_left h1 hβ.le
  have h3 := mul_le_mul_of_nonneg_right hd (len_nonneg v)
  have h4 := hA v
  nlinarith

/-- One step of the first method. -/
theorem first_step (hF : NearAffine F A r R L) {β : ℝ} (hβ : 0 < β) (hA : ∀ v, len v ≤ β * len (A *ᵥ v)) {p : Iterate n}
    {d ρ : ℝ} (hd0 : 0 ≤ d) (hd : β * d ≤ 1 / 8) (hp : Stretch (p.2 - A) d) (hx : len (p.1 - r) ≤ ρ) (hρ : ρ ≤ R)
    (hL : β * (L * ρ) ≤ 1 / 16) :
    p.2.det ≠ 0 ∧ len ((firstBroyden F p).1 - r) ≤ len (p.1 - r) / 2 ∧
      Stretch ((firstBroyden F p).2 - A) (d + L * ρ) := by
  obtain ⟨x, J⟩ := p
  have hJ := keeps_length hA hβ (by linarith) hp
  have hdet := det_ne_of_len hJ
  have hρ0 : 0 ≤ ρ := (len_nonneg _).trans hx
  have hr : len (r - r) ≤ ρ := by rw [sub_self, len_zero]; exact hρ0
  have hclose := hF.close r x ρ hr hx hρ
  rw [hF.root, sub_zero] at hclose
  have hstep : len ((firstBroyden F (x, J)).1 - r) ≤ len (x - r) / 2 := by
    have e : J *ᵥ ((firstBroyden F (x, J)).1 - r) = (J - A) *ᵥ (x - r) - (F x - A *ᵥ (x - r)) := by
      change J *ᵥ (x - J⁻¹ *ᵥ F x - r) = _
      rw [show x - J⁻¹ *ᵥ F x - r = (x - r) - J⁻¹ *ᵥ F x by abel, mulVec_sub, inv_mulVec hdet, sub_mulVec]
      abel
    have h1 := hJ ((firstBroyden F (x, J)).1 - r)
    rw [e] at h1
    have h2 := (len_sub ((J - A) *ᵥ (x - r)) (F x - A *ᵥ (x - r))).trans (add_le_add (hp _) hclose)
    have h3 := mul_le_mul_of_nonneg_left h2 hβ.le
    have h4 := mul_le_mul_of_nonneg_right (add_le_add hd hL) (len_nonneg (x - r))
    nlinarith [len_nonneg (x - r)]
  refine ⟨hdet, hstep, stretch_update hp hd0 ?_ (mul_nonneg hF.nonneg hρ0)⟩
  refine hF.close x _ ρ hx (hstep.trans ?_) hρ
  have := len_nonneg (x - r)
  change len (x - r) ≤ ρ at hx
  linarith

/-- The matrices of the first method stay near the Jacobian, and the points approach the root. -/
theorem first_near (hF : NearAffine F A r R L) {β : ℝ} (hβ : 0 < β) (hA : ∀ v, len v ≤ β * len (A *ᵥ v))
    {p : Iterate n} {ρ : ℝ} (hp : Stretch (p.2 - A) (1 / (16 * β))) (hx : len (p.1 - r) ≤ ρ) (hρ : ρ ≤ R)
    (hL : β * (L * ρ) ≤ 1 / 32) (k : Nat) :
    Stretch (((firstBroyden F)^[k] p).2 - A) ((2 - 1 / 2 ^ k) / (16 * β)) ∧
      len (((firstBroyden F)^[k] p).1 - r) ≤ len (p.1 - r) / 2 ^ k := by
  have hρ0 : 0 ≤ ρ := (len_nonneg _).trans hx
  induction k with
  | zero => exact ⟨hp.mono (by norm_num), by simp⟩
  | succ k ih =>
    obtain ⟨h1, h2⟩ := ih
    rw [Function.iterate_succ_apply']
    have hk : (0 : ℝ) < 1 / 2 ^ k := by positivity
    have hk1 : (1 : ℝ) / 2 ^ k ≤ 1 := by
      rw [div_le_one (by positivity)]; exact one_le_pow₀ one_le_two
    have h2' : len (((firstBroyden F)^[k] p).1 - r) ≤ ρ * (1 / 2 ^ k) := by
      refine h2.trans ?_
      rw [div_eq_mul_one_div]
      exact mul_le_mul_of_nonneg_right hx hk.le
    obtain ⟨-, g2, g3⟩ := first_step hF hβ hA (ρ := ρ * (1 / 2 ^ k)) (div_nonneg (by linarith) (by positivity))
      (by
        rw [mul_div_assoc', div_le_iff₀ (by positivity)]
        nlinarith)
      h1 h2' ((mul_le_of_le_one_right hρ0 hk1).trans hρ)
      (by
        have h0 := mul_nonneg hβ.le (mul_nonneg hF.nonneg hρ0)
        calc β * (L * (ρ * (1 / 2 ^ k))) = β * (L * ρ) * (1 / 2 ^ k) := by ring
          _ ≤ β * (L * ρ) := mul_le_of_le_one_right h0 hk1
          _ ≤ 1 / 16 := by linarith)
    constructor
    · refine g3.mono ?_
      have e : (2 - 1 / 2 ^ (k + 1)) / (16 * β) = (2 - 1 / 2 ^ k) / (16 * β) + 1 / 32 * (1 / 2 ^ k) / β := by
        rw [pow_succ]; field_simp; ring
      rw [e]
      refine add_le_add le_rfl ?_
      rw [le_div_iff₀ hβ]
      calc L * (ρ * (1 / 2 ^ k)) * β = β * (L * ρ) * (1 / 2 ^ k) := by ring
        _ ≤ _ := mul_le_mul_of_nonneg_right hL hk.le
    · refine g2.trans ?_
      rw [pow_succ, ← div_div]
      exact div_le_div_of_nonneg_right h2 (by norm_num)

/-- The first method from a nearby point with a nearby matrix. -/
theorem first_converges (hF : NearAffine F A r R L) {β : ℝ} (hβ : 0 < β) (hA : ∀ v, len v ≤ β * len (A *ᵥ v))
    {p : Iterate n} {ρ : ℝ} (hp : Stretch (p.2 - A) (1 / (16 * β))) (hx : len (p.1 - r) ≤ ρ) (hρ : ρ ≤ R)
    (hL : β * (L * ρ) ≤ 1 / 32) (k : Nat) :
    ((firstBroyden F)^[k] p).2.det ≠ 0 ∧ len (((firstBroyden F)^[k] p).1 - r) ≤ len (p.1 - r) / 2 ^ k := by
  have hlen := len_nonneg (p.1 - r)
  have h := first_near hF hβ hA hp hx hρ hL k
  refine ⟨?_, h.2⟩
  have h2 : (0 : ℝ) < 1 / 2 ^ k := by positivity
  refine (first_step hF hβ hA (d := 1 / (8 * β)) (ρ := ρ) (by positivity) (by field_simp; norm_num) (h.1.mono ?_)
    (h.2.trans ((div_le_self hlen (one_le_pow₀ one_le_two)).trans hx)) hρ (by linarith)).1
  rw [div_le_div_iff₀ (by positivity) (by positivity)]
  nlinarith

/-- One step of the second method. -/
theorem second_step (hF : NearAffine F A r R L) (hAd : A.det ≠ 0) {α β : ℝ} (hα : 0 < α) (hβ : 0 < β) (hA : Stretch A α)
    (hB : Stretch A⁻¹ β) {p : Iterate n} {d ρ : ℝ} (hd0 : 0 ≤ d) (hd : (α + 1) * d ≤ 1 / 4)
    (hp : Stretch (p.2 - A⁻¹) d) (hx : len (p.1 - r) ≤ ρ) (hρ : ρ ≤ R) (hL1 : L * ρ ≤ 1) (hL : β * (L * ρ) ≤ 1 / 4) :
    p.2.det ≠ 0 ∧ len ((secondBroyden F p).1 - r) ≤ len (p.1 - r) / 2 ∧
      len ((secondBroyden F p).1 - p.1) ≤ 2 * β * len (F (secondBroyden F p).1 - F p.1) ∧
      Stretch ((secondBroyden F p).2 - A⁻¹) (d + 2 * β * (β * (L * ρ))) := by
  obtain ⟨x, H⟩ := p
  have hdet : H.det ≠ 0 := by
    refine det_ne_of_len (keeps_length (A := A⁻¹) (β := α) (d := d) (fun v => ?_) hα ?_ hp)
    · have := hA (A⁻¹ *ᵥ v)
      rwa [inv_mulVec hAd] at this
    · nlinarith
  have hρ0 : 0 ≤ ρ := (len_nonneg _).trans hx
  have hLρ : 0 ≤ L * ρ := mul_nonneg hF.nonneg hρ0
  have hr : len (r - r) ≤ ρ := by rw [sub_self, len_zero]; exact hρ0
  have hclose := hF.close r x ρ hr hx hρ
  rw [hF.root, sub_zero] at hclose
  have he := len_nonneg (x - r)
  have hstep : len ((secondBroyden F (x, H)).1 - r) ≤ len (x - r) / 2 := by
    have e : (secondBroyden F (x, H)).1 - r = -(A⁻¹ *ᵥ (F x - A *ᵥ (x - r))) - (H - A⁻¹) *ᵥ F x := by
      change x - H *ᵥ F x - r = _
      rw [mulVec_sub, mulVec_inv hAd, sub_mulVec]
      abel
    have hFx : len (F x) ≤ (α + 1) * len (x - r) := by
      have e : F x = A *ᵥ (x - r) + (F x - A *ᵥ (x - r)) := by abel
      rw [e]
      refine (len_add _ _).trans ((add_le_add (hA _) hclose).trans ?_)
      nlinarith
    rw [e]
    refine (len_sub _ _).trans ?_
    rw [len_neg]
    have h1 := (hB (F x - A *ᵥ (x - r))).trans (mul_le_mul_of_nonneg_left hclose hβ.le)
    have h2 := (hp (F x)).trans (mul_le_mul_of_nonneg_left hFx hd0)
    have h3 := mul_le_mul_of_nonneg_right hL he
    have h4 := mul_le_mul_of_nonneg_right hd he
    nlinarith
  have hx' : len ((secondBroyden F (x, H)).1 - r) ≤ ρ := hstep.trans (by
    change len (x - r) ≤ ρ at hx
    linarith)
  have hy := hF.close x (secondBroyden F (x, H)).1 ρ hx hx' hρ
  generalize hs : (secondBroyden F (x, H)).1 - x = s at hy
  generalize hyy : F (secondBroyden F (x, H)).1 - F x = y at hy
  have hsy : len s ≤ 2 * β * len y := by
    have h1 : len s ≤ β * len (A *ᵥ s) := by
      have := hB (A *ᵥ s)
      rwa [mulVec_inv hAd] at this
    have h2 : len (A *ᵥ s) ≤ len y + L * ρ * len s := by
      have e : A *ᵥ s = y - (y - A *ᵥ s) := by abel
      rw [e]
      exact (len_sub _ _).trans (add_le_add le_rfl hy)
    have h3 := mul_le_mul_of_nonneg_left h2 hβ.le
    have h4 := mul_le_mul_of_nonneg_right hL (len_nonneg s)
    nlinarith [len_nonneg s]
  refine ⟨hdet, hstep, hsy, ?_⟩
  have e : (secondBroyden F (x, H)).2 = H + (y ⬝ᵥ y)⁻¹ • vecMulVec (s - H *ᵥ y) y := by
    rw [← hs, ← hyy]; rfl
  rw [e]
  refine stretch_update hp hd0 ?_ (by positivity)
  have e2 : s - A⁻¹ *ᵥ y = -(A⁻¹ *ᵥ (y - A *ᵥ s)) := by
    rw [mulVec_sub, mulVec_inv hAd]; abel
  rw [e2, len_neg]
  have h1 := (hB (y - A *ᵥ s)).trans (mul_le_mul_of_nonneg_left hy hβ.le)
  have h2 := mul_le_mul_of_nonneg_left hsy (mul_nonneg hβ.le hLρ)
  nlinarith

/-- The matrices of the second method stay near the inverse, and the points approach the root. -/
theorem second_near (hF : NearAffine F A r R L) (hAd : A.det ≠ 0) {α β : ℝ} (hα : 0 < α) (hβ : 0 < β)
    (hA : Stretch A α) (hB : Stretch A⁻¹ β) {p : Iterate n} {ρ : ℝ} (hp : Stretch (p.2 - A⁻¹) (1 / (8 * (α + 1))))
    (hx : len (p.1 - r) ≤ ρ) (hρ : ρ ≤ R) (hL1 : L * ρ ≤ 1) (hL : β * (L * ρ) ≤ 1 / 4)
    (hL2 : 2 * β * (β * (L * ρ)) ≤ 1 / (16 * (α + 1))) (k : Nat) :
    Stretch (((secondBroyden F)^[k] p).2 - A⁻¹) ((2 - 1 / 2 ^ k) / (8 * (α + 1))) ∧
      len (((secondBroyden F)^[k] p).1 - r) ≤ len (p.1 - r) / 2 ^ k := by
  have hρ0 : 0 ≤ ρ := (len_nonneg _).trans hx
  have ha : 0 < α + 1 := by linarith
  induction k with
  | zero => exact ⟨hp.mono (by norm_num), by simp⟩
  | succ k ih =>
    obtain ⟨h1, h2⟩ := ih
    rw [Function.iterate_succ_apply']
    have hk : (0 : ℝ) < 1 / 2 ^ k := by positivity
    have hk1 : (1 : ℝ) / 2 ^ k ≤ 1 := by
      rw [div_le_one (by positivity)]; exact one_le_pow₀ one_le_two
    have h2' : len (((secondBroyden F)^[k] p).1 - r) ≤ ρ * (1 / 2 ^ k) := by
      refine h2.trans ?_
      rw [div_eq_mul_one_div]
      exact mul_le_mul_of_nonneg_right hx hk.le
    have h0 := mul_nonneg hF.nonneg hρ0
    obtain ⟨-, g2, -, g3⟩ := second_step hF hAd hα hβ hA hB (ρ := ρ * (1 / 2 ^ k))
      (div_nonneg (by linarith) (by positivity))
      (by
        rw [mul_div_assoc', div_le_iff₀ (by positivity)]
        nlinarith)
      h1 h2' ((mul_le_of_le_one_right hρ0 hk1).trans hρ)
      (by rw [← mul_assoc]; exact (mul_le_of_le_one_right h0 hk1).trans hL1)
      (by
        calc β * (L * (ρ * (1 / 2 ^ k))) = β * (L * ρ) * (1 / 2 ^ k) := by ring
          _ ≤ β * (L * ρ) := mul_le_of_le_one_right (mul_nonneg hβ.le h0) hk1
          _ ≤ 1 / 4 := hL)
    constructor
    · refine g3.mono ?_
      have e : (2 - 1 / 2 ^ (k + 1)) / (8 * (α + 1)) =
          (2 - 1 / 2 ^ k) / (8 * (α + 1)) + 1 / (16 * (α + 1)) * (1 / 2 ^ k) := by
        rw [pow_succ]; field_simp; ring
      rw [e]
      refine add_le_add le_rfl ?_
      calc 2 * β * (β * (L * (ρ * (1 / 2 ^ k)))) = 2 * β * (β * (L * ρ)) * (1 / 2 ^ k) := by ring
        _ ≤ _ := mul_le_mul_of_nonneg_right hL2 hk.le
    · refine g2.trans ?_
      rw [pow_succ, ← div_div]
      exact div_le_div_of_nonneg_right h2 (by norm_num)

/-- The second method from a nearby point with a nearby matrix. -/
theorem second_converges (hF : NearAffine F A r R L) (hAd : A.det ≠ 0) {α β : ℝ} (hα : 0 < α) (hβ : 0 < β)
    (hA : Stretch A α) (hB : Stretch A⁻¹ β) {p : Iterate n} {ρ : ℝ} (hp : Stretch (p.2 - A⁻¹) (1 / (8 * (α + 1))))
    (hx : len (p.1 - r) ≤ ρ) (hρ : ρ ≤ R) (hL1 : L * ρ ≤ 1) (hL : β * (L * ρ) ≤ 1 / 4)
    (hL2 : 2 * β * (β * (L * ρ)) ≤ 1 / (16 * (α + 1))) (k : Nat) :
    ((secondBroyden F)^[k] p).2.det ≠ 0 ∧ len (((secondBroyden F)^[k] p).1 - r) ≤ len (p.1 - r) / 2 ^ k ∧
    len (((secondBroyden F)^[k + 1] p).1 - ((secondBroyden F)^[k] p).1) ≤
      2 * β * len (F ((secondBroyden F)^[k + 1] p).1 - F ((secondBroyden F)^[k] p).1) := by
  have hlen := len_nonneg (p.1 - r)
  have ha : 0 < α + 1 := by linarith
  have h := second_near hF hAd hα hβ hA hB hp hx hρ hL1 hL hL2 k
  have h2 : (0 : ℝ) < 1 / 2 ^ k := by positivity
  obtain ⟨g1, -, g3, -⟩ := second_step hF hAd hα hβ hA hB (d := 1 / (4 * (α + 1))) (ρ := ρ) (by positivity)
    (by field_simp; norm_num) (h.1.mono (by
      rw [div_le_div_iff₀ (by positivity) (by positivity)]
      nlinarith))
    (h.2.trans ((div_le_self hlen (one_le_pow₀ one_le_two)).trans hx)) hρ hL1 hL
  rw [Function.iterate_succ_apply']
  exact ⟨g1, h.2, g3⟩

/-- Twice differentiable functions are nearly affine. -/
theorem nearAffine (hF : ContDiffAt ℝ 2 F r) (h0 : F r = 0) (hA : HasFDerivAt F (asMap A) r) :
    ∃ R > 0, ∃ L, NearAffine F A r R L := by
  have h1 : ContDiffAt ℝ 1 (fderiv ℝ F) r := hF.fderiv_right (by norm_num)
  obtain ⟨K, t, ht, hlip⟩ := h1.exists_lipschitzOnWith
  have hdiff : ∀ᶠ z in nhds r, DifferentiableAt ℝ F z :=
    (hF.eventually (by simp)).mono fun z hz => hz.differentiableAt (by simp)
  obtain ⟨δ, hδ, hball⟩ := Metric.eventually_nhds_iff.1 (hdiff.and ht)
  refine ⟨δ / 2, half_pos hδ, (n + 1) * K, h0, by positivity, fun x x' ρ hx hx' hρ => ?_⟩
  have hx : ‖x - r‖ ≤ ρ := (norm_le_len _).trans hx
  have hx' : ‖x' - r‖ ≤ ρ := (norm_le_len _).trans hx'
  have hρ0 : 0 ≤ ρ := (norm_nonneg _).trans hx
  have hmean : ‖F x' - F x - asMap A (x' - x)‖ ≤ K * ρ * ‖x' - x‖ := by
    refine (convex_closedBall r ρ).norm_image_sub_le_of_norm_hasFDerivWithin_le'
      (f' := fderiv ℝ F) (fun z hz => ?_) (fun z hz => ?_) ?_ ?_
    · exact (hball ((Metric.mem_closedBall.1 hz).trans_lt (by linarith))).1.hasFDerivAt.hasFDerivWithinAt
    · have hz' : dist z r ≤ ρ := Metric.mem_closedBall.1 hz
      rw [← hA.fderiv, ← dist_eq_norm]
      refine (hlip.dist_le_mul z (hball (hz'.trans_lt (by linarith))).2 r (hball (by rw [dist_self]; exact hδ)).2).trans ?_
      exact mul_le_mul_of_nonneg_left hz' K.2
    · rw [Metric.mem_closedBall, dist_eq_norm]; exact hx
    · rw [Metric.mem_closedBall, dist_eq_norm]; exact hx'
  refine (len_le_norm _).trans ((mul_le_mul_of_nonneg_left hmean (by positivity)).trans ?_)
  have h2 := norm_le_len (x' - x)
  calc (n + 1 : ℝ) * (K * ρ * ‖x' - x‖) = (n + 1) * K * ρ * ‖x' - x‖ := by ring
    _ ≤ (n + 1) * K * ρ * len (x' - x) := mul_le_mul_of_nonneg_left h2 (by positivity)

end
end Nrf
