import Verif.Proofs.DampedScalar

/-!
# One convex equation: Newton steps and half steps from both sides of the root
-/

namespace Nrf

namespace Tangents
variable {f f' : ℝ → ℝ} {r a B : ℝ}

/-- Slopes grow. -/
theorem slopes (h : ∀ x y, f x + f' x * (y - x) ≤ f y) {x y : ℝ} (hxy : x ≤ y) : f' x ≤ f' y := by
  rcases hxy.eq_or_lt with rfl | hxy
  · exact le_rfl
  have h1 := h x y
  have h2 := h y x
  by_contra hlt
  nlinarith [mul_pos (sub_pos.2 (not_le.1 hlt)) (sub_pos.2 hxy)]

/-- The numbers that bound the run: all points lie between `a` and `B`, where the slopes are between `m` and `M`, and `q` is
the factor of one step. -/
structure Bounds (f f' : ℝ → ℝ) (r a B m M q : ℝ) : Prop where
  root : f r = 0
  tangent : ∀ x y, f x + f' x * (y - x) ≤ f y
  pos : 0 < m
  low : f' a = m
  high : f' B ≤ M
  left : a ≤ r
  right : r ≤ B
  reach : r - f a / m ≤ B
  half : 1 / 2 ≤ q
  factor : 1 - m / M ≤ q

variable {m M q : ℝ} (h : Bounds f f' r a B m M q)
include h

theorem Bounds.slope_low {x : ℝ} (hx : a ≤ x) : m ≤ f' x := h.low ▸ slopes h.tangent hx

theorem Bounds.slope_high {x : ℝ} (hx : x ≤ B) : f' x ≤ M := (slopes h.tangent hx).trans h.high

theorem Bounds.le : m ≤ M := (h.slope_low (h.left.trans h.right)).trans h.high

/-- The whole step ends at or above the root. -/
theorem Bounds.above {x : ℝ} (hx : a ≤ x) : r ≤ x - f x / f' x := by
  have hp : 0 < f' x := h.pos.trans_le (h.slope_low hx)
  have h1 := h.tangent x r
  rw [h.root] at h1
  have h2 : f x / f' x ≤ x - r := by
    rw [div_le_iff₀ hp]
    linarith
  linarith

theorem Bounds.small_left {x : ℝ} (hr : x ≤ r) : -f x ≤ M * (r - x) := by
  have h1 := h.tangent r x
  rw [h.root] at h1
  have h2 := mul_le_mul_of_nonneg_right (h.slope_high h.right) (sub_nonneg.2 hr)
  linarith

theorem Bounds.small_right {x : ℝ} (hr : r ≤ x) (hx : x ≤ B) : f x ≤ M * (x - r) := by
  have h1 := h.tangent x r
  rw [h.root] at h1
  have h2 := mul_le_mul_of_nonneg_right (h.slope_high hx) (sub_nonneg.2 hr)
  linarith

theorem Bounds.sign_left {x : ℝ} (hx : a ≤ x) (hr : x ≤ r) : f x ≤ 0 := by
  have h1 := h.tangent x r
  rw [h.root] at h1
  have := mul_nonneg (h.pos.le.trans (h.slope_low hx)) (sub_nonneg.2 hr)
  linarith

theorem Bounds.sign_right {x : ℝ} (hr : r ≤ x) : m * (x - r) ≤ f x := by
  have h1 := h.tangent r x
  rw [h.root] at h1
  have h2 := mul_le_mul_of_nonneg_right (h.slope_low h.left) (sub_nonneg.2 hr)
  linarith

/-- How far a whole step from below overshoots. -/
theorem Bounds.overshoot {x : ℝ} (hx : a ≤ x) (hr : x ≤ r) :
    x - f x / f' x ≤ B ∧ x - f x / f' x - r ≤ M / m * (r - x) := by
  have hp := h.slope_low hx
  have h0 := h.sign_left hx hr
  have e : -(f x / f' x) ≤ -f x / m := by
    rw [← neg_div]
    exact div_le_div_of_nonneg_left (by linarith) h.pos hp
  constructor
  · have h1 : f a ≤ f x := by
      have := h.tangent a x
      rw [h.low] at this
      have := mul_nonneg h.pos.le (sub_nonneg.2 hx)
      linarith
    have h2 : -f x / m ≤ -f a / m := div_le_div_of_nonneg_right (by linarith) h.pos.le
    have h3 := h.reach
    have e3 : -f a / m = -(f a / m) := neg_div _ _
    linarith
  · have h1 : -f x / m ≤ M * (r - x) / m := div_le_div_of_nonneg_right (h.small_left hr) h.pos.le
    have e1 : M * (r - x) / m = M / m * (r - x) := by ring
    linarith

/-- A whole step from above. -/
theorem Bounds.down {x : ℝ} (hr : r ≤ x) (hx : x ≤ B) :
    x - f x / f' x ≤ x ∧ x - f x / f' x - r ≤ q * (x - r) := by
  have hp := h.slope_low (h.left.trans hr)
  have hp0 : 0 < f' x := h.pos.trans_le hp
  have hM : 0 < M := h.pos.trans_le h.le
  have h1 := h.sign_right hr
  have h0 : 0 ≤ m * (x - r) := mul_nonneg h.pos.le (sub_nonneg.2 hr)
  have h2 : m * (x - r) / M ≤ f x / f' x := by
    rw [div_le_div_iff₀ hM hp0]
    exact mul_le_mul h1 (h.slope_high hx) hp0.le (h0.trans h1)
  have h3 := mul_le_mul_of_nonneg_right h.factor (sub_nonneg.2 hr)
  have e : (1 - m / M) * (x - r) = x - r - m * (x - r) / M := by ring
  exact ⟨by linarith [div_nonneg (h0.trans h1) hp0.le], by linarith⟩

/-- The points after `k` steps. -/
def Reached (r a B D E q : ℝ) (k : ℕ) (x : ℝ) : Prop :=
  (a ≤ x ∧ x ≤ r ∧ r - x ≤ q ^ k * D) ∨ (r ≤ x ∧ x ≤ B ∧ x - r ≤ q ^ k * E)

/-- Whole steps, and half steps where the error grows. -/
theorem Bounds.step {D E : ℝ} (hD : 0 ≤ D) (hE : q * E = M / m * D) {k : ℕ} {x x' : ℝ} (hI : Reached r a B D E q k x)
    (hx' : x' = x - f x / f' x ∨ |f x| < |f (x - f x / f' x)| ∧ x' = x - 1 / 2 * (f x / f' x)) :
    Reached r a B D E q (k + 1) x' := by
  have hq0 : 0 < q := by linarith [h.half]
  have hk : 0 < q ^ k := pow_pos hq0 k
  have hMm : 0 ≤ M / m := div_nonneg (h.pos.le.trans h.le) h.pos.le
  have eE : q ^ (k + 1) * E = M / m * (q ^ k * D) := by
    rw [pow_succ, mul_assoc, hE]; ring
  rcases hI with ⟨h1, h2, h3⟩ | ⟨h1, h2, h3⟩
  · have hab := h.above h1
    obtain ⟨g1, g2⟩ := h.overshoot h1 h2
    have g3 : M / m * (r - x) ≤ q ^ (k + 1) * E := by
      rw [eE]; exact mul_le_mul_of_nonneg_left h3 hMm
    rcases hx' with rfl | ⟨-, rfl⟩
    · exact .inr ⟨hab, g1, g2.trans g3⟩
    · rcases le_total (x - 1 / 2 * (f x / f' x)) r with h4 | h4
      · refine .inl ⟨by linarith, h4, ?_⟩
        have : 1 / 2 * (q ^ k * D) ≤ q * (q ^ k * D) := mul_le_mul_of_nonneg_right h.half (mul_nonneg hk.le hD)
        rw [pow_succ]
        linarith
      · exact .inr ⟨h4, by linarith, by linarith⟩
  · have hab := h.above (h.left.trans h1)
    obtain ⟨g1, g2⟩ := h.down h1 h2
    rcases hx' with rfl | ⟨hlt, -⟩
    · refine .inr ⟨hab, g1.trans h2, g2.trans ?_⟩
      have := mul_le_mul_of_nonneg_left h3 hq0.le
      rw [pow_succ]
      linarith
    · exfalso
      have k1 : 0 ≤ f (x - f x / f' x) :=
        (mul_nonneg h.pos.le (sub_nonneg.2 hab)).trans (h.sign_right hab)
      have k2 : f (x - f x / f' x) ≤ f x := by
        have t := h.tangent (x - f x / f' x) x
        have := mul_nonneg (h.pos.le.trans (h.slope_low (h.left.trans hab))) (sub_nonneg.2 g1)
        linarith
      rw [abs_of_nonneg k1, abs_of_nonneg (k1.trans k2)] at hlt
      linarith

/-- A step with a slope that is at least that of the tangent. -/
theorem Bounds.steeper {D E : ℝ} (hD : 0 ≤ D) (hE : q * E = M / m * D) {k : ℕ} {x σ : ℝ} (hI : Reached r a B D E q k x)
    (hσ : f' x ≤ σ) (hσM : σ ≤ M) : Reached r a B D E q (k + 1) (x - f x / σ) := by
  have hq0 : 0 < q := by linarith [h.half]
  have hM : 0 < M := h.pos.trans_le h.le
  have hMm : 0 ≤ M / m := div_nonneg hM.le h.pos.le
  have eE : q ^ (k + 1) * E = M / m * (q ^ k * D) := by
    rw [pow_succ, mul_assoc, hE]; ring
  rcases hI with ⟨h1, h2, h3⟩ | ⟨h1, h2, h3⟩
  · have hx0 : 0 < f' x := h.pos.trans_le (h.slope_low h1)
    have hσ0 : 0 < σ := hx0.trans_le hσ
    have h0 := h.sign_left h1 h2
    obtain ⟨g1, g2⟩ := h.overshoot h1 h2
    have k1 : -(f x / σ) ≤ -(f x / f' x) := by
      rw [← neg_div, ← neg_div]
      exact div_le_div_of_nonneg_left (by linarith) hx0 hσ
    have k2 : m * (r - x) / M ≤ -(f x / σ) := by
      have t := h.tangent x r
      rw [h.root] at t
      have t' := mul_le_mul_of_nonneg_right (h.slope_low h1) (sub_nonneg.2 h2)
      rw [← neg_div, div_le_div_iff₀ hM hσ0]
      exact mul_le_mul (by linarith) hσM hσ0.le (by linarith)
    rcases le_total (x - f x / σ) r with h4 | h4
    · refine .inl ⟨?_, h4, ?_⟩
      · have := div_nonneg (mul_nonneg h.pos.le (sub_nonneg.2 h2)) hM.le
        linarith
      · have e : (1 - m / M) * (r - x) = r - x - m * (r - x) / M := by ring
        have j1 := mul_le_mul_of_nonneg_right h.factor (sub_nonneg.2 h2)
        have j2 := mul_le_mul_of_nonneg_left h3 hq0.le
        rw [pow_succ]
        linarith
    · have g3 : M / m * (r - x) ≤ q ^ (k + 1) * E := by
        rw [eE]; exact mul_le_mul_of_nonneg_left h3 hMm
      exact .inr ⟨h4, by linarith, by linarith⟩
  · have hx0 : 0 < f' x := h.pos.trans_le (h.slope_low (h.left.trans h1))
    have hσ0 : 0 < σ := hx0.trans_le hσ
    have hab := h.above (h.left.trans h1)
    have h0 := h.sign_right h1
    have h0' : 0 ≤ m * (x - r) := mul_nonneg h.pos.le (sub_nonneg.2 h1)
    have k1 : f x / σ ≤ f x / f' x := div_le_div_of_nonneg_left (h0'.trans h0) hx0 hσ
    have k2 : m * (x - r) / M ≤ f x / σ := by
      rw [div_le_div_iff₀ hM hσ0]
      exact mul_le_mul h0 hσM hσ0.le (h0'.trans h0)
    have k3 := div_nonneg h0' hM.le
    have e : (1 - m / M) * (x - r) = x - r - m * (x - r) / M := by ring
    have j1 := mul_le_mul_of_nonneg_right h.factor (sub_nonneg.2 h1)
    have j2 := mul_le_mul_of_nonneg_left h3 hq0.le
    refine .inr ⟨by linarith, by linarith, ?_⟩
    rw [pow_succ]
    linarith

/-- The slope of a forward difference. -/
theorem Bounds.forward {x p P : ℝ} (hp : 0 < p) (hpP : p ≤ P) (hM : f' (B + P) ≤ M) (hx : x ≤ B) :
    f' x ≤ (f (x + p) - f x) / p ∧ (f (x + p) - f x) / p ≤ M := by
  have h1 := h.tangent x (x + p)
  have h2 := h.tangent (x + p) x
  have h3 : f' (x + p) ≤ M := (slopes h.tangent (by linarith)).trans hM
  constructor
  · rw [le_div_iff₀ hp]
    linarith
  · rw [div_le_iff₀ hp]
    have := mul_le_mul_of_nonneg_right h3 hp.le
    linarith

theorem Bounds.residual {D E : ℝ} (hDE : D ≤ E) {k : ℕ} {x : ℝ} (hI : Reached r a B D E q k x) :
    |f x| ≤ M * E * q ^ k := by
  have hM : 0 ≤ M := h.pos.le.trans h.le
  have hk : 0 ≤ q ^ k := pow_nonneg (by linarith [h.half]) k
  rcases hI with ⟨h1, h2, h3⟩ | ⟨h1, h2, h3⟩
  · rw [abs_of_nonpos (h.sign_left h1 h2)]
    refine (h.small_left h2).trans ((mul_le_mul_of_nonneg_left (h3.trans (mul_le_mul_of_nonneg_left hDE hk)) hM).trans_eq ?_)
    ring
  · rw [abs_of_nonneg ((mul_nonneg h.pos.le (sub_nonneg.2 h1)).trans (h.sign_right h1))]
    refine (h.small_right h1 h2).trans ((mul_le_mul_of_nonneg_left h3 hM).trans_eq ?_)
    ring

omit h in
/-- Bounds for a guess, with slopes up to `P` beyond the points. -/
theorem bounds (htan : ∀ x y, f x + f' x * (y - x) ≤ f y) (hpos : ∀ x, 0 < f' x) (hr : f r = 0) (x0 : ℝ) {P : ℝ}
    (hP : 0 ≤ P) :
    ∃ a B m M q D E, Bounds f f' r a B m M q ∧ q < 1 ∧ f' (B + P) ≤ M ∧ 0 ≤ D ∧ D ≤ E ∧ q * E = M / m * D ∧
      Reached r a B D E q 0 x0 := by
  obtain ⟨a, ha⟩ : ∃ a, a = min x0 r := ⟨_, rfl⟩
  obtain ⟨B, hB⟩ : ∃ B, B = max x0 (r - f a / f' a) := ⟨_, rfl⟩
  obtain ⟨q, hq⟩ : ∃ q, q = max (1 / 2) (1 - f' a / f' (B + P)) := ⟨_, rfl⟩
  have har : a ≤ r := ha ▸ min_le_right _ _
  have hfa : f a ≤ 0 := by
    have h1 := htan a r
    rw [hr] at h1
    linarith [mul_nonneg (hpos a).le (sub_nonneg.2 har)]
  have hrB : r ≤ B := by
    have h1 : r - f a / f' a ≤ B := hB ▸ le_max_right _ _
    have h2 := div_nonpos_of_nonpos_of_nonneg hfa (hpos a).le
    linarith
  have hb : Bounds f f' r a B (f' a) (f' (B + P)) q :=
    ⟨hr, htan, hpos a, rfl, slopes htan (by linarith), har, hrB, hB ▸ le_max_right _ _, hq ▸ le_max_left _ _,
      hq ▸ le_max_right _ _⟩
  have hq0 : 0 < q := by linarith [hb.half]
  have hq1 : q < 1 := by
    have := div_pos (hpos a) (hpos (B + P))
    rw [hq]
    exact max_lt (by norm_num) (by linarith)
  have hD : 0 ≤ B - a := by linarith
  obtain ⟨E, hE⟩ : ∃ E, E = f' (B + P) / f' a * (B - a) / q := ⟨_, rfl⟩
  have hqE : q * E = f' (B + P) / f' a * (B - a) := by rw [hE, mul_div_cancel₀ _ hq0.ne']
  have hDE : B - a ≤ E := by
    have h1 : 1 ≤ f' (B + P) / f' a := by rw [one_le_div (hpos a)]; exact hb.le
    rw [hE, le_div_iff₀ hq0]
    nlinarith [mul_nonneg hD (sub_nonneg.2 h1), mul_nonneg hD (sub_nonneg.2 hq1.le)]
  refine ⟨a, B, _, _, q, B - a, E, hb, hq1, le_rfl, hD, hDE, hqE, ?_⟩
  have h1 : a ≤ x0 := ha ▸ min_le_left _ _
  have h2 : x0 ≤ B := hB ▸ le_max_left _ _
  rcases le_total x0 r with h | h
  · exact .inl ⟨h1, h, by rw [pow_zero]; linarith⟩
  · exact .inr ⟨h, h2, by rw [pow_zero]; linarith⟩

end Tangents
end Nrf
