import Verif.Proofs.AccurateRun
import Verif.Spec.NearRoot
import Verif.Props.C92
import Mathlib.Analysis.Calculus.Deriv.MeanValue

/-!
# One equation near a root in binary64: passes of Newton-Raphson and of stationary Newton
-/

set_option linter.unusedSectionVars false

namespace Nrf
open Spec Fl

section
variable {φ φ' : ℝ → ℝ} {ρ R σ μ M v : ℝ}

theorem Spec.NearRoot.mu_pos (h : NearRoot φ φ' ρ R σ μ M v) : 0 < μ := lt_of_lt_of_le (by positivity) h.slopeLow

theorem abs_le_between {a b c R : ℝ} (ha : |a| ≤ R) (hb : |b| ≤ R) (h1 : a ≤ c) (h2 : c ≤ b) : |c| ≤ R := by
  rw [abs_le] at *
  constructor <;> linarith

theorem mean_slope_lt (h : NearRoot φ φ' ρ R σ μ M v) {x y : ℝ} (hx : |x - ρ| ≤ R) (hy : |y - ρ| ≤ R) (hxy : x < y) :
    ∃ ξ, |ξ - ρ| ≤ R ∧ φ y - φ x = φ' ξ * (y - x) := by
  have hin : ∀ z, x ≤ z → z ≤ y → |z - ρ| ≤ R := fun z h1 h2 => abs_le_between hx hy (by linarith) (by linarith)
  obtain ⟨ξ, ⟨h1, h2⟩, he⟩ := exists_hasDerivAt_eq_slope φ φ' hxy
    (fun z hz => (h.deriv z (hin z hz.1 hz.2)).continuousAt.continuousWithinAt)
    (fun z hz => h.deriv z (hin z hz.1.le hz.2.le))
  refine ⟨ξ, hin ξ h1.le h2.le, ?_⟩
  rw [he]
  have : y - x ≠ 0 := (sub_pos.2 hxy).ne'
  field_simp

theorem mean_slope (h : NearRoot φ φ' ρ R σ μ M v) {x y : ℝ} (hx : |x - ρ| ≤ R) (hy : |y - ρ| ≤ R) :
    ∃ ξ, |ξ - ρ| ≤ R ∧ φ y - φ x = φ' ξ * (y - x) := by
  rcases lt_trichotomy x y with hl | rfl | hl
  · exact mean_slope_lt h hx hy hl
  · exact ⟨x, hx, by ring⟩
  · obtain ⟨ξ, h1, h2⟩ := mean_slope_lt h hy hx hl
    exact ⟨ξ, h1, by linarith⟩

theorem root_in (h : NearRoot φ φ' ρ R σ μ M v) {x : ℝ} (hx : |x - ρ| ≤ R) : |ρ - ρ| ≤ R := by
  rw [sub_self, abs_zero]
  exact (_root_.abs_nonneg _).trans hx

/-- The distance to the root against the residual. -/
theorem near_lower (h : NearRoot φ φ' ρ R σ μ M v) {x : ℝ} (hx : |x - ρ| ≤ R) : μ * |x - ρ| ≤ |φ x| := by
  obtain ⟨ξ, h1, h2⟩ := mean_slope h (root_in h hx) hx
  rw [h.root, sub_zero] at h2
  rw [h2, abs_mul]
  exact mul_le_mul_of_nonneg_right (h.steep ξ h1) (_root_.abs_nonneg _)

theorem near_upper (h : NearRoot φ φ' ρ R σ μ M v) {x : ℝ} (hx : |x - ρ| ≤ R) : |φ x| ≤ M * |x - ρ| := by
  obtain ⟨ξ, h1, h2⟩ := mean_slope h (root_in h hx) hx
  rw [h.root, sub_zero] at h2
  rw [h2, abs_mul]
  exact mul_le_mul_of_nonneg_right (h.bounded ξ h1) (_root_.abs_nonneg _)

/-- The error of the tangent. -/
theorem near_tangent (h : NearRoot φ φ' ρ R σ μ M v) (hv : 0 ≤ v) {x : ℝ} (hx : |x - ρ| ≤ R) :
    |φ x - φ' x * (x - ρ)| ≤ v * (|φ' x| * |x - ρ|) := by
  obtain ⟨ξ, h1, h2⟩ := mean_slope h (root_in h hx) hx
  rw [h.root, sub_zero] at h2
  rw [h2, ← sub_mul, abs_mul, ← _root_.mul_assoc]
  refine mul_le_mul_of_nonneg_right ((h.varies ξ x h1 hx).trans ?_) (_root_.abs_nonneg _)
  exact mul_le_mul_of_nonneg_left (h.steep x hx) hv

/-- A computed slope that is close to all slopes near the root. -/
def Spec.CloseSlope (φ' : ℝ → ℝ) (ρ R : ℝ) (d : F64) : Prop :=
  d.IsFinite ∧ ∀ y, |y - ρ| ≤ R → |(d.val : ℝ) - φ' y| ≤ 1 / 8 * |φ' y|

/-- The step from a double near the root. -/
theorem near_step (h : NearRoot φ φ' ρ R σ μ M v) (hv : 0 ≤ v) (hv1 : v ≤ 1 / 4) {func : F64 → F64} {ε : ℝ}
    (he : Evaluates func φ ρ R ε) (hε : 4 * (ε / μ) ≤ R) {z d : F64} (hz : z.IsFinite) (hzR : |(z.val : ℝ) - ρ| ≤ R)
    (hd : d.IsFinite) (hdz : |(d.val : ℝ) - φ' z.val| ≤ 1 / 8 * |φ' z.val|) :
    d.val ≠ 0 ∧ Fl.mul (Fl.neg (Fl.div Fl.one d)) (func z) ≠ .nan ∧ (Fl.newtonNext (func z) d z).IsFinite ∧
    |((Fl.newtonNext (func z) d z).val : ℝ) - ρ| ≤ (5 / 4 * (v + 1 / 8) + 4 * 2 ^ (-53 : ℤ)) * |(z.val : ℝ) - ρ| +
      2 * (ε / μ) + 4 * 2 ^ (-53 : ℤ) * σ := by
  obtain ⟨hr, hR⟩ := he z hz hzR
  have hμ := h.mu_pos
  have hs := h.steep _ hzR
  have hε0 : 0 ≤ ε := (_root_.abs_nonneg _).trans hR
  obtain ⟨h1, h2, h3, h4⟩ := accurate_pass hz hr hd hv hv1 (by norm_num) (le_refl (1 / 8 : ℝ)) (h.slopeLow.trans hs)
    ((h.bounded _ hzR).trans h.slopeHigh) h.scaleLow h.scaleHigh h.rootSize (hzR.trans h.radius) (near_tangent h hv hzR) hR (by
      have h5 : ε = ε / μ * μ := by field_simp
      have h6 : ε / μ ≤ σ := by
        have : 0 ≤ ε / μ := by positivity
        have := h.radius
        linarith
      rw [h5, _root_.mul_comm]
      exact mul_le_mul hs h6 (by positivity) (_root_.abs_nonneg _)) hdz
  refine ⟨h1, h2, h3, h4.trans ?_⟩
  have h5 : ε / |φ' z.val| ≤ ε / μ := div_le_div_of_nonneg_left hε0 hμ hs
  linarith

/-- A computed derivative is close to all slopes. -/
theorem close_of_slope (h : NearRoot φ φ' ρ R σ μ M (1 / 16)) {deriv : F64 → F64} (hd : EvaluatesSlope deriv φ' ρ R (1 / 32))
    {x : F64} (hx : x.IsFinite) (hxR : |(x.val : ℝ) - ρ| ≤ R) : CloseSlope φ' ρ R (deriv x) := by
  obtain ⟨h1, h2⟩ := hd x hx hxR
  refine ⟨h1, fun y hy => ?_⟩
  have h3 := h.varies _ _ hxR hy
  have h4 := h.steep y hy
  have h5 := abs_sub_abs_le_abs_sub (φ' x.val) (φ' y)
  have h6 := abs_sub_le ((deriv x).val : ℝ) (φ' x.val) (φ' y)
  have h7 := _root_.abs_nonneg (φ' y)
  linarith

/-- The perturbed point and the slope computed by finite differences. -/
theorem close_of_chord (h : NearRoot φ φ' ρ R σ μ M (1 / 16)) {func : F64 → F64} {ε : ℝ} (he : Evaluates func φ ρ R ε)
    {lo hi r : ℝ} (hlo : 256 * 2 ^ (-53 : ℤ) * σ ≤ lo) (hnoise : 64 * ε ≤ μ * lo) (hr : r + 2 * hi ≤ R) {x p : F64}
    (hx : x.IsFinite) (hxr : |(x.val : ℝ) - ρ| ≤ r) (hp : p.IsFinite) (hplo : lo ≤ (p.val : ℝ))
    (hphi : (p.val : ℝ) ≤ hi) :
    (Fl.add x p).IsFinite ∧ |((Fl.add x p).val : ℝ) - ρ| ≤ |(x.val : ℝ) - ρ| + 2 * hi ∧
      CloseSlope φ' ρ R (Fl.chord func x p) := by
  have hμ := h.mu_pos
  have hρ0 : 0 < σ := lt_of_lt_of_le (by positivity) h.scaleLow
  have hu : (0 : ℝ) < 2 ^ (-53 : ℤ) := by positivity
  have hu1 : (2 : ℝ) ^ (-53 : ℤ) ≤ 1 / 1000 := by norm_num
  have hp0 : 0 < (p.val : ℝ) := lt_of_lt_of_le (by positivity) (hlo.trans hplo)
  have hp0' : 0 < p.val := by exact_mod_cast hp0
  have hrR : r ≤ R := by linarith
  have hxR := hxr.trans hrR
  have hxa : |(x.val : ℝ)| ≤ 2 * σ := by
    have h1 := abs_add_le ((x.val : ℝ) - ρ) ρ
    rw [sub_add_cancel] at h1
    have := h.radius
    have := h.rootSize
    linarith
  have hpρ : (p.val : ℝ) ≤ σ := by
    have h1 := (_root_.abs_nonneg _).trans hxr
    have := h.radius
    linarith
  -- the perturbed point
  have hsum : |x.val + p.val| ≤ 2 ^ 1023 := by
    have h1 : ((|x.val + p.val| : ℚ) : ℝ) ≤ ((2 ^ 1023 : ℚ) : ℝ) := by
      push_cast
      have h2 := abs_add_le (x.val : ℝ) p.val
      rw [abs_of_pos hp0] at h2
      have h3 : (2 : ℝ) ^ 202 = 4 * 2 ^ 200 := by rw [pow_add 2 200 2]; ring
      have h4 : (2 : ℝ) ^ 202 ≤ 2 ^ 1023 := pow_le_pow_right₀ (by norm_num) (by norm_num)
      refine le_trans ?_ h4
      rw [h3]
      have := h.scaleHigh
      linarith
    exact (Rat.cast_le (K := ℝ)).1 h1
  obtain ⟨fz, vz⟩ := f64_add hx hp hsum
  have ez := Binary64.rnd_add_error (Fl.val_fixed x) (Fl.val_fixed p)
  change (Fl.add x p).val = Binary64.rnd (x.val + p.val) at vz
  rw [← vz] at ez
  set z := Fl.add x p with hz
  have hηq : 2 ^ (-53 : ℤ) * (|x.val| + p.val) ≤ 1 / 64 * p.val := by
    have h1 : ((2 ^ (-53 : ℤ) * (|x.val| + p.val) : ℚ) : ℝ) ≤ ((1 / 64 * p.val : ℚ) : ℝ) := by
      push_cast
      have h2 := mul_le_mul_of_nonneg_left hxa hu.le
      have h3 := mul_le_mul_of_nonneg_right hu1 hp0.le
      clear_value z
      generalize (2 : ℝ) ^ (-53 : ℤ) = u at *
      linarith
    exact (Rat.cast_le (K := ℝ)).1 h1
  have hdx : |((z.val : ℝ) - x.val) - p.val| ≤ 1 / 64 * p.val := by
    have h1 : |z.val - x.val - p.val| ≤ 1 / 64 * p.val := by
      have e : z.val - x.val - p.val = z.val - (x.val + p.val) := by ring
      rw [e]
      refine ez.trans (le_trans ?_ hηq)
      rw [_root_.mul_comm]
      refine mul_le_mul_of_nonneg_left ?_ (Binary64.two_zpow_pos _).le
      refine (abs_add_le _ _).trans ?_
      rw [abs_of_pos hp0']
    have h2 := (Rat.cast_le (K := ℝ)).2 h1
    push_cast at h2
    exact h2
  obtain ⟨hdx1, hdx2⟩ := abs_le.1 hdx
  set dx := (z.val : ℝ) - x.val with hdxd
  have hdx0 : 0 < dx := by linarith
  have hzx : |(z.val : ℝ) - ρ| ≤ |(x.val : ℝ) - ρ| + 2 * hi := by
    have h1 := abs_sub_le (z.val : ℝ) x.val ρ
    rw [← hdxd, abs_of_pos hdx0] at h1
    linarith
  have hzR : |(z.val : ℝ) - ρ| ≤ R := by linarith
  refine ⟨fz, hzx, ?_⟩
  -- the chord
  obtain ⟨fr0, hr0⟩ := he x hx hxR
  obtain ⟨fr1, hr1⟩ := he z fz hzR
  set r0 := func x with hr0d
  set r1 := func z with hr1d
  obtain ⟨ξ, hξ, hmean⟩ := mean_slope h hxR hzR
  have hε0 : 0 ≤ ε := (_root_.abs_nonneg _).trans hr0
  set C := ((r1.val : ℝ) - r0.val) / dx with hC
  have hCξ : |C - φ' ξ| ≤ 2 / 63 * μ := by
    have e : C - φ' ξ = (((r1.val : ℝ) - φ z.val) - (r0.val - φ x.val)) / dx := by
      have : φ' ξ = (φ z.val - φ x.val) / dx := by rw [hmean, ← hdxd]; field_simp
      rw [hC, this]
      ring
    rw [e, abs_div, abs_of_pos hdx0, div_le_iff₀ hdx0]
    refine (abs_sub _ _).trans ?_
    have h1 : μ * lo ≤ μ * p.val := mul_le_mul_of_nonneg_left hplo hμ.le
    have h2 : μ * (63 / 64 * p.val) ≤ μ * dx := mul_le_mul_of_nonneg_left (by linarith) hμ.le
    linarith
  have hCy : ∀ y, |y - ρ| ≤ R → |C - φ' y| ≤ 95 / 1000 * |φ' y| := by
    intro y hy
    have h1 := h.varies _ _ hξ hy
    have h2 := abs_sub_le C (φ' ξ) (φ' y)
    have h3 := h.steep y hy
    linarith
  have hCb : |C| ≤ 2 * 2 ^ 200 := by
    have h1 := hCy _ hxR
    have h2 := abs_sub_abs_le_abs_sub C (φ' x.val)
    have h3 := (h.bounded _ hxR).trans h.slopeHigh
    have h4 := _root_.abs_nonneg (φ' x.val)
    linarith
  have hdC : |(r1.val : ℝ) - r0.val| = |C| * dx := by
    rw [hC, abs_div, abs_of_pos hdx0]
    field_simp
  have hdb : |r1.val - r0.val| ≤ 2 ^ 402 := by
    have h1 : ((|r1.val - r0.val| : ℚ) : ℝ) ≤ ((2 ^ 402 : ℚ) : ℝ) := by
      push_cast
      rw [hdC]
      have h2 : dx ≤ 2 * 2 ^ 200 := by
        have := h.scaleHigh
        linarith
      have h3 := mul_le_mul hCb h2 hdx0.le (by positivity)
      refine h3.trans (le_of_eq ?_)
      have : (2 : ℝ) ^ 402 = 2 ^ 200 * 2 ^ 200 * 4 := by rw [← pow_add, pow_add 2 400 2]; norm_num
      rw [this]
      ring
    exact (Rat.cast_le (K := ℝ)).1 h1
  obtain ⟨fs, vs⟩ := f64_sub fr1 fr0 (hdb.trans (pow_le_pow_right₀ (by norm_num) (by norm_num)))
  have es := f64_sub_error r1 r0
  rw [← vs] at es
  have hsb : |((Fl.sub r1 r0).val : ℝ)| ≤ 2 * (|C| * dx) := by
    rw [← hdC]
    have h1 := (Rat.cast_le (K := ℝ)).2 es
    push_cast at h1
    have h2 := abs_sub_abs_le_abs_sub ((Fl.sub r1 r0).val : ℝ) ((r1.val : ℝ) - r0.val)
    have h3 := mul_le_mul_of_nonneg_left hu1 (_root_.abs_nonneg ((r1.val : ℝ) - r0.val))
    have h4 := _root_.abs_nonneg ((r1.val : ℝ) - r0.val)
    clear_value dx
    generalize |(r1.val : ℝ) - r0.val| * 2 ^ (-53 : ℤ) = w at *
    linarith
  have hq : |(Fl.sub r1 r0).val / p.val| ≤ 2 ^ 1023 := by
    have h1 : ((|(Fl.sub r1 r0).val / p.val| : ℚ) : ℝ) ≤ ((2 ^ 1023 : ℚ) : ℝ) := by
      push_cast
      rw [abs_div, abs_of_pos hp0, div_le_iff₀ hp0]
      refine hsb.trans ?_
      have h2 : |C| * dx ≤ |C| * (2 * p.val) := mul_le_mul_of_nonneg_left (by linarith) (_root_.abs_nonneg _)
      have h3 := mul_le_mul_of_nonneg_right hCb hp0.le
      have h4 : (2 : ℝ) ^ 203 = 8 * 2 ^ 200 := by rw [pow_add 2 200 3]; ring
      have h5 : (2 : ℝ) ^ 203 ≤ 2 ^ 1023 := pow_le_pow_right₀ (by norm_num) (by norm_num)
      refine le_trans ?_ (mul_le_mul_of_nonneg_right h5 hp0.le)
      rw [h4]
      linarith
    exact (Rat.cast_le (K := ℝ)).1 h1
  obtain ⟨fJ, -⟩ := f64_div fs hp hp0'.ne' hq
  have hquot := fl_quotient (x := x) (p := p) (r1 := r1) (r0 := r0) fz hp0' fJ (by
    have : (0 : ℝ) < ((z.val - x.val : ℚ) : ℝ) := by push_cast; exact hdx0
    exact_mod_cast this) hηq
  refine ⟨fJ, fun y hy => ?_⟩
  have h1 := (Rat.cast_le (K := ℝ)).2 hquot
  push_cast at h1
  change |((Fl.chord func x p).val : ℝ) - C| ≤ |C| * ((1 + 1 / 64) * (1 + 2 ^ (-53 : ℤ)) ^ 2 - 1) + 2 ^ (-1075 : ℤ) at h1
  have h2 : ((1 + 1 / 64) * (1 + (2 : ℝ) ^ (-53 : ℤ)) ^ 2 - 1) ≤ 16 / 1000 := by norm_num
  have h3 := mul_le_mul_of_nonneg_left h2 (_root_.abs_nonneg C)
  have h4 := hCy y hy
  have h5 := abs_sub_abs_le_abs_sub C (φ' y)
  have h6 := abs_sub_le ((Fl.chord func x p).val : ℝ) C (φ' y)
  have h7 : (2 : ℝ) ^ (-1075 : ℤ) ≤ 1 / 1000 * |φ' y| := by
    have h8 := h.slopeLow.trans (h.steep y hy)
    have h9 : (2 : ℝ) ^ (-1075 : ℤ) ≤ 1 / 1000 * 2 ^ (-200 : ℤ) := by
      have h10 : (2 : ℝ) ^ (-1075 : ℤ) ≤ 2 ^ (-210 : ℤ) := zpow_le_zpow_right₀ (by norm_num) (by norm_num)
      have h11 : (2 : ℝ) ^ (-210 : ℤ) = 2 ^ (-10 : ℤ) * 2 ^ (-200 : ℤ) := by
        rw [← zpow_add₀ (by norm_num)]; norm_num
      rw [h11] at h10
      refine h10.trans (mul_le_mul_of_nonneg_right (by norm_num) (by positivity))
    exact h9.trans (mul_le_mul_of_nonneg_left h8 (by norm_num))
  generalize (2 : ℝ) ^ (-1075 : ℤ) = t at h1 h7
  generalize ((1 + 1 / 64) * (1 + (2 : ℝ) ^ (-53 : ℤ)) ^ 2 - 1) = w at h1 h3
  have h8 := _root_.abs_nonneg (φ' y)
  clear * - h1 h3 h4 h5 h6 h7 h8
  linarith

end
end Nrf
