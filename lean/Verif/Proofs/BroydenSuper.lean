import Verif.Proofs.BroydenLocal
import Mathlib.Analysis.SpecificLimits.Basic
import Mathlib.Topology.Algebra.InfiniteSum.Real

/-!
# The rate of Broyden's methods

The sum of the squares of the entries of the error of the matrix decreases by the square of the relative error along the
step, up to terms that can be summed (Dennis and Moré).
-/

namespace Nrf
open Spec
open Matrix Filter
open scoped Topology

variable {n : Nat}

/-- The sum of the squares of the entries. -/
def squares (E : Matrix (Fin n) (Fin n) ℝ) : ℝ := ∑ i, E i ⬝ᵥ E i

theorem squares_nonneg (E : Matrix (Fin n) (Fin n) ℝ) : 0 ≤ squares E :=
  Finset.sum_nonneg fun _ _ => Finset.sum_nonneg fun _ _ => mul_self_nonneg _

/-- An update with the pair `s`, `y` in the direction `s`. -/
theorem squares_update (J A : Matrix (Fin n) (Fin n) ℝ) (s y : Fin n → ℝ) :
    squares (J + (s ⬝ᵥ s)⁻¹ • vecMulVec (y - J *ᵥ s) s - A) =
      squares (J - A) - (len ((J - A) *ᵥ s) / len s) ^ 2 + (len (y - A *ᵥ s) / len s) ^ 2 := by
  have hrow : ∀ i, (J + (s ⬝ᵥ s)⁻¹ • vecMulVec (y - J *ᵥ s) s - A) i ⬝ᵥ
      (J + (s ⬝ᵥ s)⁻¹ • vecMulVec (y - J *ᵥ s) s - A) i = (J - A) i ⬝ᵥ (J - A) i -
        (s ⬝ᵥ s)⁻¹ * (((J - A) *ᵥ s) i * ((J - A) *ᵥ s) i) + (s ⬝ᵥ s)⁻¹ * ((y - A *ᵥ s) i * (y - A *ᵥ s) i) := by
    intro i
    have e : (J + (s ⬝ᵥ s)⁻¹ • vecMulVec (y - J *ᵥ s) s - A) i =
        (J - A) i + ((s ⬝ᵥ s)⁻¹ * ((y - A *ᵥ s) i - ((J - A) *ᵥ s) i)) • s := by
      funext j
      simp only [Matrix.sub_apply, Matrix.add_apply, Matrix.smul_apply, vecMulVec_apply, Pi.add_apply, Pi.smul_apply,
        Pi.sub_apply, smul_eq_mul, sub_mulVec]
      ring
    have hu : (J - A) i ⬝ᵥ s = ((J - A) *ᵥ s) i := rfl
    rw [e]
    simp only [add_dotProduct, dotProduct_add, smul_dotProduct, dotProduct_smul, smul_eq_mul]
    rw [dotProduct_comm s ((J - A) i), hu]
    by_cases hs : s ⬝ᵥ s = 0
    · rw [hs]; simp
    · field_simp
      ring
  rw [squares, Finset.sum_congr rfl fun i _ => hrow i, Finset.sum_add_distrib, Finset.sum_sub_distrib, ← Finset.mul_sum,
    ← Finset.mul_sum, div_pow, div_pow, ← dot_self, ← dot_self, ← dot_self, squares, div_eq_inv_mul, div_eq_inv_mul]
  rfl

/-- Numbers whose squares can be summed vanish. -/
theorem vanishing {a q : Nat → ℝ} {c : ℝ} (ha : ∀ k, 0 ≤ a k)
    (h : ∀ k, a (k + 1) ≤ a k - q k ^ 2 + (c / 2 ^ k) ^ 2) : Tendsto q atTop (𝓝 0) := by
  have hsum : ∀ N, ∑ k ∈ Finset.range N, q k ^ 2 ≤ a 0 + 2 * c ^ 2 := by
    have hinv : ∀ N, ∑ k ∈ Finset.range N, q k ^ 2 ≤ a 0 - a N + (2 - 2 / 2 ^ N) * c ^ 2 := by
      intro N
      induction N with
      | zero => simp
      | succ N ih =>
        rw [Finset.sum_range_succ]
        have h1 := h N
        have h2 : (c / 2 ^ N) ^ 2 ≤ 1 / 2 ^ N * c ^ 2 := by
          rw [div_pow, div_eq_mul_one_div, mul_comm]
          refine mul_le_mul_of_nonneg_right ?_ (sq_nonneg c)
          have h3 : (1 : ℝ) ≤ 2 ^ N := one_le_pow₀ one_le_two
          exact one_div_le_one_div_of_le (by positivity) (by nlinarith)
        have e : (2 - 2 / 2 ^ (N + 1) : ℝ) = (2 - 2 / 2 ^ N) + 1 / 2 ^ N := by
          rw [pow_succ]; field_simp; ring
        rw [e]
        linarith
    intro N
    have h1 := hinv N
    have h2 : (0 : ℝ) ≤ 2 / 2 ^ N * c ^ 2 := by positivity
    have h3 := ha N
    nlinarith
  have hs := summable_of_sum_range_le (fun k => sq_nonneg (q k)) hsum
  have h0 := hs.tendsto_atTop_zero
  have := h0.sqrt
  rw [Real.sqrt_zero] at this
  exact (tendsto_zero_iff_abs_tendsto_zero _).2 (this.congr fun k => Real.sqrt_sq_eq_abs _)

/-- A factor that vanishes. -/
theorem faster {e q : Nat → ℝ} {b C : ℝ} (he : ∀ k, 0 ≤ e k) (hq : Tendsto q atTop (𝓝 0))
    (h : ∀ k, e (k + 1) ≤ C * (b / 2 ^ k + q k) * e k) {ε : ℝ} (hε : 0 < ε) :
    ∃ N, ∀ k, N ≤ k → e (k + 1) ≤ ε * e k := by
  have h1 : Tendsto (fun k : Nat => b / 2 ^ k) atTop (𝓝 0) := by
    have := (tendsto_pow_atTop_nhds_zero_of_lt_one (r := (1 / 2 : ℝ)) (by norm_num) (by norm_num)).const_mul b
    rw [mul_zero] at this
    refine this.congr fun k => ?_
    rw [one_div, inv_pow, div_eq_mul_inv]
  have h2 : Tendsto (fun k => C * (b / 2 ^ k + q k)) atTop (𝓝 0) := by
    have := (h1.add hq).const_mul C
    rwa [add_zero, mul_zero] at this
  obtain ⟨N, hN⟩ := eventually_atTop.1 (h2.eventually (gt_mem_nhds hε))
  exact ⟨N, fun k hk => (h k).trans (mul_le_mul_of_nonneg_right (hN k hk).le (he k))⟩

variable {F : (Fin n → ℝ) → Fin n → ℝ} {A : Matrix (Fin n) (Fin n) ℝ} {r : Fin n → ℝ} {R L : ℝ}

/-- The distance is bounded by the residual. -/
theorem len_le_residual (hF : NearAffine F A r R L) {β : ℝ} (hβ : 0 < β) (hA : ∀ v, len v ≤ β * len (A *ᵥ v)) {ρ : ℝ}
    (hρ : ρ ≤ R) (hL : β * (L * ρ) ≤ 1 / 2) {x : Fin n → ℝ} (hx : len (x - r) ≤ ρ) : len (x - r) ≤ 2 * β * len (F x) := by
  have h1 := hF.close r x ρ (by rw [sub_self, len_zero]; exact (len_nonneg _).trans hx) hx hρ
  rw [hF.root, sub_zero] at h1
  have h2 : len (A *ᵥ (x - r)) ≤ len (F x) + L * ρ * len (x - r) := by
    have e : A *ᵥ (x - r) = F x - (F x - A *ᵥ (x - r)) := by abel
    rw [e]
    exact (len_sub _ _).trans (add_le_add le_rfl h1)
  have h3 := (hA (x - r)).trans (mul_le_mul_of_nonneg_left h2 hβ.le)
  have h4 := mul_le_mul_of_nonneg_right hL (len_nonneg (x - r))
  nlinarith

theorem div_len_le {a s b : ℝ} (hb : 0 ≤ b) (hs : 0 ≤ s) (h : a ≤ b * s) : a / s ≤ b := by
  rcases hs.eq_or_lt with rfl | hs
  · rw [div_zero]; exact hb
  · rwa [div_le_iff₀ hs]

theorem le_div_len {v s : Fin n → ℝ} {E : Matrix (Fin n) (Fin n) ℝ} (h : v = E *ᵥ s) : len v ≤ len v / len s * len s := by
  by_cases hs : len s = 0
  · rw [h, len_eq_zero.1 hs, mulVec_zero, len_zero]; simp
  · rw [div_mul_cancel₀ _ hs]

/-- One step of the first method. -/
theorem first_rate (hF : NearAffine F A r R L) {β : ℝ} (hβ : 0 < β) (hA : ∀ v, len v ≤ β * len (A *ᵥ v)) {p : Iterate n}
    {d ρ : ℝ} (hd0 : 0 ≤ d) (hd : β * d ≤ 1 / 8) (hp : Stretch (p.2 - A) d) (hx : len (p.1 - r) ≤ ρ) (hρ : ρ ≤ R)
    (hL : β * (L * ρ) ≤ 1 / 16) {s : Fin n → ℝ} (hs : s = (firstBroyden F p).1 - p.1) :
    len ((firstBroyden F p).1 - r) ≤ 4 * β * (L * ρ + len ((p.2 - A) *ᵥ s) / len s) * len (p.1 - r) ∧
    squares ((firstBroyden F p).2 - A) ≤ squares (p.2 - A) - (len ((p.2 - A) *ᵥ s) / len s) ^ 2 + (L * ρ) ^ 2 := by
  obtain ⟨hdet, hhalf, -⟩ := first_step hF hβ hA hd0 hd hp hx hρ hL
  have hρ0 : 0 ≤ ρ := (len_nonneg _).trans hx
  have hLρ : 0 ≤ L * ρ := mul_nonneg hF.nonneg hρ0
  have he := len_nonneg (p.1 - r)
  have hx' : len ((firstBroyden F p).1 - r) ≤ ρ := hhalf.trans (by linarith)
  have ht := hF.close p.1 _ ρ hx hx' hρ
  rw [← hs] at ht
  constructor
  · have hJs : p.2 *ᵥ s = -F p.1 := by
      rw [hs]
      change p.2 *ᵥ (p.1 - p.2⁻¹ *ᵥ F p.1 - p.1) = _
      rw [sub_sub_cancel_left, mulVec_neg, inv_mulVec hdet]
    have e : F (firstBroyden F p).1 = (F (firstBroyden F p).1 - F p.1 - A *ᵥ s) - (p.2 - A) *ᵥ s := by
      rw [sub_mulVec, hJs]; abel
    have h1 := len_le_residual hF hβ hA hρ (by linarith) hx'
    have h2 := len_sub (F (firstBroyden F p).1 - F p.1 - A *ᵥ s) ((p.2 - A) *ᵥ s)
    rw [← e] at h2
    have h3 := le_div_len (E := p.2 - A) (s := s) rfl
    have h4 : len s ≤ 2 * len (p.1 - r) := by
      have e : s = ((firstBroyden F p).1 - r) - (p.1 - r) := by rw [hs]; abel
      rw [e]
      have := len_sub ((firstBroyden F p).1 - r) (p.1 - r)
      linarith
    have hq : 0 ≤ len ((p.2 - A) *ᵥ s) / len s := div_nonneg (len_nonneg _) (len_nonneg _)
    generalize len ((p.2 - A) *ᵥ s) / len s = q at *
    calc len ((firstBroyden F p).1 - r) ≤ 2 * β * len (F (firstBroyden F p).1) := h1
      _ ≤ 2 * β * ((L * ρ + q) * len s) := by
        refine mul_le_mul_of_nonneg_left ?_ (by positivity)
        linarith
      _ ≤ 2 * β * ((L * ρ + q) * (2 * len (p.1 - r))) := by
        refine mul_le_mul_of_nonneg_left (mul_le_mul_of_nonneg_left h4 (by positivity)) (by positivity)
      _ = _ := by ring
  · have e : (firstBroyden F p).2 = p.2 + (s ⬝ᵥ s)⁻¹ • vecMulVec (F (firstBroyden F p).1 - F p.1 - p.2 *ᵥ s) s := by
      rw [hs]; rfl
    rw [e, squares_update]
    have h1 := div_len_le hLρ (len_nonneg s) ht
    have h2 : 0 ≤ len (F (firstBroyden F p).1 - F p.1 - A *ᵥ s) / len s := div_nonneg (len_nonneg _) (len_nonneg _)
    have h3 := mul_self_le_mul_self h2 h1
    nlinarith

/-- The first method is faster than every linear rate. -/
theorem first_super (hF : NearAffine F A r R L) {β : ℝ} (hβ : 0 < β) (hA : ∀ v, len v ≤ β * len (A *ᵥ v))
    {p : Iterate n} {ρ : ℝ} (hp : Stretch (p.2 - A) (1 / (16 * β))) (hx : len (p.1 - r) ≤ ρ) (hρ : ρ ≤ R)
    (hL : β * (L * ρ) ≤ 1 / 32) {ε : ℝ} (hε : 0 < ε) : ∃ N, ∀ k, N ≤ k →
      len (((firstBroyden F)^[k + 1] p).1 - r) ≤ ε * len (((firstBroyden F)^[k] p).1 - r) := by
  have hρ0 : 0 ≤ ρ := (len_nonneg _).trans hx
  have hL0 := hF.nonneg
  obtain ⟨P, hP⟩ : ∃ P : Nat → Iterate n, ∀ k, (firstBroyden F)^[k] p = P k := ⟨_, fun _ => rfl⟩
  have hstep : ∀ k, P (k + 1) = firstBroyden F (P k) := fun k => by
    rw [← hP, ← hP, Function.iterate_succ_apply']
  have hnear := first_near hF hβ hA hp hx hρ hL
  simp only [hP] at hnear ⊢
  obtain ⟨q, hq⟩ : ∃ q : Nat → ℝ, ∀ k, q k = len (((P k).2 - A) *ᵥ ((P (k + 1)).1 - (P k).1)) / len ((P (k + 1)).1 - (P k).1) :=
    ⟨_, fun _ => rfl⟩
  have hone : ∀ k, len ((P (k + 1)).1 - r) ≤ 4 * β * (L * ρ / 2 ^ k + q k) * len ((P k).1 - r) ∧
      squares ((P (k + 1)).2 - A) ≤ squares ((P k).2 - A) - q k ^ 2 + (L * ρ / 2 ^ k) ^ 2 := by
    intro k
    obtain ⟨h1, h2⟩ := hnear k
    have hk : (0 : ℝ) < 1 / 2 ^ k := by positivity
    have hk1 : (1 : ℝ) ≤ 2 ^ k := one_le_pow₀ one_le_two
    have hρk : ρ / 2 ^ k ≤ ρ := div_le_self hρ0 hk1
    have := first_rate hF hβ hA (p := P k) (d := 1 / (8 * β)) (ρ := ρ / 2 ^ k) (by positivity)
      (by field_simp; norm_num) (h1.mono (by
        rw [div_le_div_iff₀ (by positivity) (by positivity)]
        nlinarith))
      (h2.trans (div_le_div_of_nonneg_right hx (by positivity))) (hρk.trans hρ)
      ((mul_le_mul_of_nonneg_left (mul_le_mul_of_nonneg_left hρk hL0) hβ.le).trans (by linarith)) rfl
    rw [mul_div_assoc, hq, hstep]
    exact this
  have hv : Tendsto q atTop (𝓝 0) :=
    vanishing (a := fun k => squares ((P k).2 - A)) (fun k => squares_nonneg _) fun k => (hone k).2
  exact faster (e := fun k => len ((P k).1 - r)) (fun k => len_nonneg _) hv (fun k => (hone k).1) hε

/-- One step of the second method. -/
theorem second_rate (hF : NearAffine F A r R L) (hAd : A.det ≠ 0) {α β : ℝ} (hα : 0 < α) (hβ : 0 < β) (hA : Stretch A α)
    (hB : Stretch A⁻¹ β) {p : Iterate n} {d ρ : ℝ} (hd0 : 0 ≤ d) (hd : (α + 1) * d ≤ 1 / 4)
    (hp : Stretch (p.2 - A⁻¹) d) (hx : len (p.1 - r) ≤ ρ) (hρ : ρ ≤ R) (hL1 : L * ρ ≤ 1) (hL : β * (L * ρ) ≤ 1 / 4)
    {y : Fin n → ℝ} (hy : y = F (secondBroyden F p).1 - F p.1) :
    len ((secondBroyden F p).1 - r) ≤
      8 * α * β * (α + 1) * (2 * β * (β * (L * ρ)) + len ((p.2 - A⁻¹) *ᵥ y) / len y) * len (p.1 - r) ∧
    squares ((secondBroyden F p).2 - A⁻¹) ≤
      squares (p.2 - A⁻¹) - (len ((p.2 - A⁻¹) *ᵥ y) / len y) ^ 2 + (2 * β * (β * (L * ρ))) ^ 2 := by
  obtain ⟨hdet, hhalf, hsy, -⟩ := second_step hF hAd hα hβ hA hB hd0 hd hp hx hρ hL1 hL
  have hρ0 : 0 ≤ ρ := (len_nonneg _).trans hx
  have hLρ : 0 ≤ L * ρ := mul_nonneg hF.nonneg hρ0
  have he := len_nonneg (p.1 - r)
  have hx' : len ((secondBroyden F p).1 - r) ≤ ρ := hhalf.trans (by linarith)
  have hc := hF.close p.1 _ ρ hx hx' hρ
  obtain ⟨s, hs⟩ : ∃ s, s = (secondBroyden F p).1 - p.1 := ⟨_, rfl⟩
  rw [← hs, ← hy] at hc hsy
  have ht : len (s - A⁻¹ *ᵥ y) ≤ 2 * β * (β * (L * ρ)) * len y := by
    have e2 : s - A⁻¹ *ᵥ y = -(A⁻¹ *ᵥ (y - A *ᵥ s)) := by
      rw [mulVec_sub, mulVec_inv hAd]; abel
    rw [e2, len_neg]
    have h1 := (hB (y - A *ᵥ s)).trans (mul_le_mul_of_nonneg_left hc hβ.le)
    have h2 := mul_le_mul_of_nonneg_left hsy (mul_nonneg hβ.le hLρ)
    nlinarith
  have hb0 : 0 ≤ 2 * β * (β * (L * ρ)) := by positivity
  constructor
  · have hkeep : ∀ v, len v ≤ 2 * α * len (p.2 *ᵥ v) :=
      keeps_length (A := A⁻¹) (β := α) (d := d) (fun v => by
        have := hA (A⁻¹ *ᵥ v)
        rwa [inv_mulVec hAd] at this) hα (by nlinarith) hp
    have hkA : ∀ v, len v ≤ β * len (A *ᵥ v) := fun v => by
      have := hB (A *ᵥ v)
      rwa [mulVec_inv hAd] at this
    have hHs : p.2 *ᵥ F p.1 = -s := by
      rw [hs]
      change _ = -(p.1 - p.2 *ᵥ F p.1 - p.1)
      abel
    have e : p.2 *ᵥ F (secondBroyden F p).1 = (p.2 - A⁻¹) *ᵥ y - (s - A⁻¹ *ᵥ y) := by
      have e1 : F (secondBroyden F p).1 = y + F p.1 := by rw [hy]; abel
      rw [e1, mulVec_add, hHs, sub_mulVec]; abel
    have h1 := len_le_residual hF hβ hkA hρ (by linarith) hx'
    have h2 := len_sub ((p.2 - A⁻¹) *ᵥ y) (s - A⁻¹ *ᵥ y)
    rw [← e] at h2
    have h3 := le_div_len (E := p.2 - A⁻¹) (s := y) rfl
    have h4 : len s ≤ 2 * len (p.1 - r) := by
      have e : s = ((secondBroyden F p).1 - r) - (p.1 - r) := by rw [hs]; abel
      rw [e]
      have := len_sub ((secondBroyden F p).1 - r) (p.1 - r)
      linarith
    have h5 : len y ≤ (α + 1) * (2 * len (p.1 - r)) := by
      have e : y = A *ᵥ s + (y - A *ᵥ s) := by abel
      have h6 := len_add (A *ᵥ s) (y - A *ᵥ s)
      rw [← e] at h6
      have h7 := hA s
      have h8 := mul_le_mul_of_nonneg_right hL1 (len_nonneg s)
      have h9 := mul_le_mul_of_nonneg_left h4 (by linarith : 0 ≤ α + 1)
      linarith
    have h6 := hkeep (F (secondBroyden F p).1)
    have hq : 0 ≤ len ((p.2 - A⁻¹) *ᵥ y) / len y := div_nonneg (len_nonneg _) (len_nonneg _)
    generalize len ((p.2 - A⁻¹) *ᵥ y) / len y = q at *
    generalize 2 * β * (β * (L * ρ)) = b at *
    calc len ((secondBroyden F p).1 - r) ≤ 2 * β * len (F (secondBroyden F p).1) := h1
      _ ≤ 2 * β * (2 * α * ((b + q) * len y)) := by
        refine mul_le_mul_of_nonneg_left (h6.trans (mul_le_mul_of_nonneg_left ?_ (by positivity))) (by positivity)
        linarith
      _ ≤ 2 * β * (2 * α * ((b + q) * ((α + 1) * (2 * len (p.1 - r))))) := by
        refine mul_le_mul_of_nonneg_left (mul_le_mul_of_nonneg_left (mul_le_mul_of_nonneg_left h5 (by positivity))
          (by positivity)) (by positivity)
      _ = _ := by ring
  · have e : (secondBroyden F p).2 = p.2 + (y ⬝ᵥ y)⁻¹ • vecMulVec (s - p.2 *ᵥ y) y := by
      rw [hs, hy]; rfl
    rw [e, squares_update]
    have h1 := div_len_le hb0 (len_nonneg y) ht
    have h2 : 0 ≤ len (s - A⁻¹ *ᵥ y) / len y := div_nonneg (len_nonneg _) (len_nonneg _)
    have h3 := mul_self_le_mul_self h2 h1
    nlinarith

/-- The second method is faster than every linear rate. -/
theorem second_super (hF : NearAffine F A r R L) (hAd : A.det ≠ 0) {α β : ℝ} (hα : 0 < α) (hβ : 0 < β)
    (hA : Stretch A α) (hB : Stretch A⁻¹ β) {p : Iterate n} {ρ : ℝ} (hp : Stretch (p.2 - A⁻¹) (1 / (8 * (α + 1))))
    (hx : len (p.1 - r) ≤ ρ) (hρ : ρ ≤ R) (hL1 : L * ρ ≤ 1) (hL : β * (L * ρ) ≤ 1 / 4)
    (hL2 : 2 * β * (β * (L * ρ)) ≤ 1 / (16 * (α + 1))) {ε : ℝ} (hε : 0 < ε) : ∃ N, ∀ k, N ≤ k →
      len (((secondBroyden F)^[k + 1] p).1 - r) ≤ ε * len (((secondBroyden F)^[k] p).1 - r) := by
  have hρ0 : 0 ≤ ρ := (len_nonneg _).trans hx
  have hL0 := hF.nonneg
  obtain ⟨P, hP⟩ : ∃ P : Nat → Iterate n, ∀ k, (secondBroyden F)^[k] p = P k := ⟨_, fun _ => rfl⟩
  have hstep : ∀ k, P (k + 1) = secondBroyden F (P k) := fun k => by
    rw [← hP, ← hP, Function.iterate_succ_apply']
  have hnear := second_near hF hAd hα hβ hA hB hp hx hρ hL1 hL hL2
  simp only [hP] at hnear ⊢
  obtain ⟨q, hq⟩ : ∃ q : Nat → ℝ, ∀ k, q k = len (((P k).2 - A⁻¹) *ᵥ (F (P (k + 1)).1 - F (P k).1)) / len (F (P (k + 1)).1 - F (P k).1) :=
    ⟨_, fun _ => rfl⟩
  have hone : ∀ k, len ((P (k + 1)).1 - r) ≤ 8 * α * β * (α + 1) * (2 * β * (β * (L * ρ)) / 2 ^ k + q k) * len ((P k).1 - r) ∧
      squares ((P (k + 1)).2 - A⁻¹) ≤ squares ((P k).2 - A⁻¹) - q k ^ 2 + (2 * β * (β * (L * ρ)) / 2 ^ k) ^ 2 := by
    intro k
    obtain ⟨h1, h2⟩ := hnear k
    have hk : (0 : ℝ) < 1 / 2 ^ k := by positivity
    have hk1 : (1 : ℝ) ≤ 2 ^ k := one_le_pow₀ one_le_two
    have hρk : ρ / 2 ^ k ≤ ρ := div_le_self hρ0 hk1
    have := second_rate hF hAd hα hβ hA hB (p := P k) (d := 1 / (4 * (α + 1))) (ρ := ρ / 2 ^ k)
      (by positivity) (by field_simp; norm_num) (h1.mono (by
        rw [div_le_div_iff₀ (by positivity) (by positivity)]
        nlinarith))
      (h2.trans (div_le_div_of_nonneg_right hx (by positivity))) (hρk.trans hρ)
      ((mul_le_mul_of_nonneg_left hρk hL0).trans hL1)
      ((mul_le_mul_of_nonneg_left (mul_le_mul_of_nonneg_left hρk hL0) hβ.le).trans hL) rfl
    rw [show 2 * β * (β * (L * ρ)) / 2 ^ k = 2 * β * (β * (L * (ρ / 2 ^ k))) by ring, hq, hstep]
    exact this
  have hv : Tendsto q atTop (𝓝 0) :=
    vanishing (a := fun k => squares ((P k).2 - A⁻¹)) (fun k => squares_nonneg _) fun k => (hone k).2
  exact faster (e := fun k => len ((P k).1 - r)) (fun k => len_nonneg _) hv (fun k => (hone k).1) hε

end Nrf
