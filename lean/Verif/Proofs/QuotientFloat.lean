import Verif.Proofs.LuInverse
import Verif.Proofs.SystemRun

/-!
# The accuracy of finite differences in binary64
-/

set_option linter.unusedSectionVars false

namespace Nrf
open Fl Spec

theorem rv_sub {a b : F64} (ha : a.IsFinite) (hb : b.IsFinite) (h : |rv a - rv b| ≤ 2 ^ 1000) :
    (Fl.sub a b).IsFinite ∧ |rv (Fl.sub a b) - (rv a - rv b)| ≤ |rv a - rv b| * ur := by
  have h' : |a.val - b.val| ≤ 2 ^ 1023 := by
    refine le_trans ?_ (pow_le_pow_right₀ (by norm_num) (by norm_num : 1000 ≤ 1023))
    unfold rv at h
    refine (Rat.cast_le (K := ℝ)).1 ?_
    push_cast
    exact h
  obtain ⟨f, v⟩ := f64_sub ha hb h'
  refine ⟨f, ?_⟩
  have e := f64_sub_error a b
  rw [← v] at e
  have := (Rat.cast_le (K := ℝ)).2 e
  push_cast at this
  exact this

/-- A quotient, as numbers: the change `d` of the function over the step `s`, its computed value `D`, the perturbation `p`
and the quotient `Q`. -/
theorem quotient_arith {u τ a α s p d D Q κ E : ℝ} (hu : 0 < u) (hu1 : u ≤ 1 / 1000) (hτ : τ ≤ u * α) (ha : |a| ≤ α)
    (hp : 0 < p) (hE : 0 ≤ E) (hκ0 : 0 ≤ κ) (hs : |s - p| ≤ κ * p) (hd : |d - a * s| ≤ E * p) (hD : |D - d| ≤ |d| * u)
    (hQ : |Q - D / p| ≤ |D / p| * u + τ) : |Q - a| ≤ 1003 / 1000 * (E + κ * α) + 4 * u * α := by
  have hα : 0 ≤ α := (_root_.abs_nonneg _).trans ha
  have h1 : |d / p - a| ≤ E + κ * α := by
    have e : d / p - a = (d - a * s + a * (s - p)) / p := by field_simp; ring
    rw [e, abs_div, abs_of_pos hp, div_le_iff₀ hp]
    have h2 : |a * (s - p)| ≤ α * (κ * p) := by
      rw [abs_mul]
      exact mul_le_mul ha hs (_root_.abs_nonneg _) hα
    calc |d - a * s + a * (s - p)| ≤ |d - a * s| + |a * (s - p)| := abs_add_le _ _
      _ ≤ E * p + α * (κ * p) := add_le_add hd h2
      _ = _ := by ring
  have h2 : |D / p - d / p| ≤ |d / p| * u := by
    rw [← sub_div, abs_div, abs_div, abs_of_pos hp, div_mul_eq_mul_div]
    exact div_le_div_of_nonneg_right hD hp.le
  have h3 : |d / p| ≤ α + (E + κ * α) := by
    have := abs_sub_abs_le_abs_sub (d / p) a
    linarith
  have h4 : |D / p| ≤ |d / p| * (1 + u) := by
    have := abs_sub_abs_le_abs_sub (D / p) (d / p)
    linarith
  generalize d / p = x at *
  generalize D / p = y at *
  have hx0 := _root_.abs_nonneg x
  have hF0 : 0 ≤ E + κ * α := by positivity
  generalize E + κ * α = F at *
  have h5 : |y| * u ≤ |x| * u * (1 + u) := by
    calc |y| * u ≤ |x| * (1 + u) * u := mul_le_mul_of_nonneg_right h4 hu.le
      _ = _ := by ring
  have h6 : |x| * u ≤ (α + F) * u := mul_le_mul_of_nonneg_right h3 hu.le
  have h7 : |x| * u * (1 + u) ≤ 1001 / 1000 * (|x| * u) := by
    have : 0 ≤ |x| * u := by positivity
    nlinarith
  have h8 : F * u ≤ F * (1 / 1000) := mul_le_mul_of_nonneg_left hu1 hF0
  have e : Q - a = (Q - y) + (y - x) + (x - a) := by ring
  have h9 := (abs_add_le (Q - y + (y - x)) (x - a)).trans (add_le_add_left (abs_add_le (Q - y) (y - x)) _)
  rw [← e] at h9
  have : 0 ≤ α * u := by positivity
  nlinarith

section
variable {n : Nat} {Φ : (Fin n → ℝ) → Fin n → ℝ} {A B : Matrix (Fin n) (Fin n) ℝ} {ρ : Fin n → ℝ} {R σ L ω α β ε : ℝ}
variable {c : Config F64 n} {f : Vec F64 n → ResidualsValues F64 n}

/-- Moving one unknown. -/
theorem shifted_float {x : Vec F64 n} {j : Fin n} {p : F64} {K : ℝ} (hx : ∀ i, (x i).IsFinite) (hp : p.IsFinite)
    (hp0 : 0 < rv p) (hp1 : rv p ≤ 2 ^ 300) (hK0 : 0 ≤ K) (hK : K ≤ 2 ^ 45) (hxK : |rv (x j)| ≤ K * rv p) :
    (∀ i, (shifted x j p i).IsFinite) ∧ ∃ s, |s - rv p| ≤ ur * (K + 1) * rv p ∧
      reals (shifted x j p) - reals x = fun i => if i = j then s else 0 := by
  have h1 : |rv (x j) + rv p| ≤ (K + 1) * rv p := by
    have := abs_add_le (rv (x j)) (rv p)
    rw [abs_of_pos hp0] at this
    linarith
  have h2 : (K + 1) * rv p ≤ 2 ^ 1000 := by
    have h3 : (K + 1) * rv p ≤ (2 ^ 46) * 2 ^ 300 := by
      refine mul_le_mul ?_ hp1 hp0.le (by norm_num)
      have : (2 : ℝ) ^ 46 = 2 ^ 45 + 2 ^ 45 := by norm_num
      have : (1 : ℝ) ≤ 2 ^ 45 := by norm_num
      linarith
    refine h3.trans ?_
    rw [← pow_add]
    exact pow_le_pow_right₀ (by norm_num) (by norm_num)
  obtain ⟨h3, h4⟩ := rv_add (hx j) hp (h1.trans h2)
  refine ⟨fun i => ?_, rv (Fl.add (x j) p) - rv (x j), ?_, ?_⟩
  · unfold shifted
    split_ifs with h
    · rw [h]
      exact h3
    · exact hx i
  · have e : rv (Fl.add (x j) p) - rv (x j) - rv p = rv (Fl.add (x j) p) - (rv (x j) + rv p) := by ring
    rw [e]
    refine h4.trans ?_
    have := mul_le_mul_of_nonneg_right h1 ur_pos.le
    linarith
  · funext i
    change rv (shifted x j p i) - rv (x i) = _
    unfold shifted
    split_ifs with h
    · rw [h]
      rfl
    · exact sub_self _

theorem mulVec_single_if (j : Fin n) (s : ℝ) : (A.mulVec fun i => if i = j then s else 0) = fun i => A i j * s := by
  funext i
  simp [Matrix.mulVec, dotProduct]

theorem norm_single_if (j : Fin n) (s : ℝ) : ‖(fun i => if i = j then s else 0 : Fin n → ℝ)‖ = |s| := by
  apply le_antisymm
  · refine (pi_norm_le_iff_of_nonneg (_root_.abs_nonneg _)).2 fun i => ?_
    split_ifs
    · rfl
    · rw [norm_zero]
      exact _root_.abs_nonneg _
  · have := norm_le_pi_norm (fun i => if i = j then s else 0 : Fin n → ℝ) j
    simpa using this

/-- The bound of the errors is small against the entries. -/
theorem quotientError_small {lo K : ℝ} (hw : WellPosed A B α β) (hn : 0 < n) (hlo : 0 < lo) (hω : 0 ≤ ω) (hε : 0 ≤ ε) (hK : 0 ≤ K)
    (hq : β * quotientError n α ω ε lo K ≤ 1 / 16) :
    ur * (2 * K + 6) * α + 9 / 8 * ω + 3 * (ε / lo) ≤ 1 / 16 * α := by
  obtain ⟨hκ, hα, hβ⟩ := wellPosed_product hw hn
  have hN : (1 : ℝ) ≤ n := by exact_mod_cast hn
  have hu := ur_pos
  change β * (n * (ur * (2 * K + 6) * α + 9 / 8 * ω + 3 * (ε / lo))) ≤ 1 / 16 at hq
  have h0 : 0 ≤ ur * (2 * K + 6) * α + 9 / 8 * ω + 3 * (ε / lo) := by positivity
  generalize ur * (2 * K + 6) * α + 9 / 8 * ω + 3 * (ε / lo) = q at *
  have h1 : q ≤ n * q := le_mul_of_one_le_left h0 hN
  have h2 : n * q ≤ α * β * (n * q) := le_mul_of_one_le_left (h0.trans h1) hκ
  have h3 := mul_le_mul_of_nonneg_left hq hα
  linarith

/-- One entry of the finite differences. -/
theorem quotient_entry {lo hi K r : ℝ} (hw : WellPosed A B α β) (h : NearSystem Φ A ρ R σ L ω) (hl : NearLinear Φ A ρ R ω)
    (he : EvaluatesSystem f Φ ρ R ε) (hlo : 0 < lo) (hK : K ≤ 2 ^ 45) (hr : r + 9 / 8 * hi ≤ R)
    (hq : β * quotientError n α ω ε lo K ≤ 1 / 16) {x p : Vec F64 n} (hx : Near ρ r x) {j : Fin n} (hpf : (p j).IsFinite)
    (hp1 : lo ≤ (p j).val) (hp2 : (p j).val ≤ hi) (hxK : |((x j).val : ℝ)| ≤ K * (p j).val) :
    (∀ i, (shifted x j (p j) i).IsFinite) ∧ ‖reals (shifted x j (p j)) - reals x‖ ≤ 9 / 8 * hi ∧ ∀ i, (quotients f p x i j).IsFinite ∧
      |A i j - ((quotients f p x i j).val : ℝ)| ≤ ur * (2 * K + 6) * α + 9 / 8 * ω + 3 * (ε / lo) := by
  have hu := ur_pos
  have hu1 := ur_small
  have hn : 0 < n := j.pos
  obtain ⟨hκ, hα, hβ⟩ := wellPosed_product hw hn
  change lo ≤ rv (p j) at hp1
  change rv (p j) ≤ hi at hp2
  change |rv (x j)| ≤ K * rv (p j) at hxK
  have hp0 : 0 < rv (p j) := hlo.trans_le hp1
  have hr0 : 0 ≤ r := (norm_nonneg _).trans hx.2
  have hK0 : 0 ≤ K := by
    by_contra hneg
    push Not at hneg
    have := _root_.abs_nonneg (rv (x j))
    have := mul_neg_of_neg_of_pos hneg hp0
    linarith
  have hxR : Near ρ R x := ⟨hx.1, hx.2.trans (by linarith)⟩
  have hε : 0 ≤ ε := (norm_nonneg _).trans (he x hxR).2
  have hω := hl.nonneg
  have hsmall := quotientError_small hw hn hlo hω hε hK0 hq
  have hhi : hi ≤ 2 ^ 200 := by
    have h1 := h.radius.trans h.scaleHigh
    generalize (2 : ℝ) ^ 200 = w at *
    linarith
  have hp300 : rv (p j) ≤ 2 ^ 200 := hp2.trans hhi
  obtain ⟨hsf, s, hs, hse⟩ := shifted_float hx.1 hpf hp0
    (hp300.trans (pow_le_pow_right₀ (by norm_num) (by norm_num))) hK0 hK hxK
  have hκ' : ur * (K + 1) ≤ 1 / 100 := by
    have : ur * (K + 1) ≤ ur * (2 ^ 45 + 1) := mul_le_mul_of_nonneg_left (by linarith) hu.le
    refine this.trans ?_
    unfold ur
    norm_num
  have hκ0 : 0 ≤ ur * (K + 1) := by positivity
  have hs1 : |s| ≤ 101 / 100 * rv (p j) := by
    have h1 := abs_sub_abs_le_abs_sub s (rv (p j))
    rw [abs_of_pos hp0] at h1
    have h2 := mul_le_mul_of_nonneg_right hκ' hp0.le
    linarith
  have hns : ‖reals (shifted x j (p j)) - reals x‖ = |s| := by rw [hse, norm_single_if]
  have hmove : ‖reals (shifted x j (p j)) - reals x‖ ≤ 9 / 8 * hi := by rw [hns]; linarith
  have hyR : Near ρ R (shifted x j (p j)) := by
    refine ⟨hsf, ?_⟩
    have h1 := norm_sub_le_norm_sub_add_norm_sub (reals (shifted x j (p j))) (reals x) ρ
    have h2 := hx.2
    linarith
  refine ⟨hsf, hmove, fun i => ?_⟩
  obtain ⟨hfx, hex⟩ := he x hxR
  obtain ⟨hfy, hey⟩ := he _ hyR
  have hc := hl.change _ _ hyR.2 hxR.2
  rw [hns, hse, mulVec_single_if] at hc
  have hci := (norm_le_pi_norm _ i).trans hc
  have hexi := (norm_le_pi_norm _ i).trans hex
  have heyi := (norm_le_pi_norm _ i).trans hey
  rw [Real.norm_eq_abs, Pi.sub_apply] at hexi heyi
  rw [Real.norm_eq_abs, Pi.sub_apply, Pi.sub_apply] at hci
  change |rv (differences f x i) - Φ (reals x) i| ≤ ε at hexi
  change |rv (differences f (shifted x j (p j)) i) - Φ (reals (shifted x j (p j))) i| ≤ ε at heyi
  generalize Φ (reals x) i = φ0 at *
  generalize Φ (reals (shifted x j (p j))) i = φ1 at *
  have hεlo : ε ≤ ε / lo * rv (p j) := by
    calc ε = ε / lo * lo := by field_simp
      _ ≤ _ := mul_le_mul_of_nonneg_left hp1 (by positivity)
  have hd : |rv (differences f (shifted x j (p j)) i) - rv (differences f x i) - A i j * s| ≤
      (101 / 100 * ω + 2 * (ε / lo)) * rv (p j) := by
    have h1 : ω * |s| ≤ ω * (101 / 100 * rv (p j)) := mul_le_mul_of_nonneg_left hs1 hω
    generalize rv (differences f (shifted x j (p j)) i) = a1 at *
    generalize rv (differences f x i) = a0 at *
    rw [abs_le] at hci hexi heyi ⊢
    obtain ⟨c1, c2⟩ := hci
    obtain ⟨c3, c4⟩ := hexi
    obtain ⟨c5, c6⟩ := heyi
    constructor <;> linarith
  have hE0 : 0 ≤ 101 / 100 * ω + 2 * (ε / lo) := by positivity
  have hE1 : 101 / 100 * ω + 2 * (ε / lo) ≤ α := by
    have h1 : 0 ≤ ε / lo := by positivity
    have h2 : 0 ≤ ur * (2 * K + 6) * α := by positivity
    linarith
  have haij := hw.entries i j
  have hdmax : |rv (differences f (shifted x j (p j)) i) - rv (differences f x i)| ≤ 3 * (α * rv (p j)) := by
    have h1 : |A i j * s| ≤ α * (101 / 100 * rv (p j)) := by
      rw [abs_mul]
      exact mul_le_mul haij hs1 (_root_.abs_nonneg _) hα
    have h2 := mul_le_mul_of_nonneg_right hE1 hp0.le
    have h3 := abs_sub_abs_le_abs_sub (rv (differences f (shifted x j (p j)) i) - rv (differences f x i)) (A i j * s)
    have h4 : 0 ≤ α * rv (p j) := by positivity
    linarith
  have hbig : 3 * (α * rv (p j)) ≤ 2 ^ 1000 := by
    calc 3 * (α * rv (p j)) ≤ 2 ^ 2 * (2 ^ 89 * 2 ^ 200) := by
          refine mul_le_mul (by norm_num) (mul_le_mul hw.alphaHigh hp300 hp0.le (by norm_num)) (by positivity) (by norm_num)
      _ = 2 ^ 291 := by rw [← pow_add, ← pow_add]
      _ ≤ _ := pow_le_pow_right₀ (by norm_num) (by norm_num)
  obtain ⟨hDf, hD⟩ := rv_sub (hfy i) (hfx i) (hdmax.trans hbig)
  have hDp : |rv (Fl.sub (differences f (shifted x j (p j)) i) (differences f x i)) / rv (p j)| ≤ 2 ^ 1000 := by
    rw [abs_div, abs_of_pos hp0, div_le_iff₀ hp0]
    have h1 := abs_sub_abs_le_abs_sub (rv (Fl.sub (differences f (shifted x j (p j)) i) (differences f x i)))
      (rv (differences f (shifted x j (p j)) i) - rv (differences f x i))
    have h2 := mul_le_mul_of_nonneg_left hu1 (_root_.abs_nonneg (rv (differences f (shifted x j (p j)) i) - rv (differences f x i)))
    have h3 : 4 * α ≤ 2 ^ 1000 := by
      calc 4 * α ≤ 2 ^ 2 * 2 ^ 89 := mul_le_mul (by norm_num) hw.alphaHigh hα (by norm_num)
        _ = 2 ^ 91 := by rw [← pow_add]
        _ ≤ _ := pow_le_pow_right₀ (by norm_num) (by norm_num)
    have h4 := mul_le_mul_of_nonneg_right h3 hp0.le
    have h5 : 0 ≤ α * rv (p j) := by positivity
    generalize (2 : ℝ) ^ 1000 = w at *
    linarith
  obtain ⟨hQf, hQ⟩ := rv_div hDf hpf hp0.ne' hDp
  have hτ : tr ≤ ur * α := by
    refine tr_le.trans (mul_le_mul_of_nonneg_left ?_ hu.le)
    have h1 : 1 ≤ α * 2 ^ 89 := hκ.trans (mul_le_mul_of_nonneg_left hw.betaHigh hα)
    have h2 : (2 : ℝ) ^ (-1000 : ℤ) ≤ 2 ^ (-89 : ℤ) := zpow_le_zpow_right₀ (by norm_num) (by norm_num)
    have h3 : (2 : ℝ) ^ (-89 : ℤ) ≤ α := by
      rw [zpow_neg, inv_le_iff_one_le_mul₀ (by positivity)]
      exact_mod_cast h1
    exact h2.trans h3
  refine ⟨hQf, ?_⟩
  have := quotient_arith hu hu1 hτ haij hp0 hE0 hκ0 hs hd hD hQ
  rw [abs_sub_comm]
  refine this.trans ?_
  have h1 : 0 ≤ ε / lo := by positivity
  have h2 : 0 ≤ ur * α := by positivity
  have h3 : 0 ≤ ur * α * K := by positivity
  nlinarith

/-- The finite differences are inverted with sufficient accuracy. -/
theorem good_quotients {lo hi K r : ℝ} (hw : WellPosed A B α β) (h : NearSystem Φ A ρ R σ L ω) (hl : NearLinear Φ A ρ R ω)
    (he : EvaluatesSystem f Φ ρ R ε) (hla : c.la.inv = luInverse) (hp : Perturbs c ρ r lo hi K) (hlo : 0 < lo) (hK : K ≤ 2 ^ 45)
    (hr : r + 9 / 8 * hi ≤ R) (hq : β * quotientError n α ω ε lo K ≤ 1 / 16) {x : Vec F64 n} (hx : Near ρ r x) :
    ∃ p C, GoodQuotients c f A (5 / 4 * β) (9 / 8 * hi) x p C := by
  obtain ⟨p, hpx, hpj⟩ := hp x hx
  have H := fun j => quotient_entry hw h hl he hlo hK hr hq hx (hpj j).1 (hpj j).2.1 (hpj j).2.2.1 (hpj j).2.2.2
  obtain ⟨C, hC, hCA⟩ := luInverse_approx (J := quotients f p x) hw (fun i j => ((H j).2.2 i).1) (η := quotientError n α ω ε lo K)
    (fun i => by
      refine (Finset.sum_le_sum fun j _ => ((H j).2.2 i).2).trans ?_
      rw [Finset.sum_const, Finset.card_univ, Fintype.card_fin, nsmul_eq_mul]
      exact le_rfl) hq
  exact ⟨p, C, hpx, fun j => (H j).1, fun j => (H j).2.1, by rw [hla]; exact hC, hCA⟩

end
end Nrf
