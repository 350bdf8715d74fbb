import Verif.Spec.NearSystem
import Verif.Proofs.DotFloat
import Verif.Proofs.AmaxFloat
import Verif.Proofs.AccurateRun

/-!
# Systems of equations in binary64 with evaluations of limited accuracy: one pass and the solve
-/

set_option linter.unusedSectionVars false

namespace Nrf
open Spec Fl

section
variable {n : Nat} {Φ : (Fin n → ℝ) → Fin n → ℝ} {A : Matrix (Fin n) (Fin n) ℝ} {ρ : Fin n → ℝ} {R σ L ω β ε : ℝ}

/-- An approximate inverse reduces the distance to the root. -/
theorem approx_contracts (h : NearSystem Φ A ρ R σ L ω) {C : Mat F64 n} (hC : ApproxInverse A β C) (hβω : β * ω ≤ 1 / 8)
    {x : Fin n → ℝ} (hx : ‖x - ρ‖ ≤ R) (i : Fin n) :
    |x i - ρ i - ∑ j, ((C i j).val : ℝ) * Φ x j| ≤ 1 / 4 * ‖x - ρ‖ := by
  set e := x - ρ with he
  have hE := norm_nonneg e
  have hω : ∀ j, |Φ x j - ∑ k, A j k * e k| ≤ ω * ‖e‖ := fun j => by
    have := (norm_le_pi_norm (Φ x - A.mulVec e) j).trans (h.linear x hx)
    simpa [Real.norm_eq_abs, Matrix.mulVec, dotProduct] using this
  have hω0 : 0 ≤ ω * ‖e‖ := (_root_.abs_nonneg _).trans (hω i)
  have e1 : x i - ρ i - ∑ j, ((C i j).val : ℝ) * Φ x j =
      ∑ j, ((1 : Matrix (Fin n) (Fin n) ℝ) i j - ∑ k, ((C i k).val : ℝ) * A k j) * e j -
        ∑ j, ((C i j).val : ℝ) * (Φ x j - ∑ k, A j k * e k) := by
    have h1 : ∑ j, (1 : Matrix (Fin n) (Fin n) ℝ) i j * e j = x i - ρ i := by
      simp [Matrix.one_apply, he]
    have h2 : ∑ j, (∑ k, ((C i k).val : ℝ) * A k j) * e j = ∑ j, ((C i j).val : ℝ) * ∑ k, A j k * e k := by
      simp only [Finset.sum_mul, Finset.mul_sum]
      rw [Finset.sum_comm]
      simp only [_root_.mul_assoc]
    simp only [sub_mul, mul_sub, Finset.sum_sub_distrib]
    rw [h1, h2]
    ring
  rw [e1]
  refine (abs_sub _ _).trans ?_
  have h3 : |∑ j, ((1 : Matrix (Fin n) (Fin n) ℝ) i j - ∑ k, ((C i k).val : ℝ) * A k j) * e j| ≤ 1 / 8 * ‖e‖ := by
    refine (Finset.abs_sum_le_sum_abs _ _).trans ?_
    refine le_trans (Finset.sum_le_sum (g := fun j =>
      |(1 : Matrix (Fin n) (Fin n) ℝ) i j - ∑ k, ((C i k).val : ℝ) * A k j| * ‖e‖) fun j _ => ?_) ?_
    · rw [abs_mul]
      exact mul_le_mul_of_nonneg_left (norm_le_pi_norm e j) (_root_.abs_nonneg _)
    · rw [← Finset.sum_mul]
      exact mul_le_mul_of_nonneg_right (hC.close i) hE
  have h4 : |∑ j, ((C i j).val : ℝ) * (Φ x j - ∑ k, A j k * e k)| ≤ 1 / 8 * ‖e‖ := by
    refine (Finset.abs_sum_le_sum_abs _ _).trans ?_
    refine le_trans (Finset.sum_le_sum (g := fun j => |((C i j).val : ℝ)| * (ω * ‖e‖)) fun j _ => ?_) ?_
    · rw [abs_mul]
      exact mul_le_mul_of_nonneg_left (hω j) (_root_.abs_nonneg _)
    · rw [← Finset.sum_mul]
      calc (∑ j, |((C i j).val : ℝ)|) * (ω * ‖e‖) ≤ β * (ω * ‖e‖) := mul_le_mul_of_nonneg_right (hC.rows i) hω0
        _ = β * ω * ‖e‖ := by ring
        _ ≤ _ := mul_le_mul_of_nonneg_right hβω hE
  linarith

/-- The distance to the root is bounded by the residual. -/
theorem approx_distance (h : NearSystem Φ A ρ R σ L ω) {C : Mat F64 n} (hC : ApproxInverse A β C) (hβ : 0 ≤ β) (hβω : β * ω ≤ 1 / 8)
    {x : Fin n → ℝ} (hx : ‖x - ρ‖ ≤ R) : ‖x - ρ‖ ≤ 4 / 3 * (β * ‖Φ x‖) := by
  have hE := norm_nonneg (x - ρ)
  have hb : 0 ≤ β * ‖Φ x‖ := _root_.mul_nonneg hβ (norm_nonneg _)
  have : ‖x - ρ‖ ≤ 1 / 4 * ‖x - ρ‖ + β * ‖Φ x‖ := by
    refine (pi_norm_le_iff_of_nonneg (by positivity)).2 fun i => ?_
    have h1 := approx_contracts h hC hβω hx i
    have h2 : |∑ j, ((C i j).val : ℝ) * Φ x j| ≤ β * ‖Φ x‖ := by
      refine (Finset.abs_sum_le_sum_abs _ _).trans ?_
      refine le_trans (Finset.sum_le_sum (g := fun j => |((C i j).val : ℝ)| * ‖Φ x‖) fun j _ => ?_) ?_
      · rw [abs_mul]
        exact mul_le_mul_of_nonneg_left (norm_le_pi_norm (Φ x) j) (_root_.abs_nonneg _)
      · rw [← Finset.sum_mul]
        exact mul_le_mul_of_nonneg_right (hC.rows i) (norm_nonneg _)
    have h3 := abs_sub_abs_le_abs_sub (x i - ρ i) (∑ j, ((C i j).val : ℝ) * Φ x j)
    rw [Real.norm_eq_abs, Pi.sub_apply]
    linarith
  linarith

/-- The errors of one component of a pass, as numbers. -/
theorem system_step_arith {u X P T Y E s b k τ σ c : ℝ} (hu : 0 < u) (hu1 : u ≤ 1 / 1000) (hE : 0 ≤ E) (hb : 0 ≤ b)
    (hk : k ≤ 1 / 8) (hc : k * c ≤ 1 / 8 * E) (hs : |X - P - s| ≤ 1 / 4 * E + b) (hT : |T + s| ≤ k * (c + b) + τ)
    (hτ : τ ≤ u * σ / 8) (hP : |P| ≤ σ) (hY : |Y - (X + T)| ≤ |X + T| * u) :
    |Y - P| ≤ 1 / 2 * E + 2 * b + 2 * u * σ := by
  have hσ : 0 ≤ σ := (_root_.abs_nonneg _).trans hP
  have hkb : k * b ≤ 1 / 8 * b := mul_le_mul_of_nonneg_right hk hb
  have h1 : |(X + T) - P| ≤ 3 / 8 * E + 9 / 8 * b + u * σ / 8 := by
    have : X + T - P = (X - P - s) + (T + s) := by ring
    rw [this]
    refine (abs_add_le _ _).trans ?_
    linarith
  have h2 : |X + T| ≤ |(X + T) - P| + σ := by
    have h3 := abs_add_le ((X + T) - P) P
    rw [sub_add_cancel] at h3
    linarith
  have h3 : |Y - P| ≤ |Y - (X + T)| + |(X + T) - P| := by
    have h4 := abs_add_le (Y - (X + T)) ((X + T) - P)
    rwa [sub_add_sub_cancel] at h4
  have h5 := mul_le_mul_of_nonneg_right (h2.trans (add_le_add_left h1 σ)) hu.le
  have h6 := mul_le_mul_of_nonneg_right hu1 hE
  have h7 := mul_le_mul_of_nonneg_right hu1 hb
  have h8 : 0 ≤ u * σ := by positivity
  have h9 := mul_le_mul_of_nonneg_right hu1 h8
  linarith

/-- The floor of the distance to the root. -/
noncomputable def Spec.systemFloor (σ β ε : ℝ) : ℝ := 2 * (β * ε) + 2 * 2 ^ (-53 : ℤ) * σ

theorem small_underflow {n : ℕ} (hn : n ≤ 2 ^ 40) {σ : ℝ} (hσ : 2 ^ (-900 : ℤ) ≤ σ) :
    2 * (n : ℝ) * 2 ^ (-1075 : ℤ) ≤ 2 ^ (-53 : ℤ) * σ / 8 := by
  have h1 : (n : ℝ) ≤ 2 ^ (40 : ℤ) := by exact_mod_cast hn
  have h2 : 2 * (n : ℝ) * 2 ^ (-1075 : ℤ) ≤ 2 * 2 ^ (40 : ℤ) * 2 ^ (-1075 : ℤ) :=
    mul_le_mul_of_nonneg_right (mul_le_mul_of_nonneg_left h1 (by norm_num)) (zpow_nonneg (by norm_num) _)
  refine h2.trans ?_
  have hu : (0 : ℝ) ≤ 2 ^ (-53 : ℤ) := by positivity
  have h3 : (2 : ℝ) ^ (-53 : ℤ) * 2 ^ (-900 : ℤ) / 8 ≤ 2 ^ (-53 : ℤ) * σ / 8 :=
    div_le_div_of_nonneg_right (mul_le_mul_of_nonneg_left hσ hu) (by norm_num)
  refine le_trans ?_ h3
  have e1 : (2 : ℝ) * 2 ^ (40 : ℤ) * 2 ^ (-1075 : ℤ) = 2 ^ (-1034 : ℤ) := by
    rw [← zpow_one_add₀ (by norm_num), ← zpow_add₀ (by norm_num)]; norm_num
  have e2 : (2 : ℝ) ^ (-53 : ℤ) * 2 ^ (-900 : ℤ) / 8 = 2 ^ (-956 : ℤ) := by
    rw [← zpow_add₀ (by norm_num), show (8 : ℝ) = 2 ^ (3 : ℤ) by norm_num, ← zpow_sub₀ (by norm_num)]; norm_num
  rw [e1, e2]
  exact zpow_le_zpow_right₀ (by norm_num) (by norm_num)

variable {la : LinAlg F64 n} {f : Vec F64 n → ResidualsValues F64 n}

/-- All roundings of a pass. -/
theorem system_step (hn : n ≤ 2 ^ 40) (hdot : AccurateDot la) (h : NearSystem Φ A ρ R σ L ω) (hw : Conditioned n β L ω)
    (he : EvaluatesSystem f Φ ρ R ε) (hδ : 2 * systemFloor σ β ε ≤ R) {C : Mat F64 n} (hC : ApproxInverse A β C)
    {x : Vec F64 n} (hx : Near ρ R x) (i : Fin n) :
    la.dot (mneg C i) (differences f x) ≠ .nan ∧
    (Fl.add (x i) (la.dot (mneg C i) (differences f x))).IsFinite ∧
    |((Fl.add (x i) (la.dot (mneg C i) (differences f x))).val : ℝ) - ρ i| ≤
      1 / 2 * ‖reals x - ρ‖ + systemFloor σ β ε := by
  obtain ⟨hxf, hxR⟩ := hx
  obtain ⟨hrf, hre⟩ := he x ⟨hxf, hxR⟩
  set r := differences f x with hr
  set E := ‖reals x - ρ‖ with hE
  have hE0 : 0 ≤ E := norm_nonneg _
  have hε : 0 ≤ ε := (norm_nonneg _).trans hre
  have hσ : 0 ≤ σ := (norm_nonneg _).trans h.rootSize
  have hβε : 0 ≤ β * ε := _root_.mul_nonneg hw.positive hε
  have hrj : ∀ j, |((r j).val : ℝ)| ≤ L * E + ε := by
    intro j
    have h1 : |((r j).val : ℝ) - Φ (reals x) j| ≤ ε := (norm_le_pi_norm (reals r - Φ (reals x)) j).trans hre
    have h2 : |Φ (reals x) j| ≤ L * E := (norm_le_pi_norm (Φ (reals x)) j).trans (h.slope _ hxR)
    have h3 := abs_sub_abs_le_abs_sub ((r j).val : ℝ) (Φ (reals x) j)
    linarith
  have hLE : 0 ≤ L * E := _root_.mul_nonneg h.slopeLow hE0
  have vneg : ∀ j, ((mneg C i j).val : ℝ) = -((C i j).val : ℝ) := by
    intro j
    have : (mneg C i j).val = -(C i j).val := val_neg _
    rw [this]
    push_cast
    rfl
  have hsum : ∑ j, |((mneg C i j).val : ℝ) * ((r j).val : ℝ)| ≤ β * (L * E) + β * ε := by
    refine le_trans (Finset.sum_le_sum (g := fun j => |((C i j).val : ℝ)| * (L * E + ε)) fun j _ => ?_) ?_
    · rw [abs_mul, vneg, _root_.abs_neg]
      exact mul_le_mul_of_nonneg_left (hrj j) (_root_.abs_nonneg _)
    · rw [← Finset.sum_mul, ← _root_.mul_add]
      exact mul_le_mul_of_nonneg_right (hC.rows i) (by positivity)
  have hβεR : 4 * (β * ε) ≤ σ := by
    have h1 : 0 ≤ 2 * (2 : ℝ) ^ (-53 : ℤ) * σ := by positivity
    have h2 := h.radius
    unfold systemFloor at hδ
    generalize 2 * (2 : ℝ) ^ (-53 : ℤ) * σ = w at *
    linarith
  have hβLE : β * (L * E) ≤ 2 ^ 600 := by
    have h1 : L * E ≤ 2 ^ 200 * 2 ^ 200 :=
      mul_le_mul h.slopeHigh (hxR.trans (h.radius.trans h.scaleHigh)) hE0 (by positivity)
    have h2 : β * (L * E) ≤ 2 ^ 200 * (2 ^ 200 * 2 ^ 200) := mul_le_mul hw.bounded h1 hLE (by positivity)
    rwa [← pow_add, ← pow_add] at h2
  have hsumb : β * (L * E) + β * ε ≤ 2 ^ 601 := by
    have h1 : β * ε ≤ 2 ^ 600 := by
      have h2 : (2 : ℝ) ^ 200 ≤ 2 ^ 600 := pow_le_pow_right₀ (by norm_num) (by norm_num)
      have h3 := h.scaleHigh.trans h2
      generalize (2 : ℝ) ^ 600 = p at *
      clear * - h3 hβεR hβε
      linarith
    have e : (2 : ℝ) ^ 601 = 2 * 2 ^ 600 := by rw [pow_succ]; ring
    rw [e]
    clear e
    generalize (2 : ℝ) ^ 600 = p at *
    clear * - h1 hβLE
    linarith
  have hsumq : ∑ j, |(mneg C i j).val * (r j).val| ≤ 2 ^ 1000 := by
    have h1 : (((∑ j, |(mneg C i j).val * (r j).val| : ℚ)) : ℝ) ≤ (((2 : ℚ) ^ 1000 : ℚ) : ℝ) := by
      push_cast
      exact hsum.trans (hsumb.trans (pow_le_pow_right₀ (by norm_num) (by norm_num)))
    exact (Rat.cast_le (K := ℝ)).1 h1
  obtain ⟨ft, et⟩ := hdot (mneg C i) r (fun j => fl_neg_finite (hC.finite i j)) hrf hsumq
  have et' := (Rat.cast_le (K := ℝ)).2 et
  push_cast at et'
  set t := la.dot (mneg C i) r with ht
  have hk0 : (0 : ℝ) ≤ 3 * n * 2 ^ (-53 : ℤ) := by positivity
  have hnr : (n : ℝ) ≤ 2 ^ 40 := by exact_mod_cast hn
  have hk : 3 * (n : ℝ) * 2 ^ (-53 : ℤ) ≤ 1 / 8 := by
    refine (mul_le_mul_of_nonneg_right (by linarith : 3 * (n : ℝ) ≤ 3 * 2 ^ 40) (by positivity)).trans ?_
    norm_num
  have hτ := small_underflow hn h.scaleLow
  set s := ∑ j, ((C i j).val : ℝ) * ((r j).val : ℝ) with hs
  have es : ∑ j, ((mneg C i j).val : ℝ) * ((r j).val : ℝ) = -s := by
    rw [hs, ← Finset.sum_neg_distrib]
    refine Finset.sum_congr rfl fun j _ => ?_
    rw [vneg]
    ring
  rw [es, sub_neg_eq_add] at et'
  have hT : |(t.val : ℝ) + s| ≤ 3 * n * 2 ^ (-53 : ℤ) * (β * (L * E) + β * ε) + 2 * n * 2 ^ (-1075 : ℤ) :=
    et'.trans (add_le_add_left (mul_le_mul_of_nonneg_left hsum hk0) _)
  have hcs : |((x i).val : ℝ) - ρ i - s| ≤ 1 / 4 * E + β * ε := by
    have h1 := approx_contracts h hC hw.almostLinear hxR i
    have h2 : |s - ∑ j, ((C i j).val : ℝ) * Φ (reals x) j| ≤ β * ε := by
      rw [hs, ← Finset.sum_sub_distrib]
      refine (Finset.abs_sum_le_sum_abs _ _).trans ?_
      refine le_trans (Finset.sum_le_sum (g := fun j => |((C i j).val : ℝ)| * ε) fun j _ => ?_) ?_
      · rw [← _root_.mul_sub, abs_mul]
        exact mul_le_mul_of_nonneg_left ((norm_le_pi_norm (reals r - Φ (reals x)) j).trans hre) (_root_.abs_nonneg _)
      · rw [← Finset.sum_mul]
        exact mul_le_mul_of_nonneg_right (hC.rows i) hε
    have h3 : ((x i).val : ℝ) - ρ i - s = (reals x i - ρ i - ∑ j, ((C i j).val : ℝ) * Φ (reals x) j) -
        (s - ∑ j, ((C i j).val : ℝ) * Φ (reals x) j) := by
      unfold reals; ring
    rw [h3]
    exact (abs_sub _ _).trans (add_le_add h1 h2)
  have hP : |ρ i| ≤ σ := (norm_le_pi_norm ρ i).trans h.rootSize
  have hkc : 3 * (n : ℝ) * 2 ^ (-53 : ℤ) * (β * (L * E)) ≤ 1 / 8 * E := by
    have h1 := mul_le_mul_of_nonneg_right hw.condition hE0
    have h2 : 24 * (n : ℝ) * 2 ^ (-53 : ℤ) * (β * L) * E = 8 * (3 * (n : ℝ) * 2 ^ (-53 : ℤ) * (β * (L * E))) := by ring
    rw [h2] at h1
    clear_value E
    generalize 3 * (n : ℝ) * 2 ^ (-53 : ℤ) * (β * (L * E)) = w at *
    clear * - h1
    linarith
  -- no overflow
  have hXT : |(x i).val + t.val| ≤ 2 ^ 1023 := by
    have h0 : ((|(x i).val + t.val| : ℚ) : ℝ) ≤ (((2 : ℚ) ^ 1023 : ℚ) : ℝ) := by
      push_cast
      have h1 : ((x i).val : ℝ) + t.val = ((x i).val - ρ i - s) + (t.val + s) + ρ i := by ring
      rw [h1]
      refine (abs_add_le _ _).trans ((add_le_add_left (abs_add_le _ _) _).trans ?_)
      have h2 : 3 * (n : ℝ) * 2 ^ (-53 : ℤ) * (β * (L * E) + β * ε) ≤ 1 / 8 * (β * (L * E) + β * ε) :=
        mul_le_mul_of_nonneg_right hk (add_nonneg (_root_.mul_nonneg hw.positive hLE) hβε)
      have h3 : (2 : ℝ) ^ (-53 : ℤ) * σ / 8 ≤ σ := by
        have : (2 : ℝ) ^ (-53 : ℤ) * σ ≤ 1 * σ := mul_le_mul_of_nonneg_right (by norm_num) hσ
        linarith
      have h4 : E ≤ σ := hxR.trans h.radius
      have h5 : σ ≤ 2 ^ 601 := h.scaleHigh.trans (pow_le_pow_right₀ (by norm_num) (by norm_num))
      have h6 : (8 : ℝ) * 2 ^ 601 ≤ 2 ^ 1023 := by
        have : (8 : ℝ) * 2 ^ 601 = 2 ^ 604 := by rw [pow_add 2 601 3]; ring
        rw [this]
        exact pow_le_pow_right₀ (by norm_num) (by norm_num)
      refine le_trans ?_ h6
      have h7 : (0 : ℝ) ≤ 2 ^ 601 := by positivity
      clear h6
      generalize (2 : ℝ) ^ 601 = p at *
      have h8 := hcs
      have h9 := hT
      generalize 2 * (n : ℝ) * 2 ^ (-1075 : ℤ) = w1 at *
      generalize (2 : ℝ) ^ (-53 : ℤ) * σ / 8 = w2 at *
      generalize 3 * (n : ℝ) * 2 ^ (-53 : ℤ) * (β * (L * E) + β * ε) = w3 at *
      clear * - h2 h3 h4 h5 h7 h8 h9 hP hτ hsumb hβεR hE0
      linarith
    exact (Rat.cast_le (K := ℝ)).1 h0
  obtain ⟨fn, vn⟩ := f64_add (hxf i) ft hXT
  have en := Binary64.rnd_add_error (Fl.val_fixed (x i)) (Fl.val_fixed t)
  rw [← vn] at en
  have en' := (Rat.cast_le (K := ℝ)).2 en
  push_cast at en'
  refine ⟨ft.not_nan, fn, ?_⟩
  have := system_step_arith (u := 2 ^ (-53 : ℤ)) (by positivity) (by norm_num) hE0 hβε hk hkc hcs hT hτ hP en'
  unfold systemFloor
  linarith

end

section
variable {K : Type} [Field K] [LinearOrder K] [Rounding K] [IsStrictOrderedRing K] {n : Nat}

theorem foldl_simdMax_mem (l : List (Fl K)) : ∀ a : Fl K,
    l.foldl (fun a b => simdMax a (Scalar.abs b)) a = a ∨ ∃ b ∈ l, l.foldl (fun a b => simdMax a (Scalar.abs b)) a = Fl.abs b := by
  induction l with
  | nil => exact fun a => .inl rfl
  | cons x l ih =>
    intro a
    rw [List.foldl_cons]
    rcases ih (simdMax a (Scalar.abs x)) with h | ⟨b, hb, h⟩
    · rw [h]
      unfold simdMax
      split
      · exact .inl rfl
      · exact .inr ⟨x, by simp, rfl⟩
    · exact .inr ⟨b, by simp [hb], h⟩

/-- `amax` is one of the absolute values, or zero for an empty vector. -/
theorem fl_amax_mem (v : Vec (Fl K) n) : (n = 0 ∧ amax v = .zero false) ∨ ∃ i, amax v = Fl.abs (v i) := by
  unfold amax
  have hmem : ∀ b, b ∈ List.ofFn v ↔ ∃ i, v i = b := fun b => by simp [List.mem_ofFn]
  rcases hl : List.ofFn v with _ | ⟨x, l⟩
  · left
    have : (List.ofFn v).length = n := List.length_ofFn
    rw [hl] at this
    exact ⟨this.symm, rfl⟩
  · right
    rcases foldl_simdMax_mem l (Scalar.abs x) with h | ⟨b, hb, h⟩
    · obtain ⟨i, hi⟩ := (hmem x).1 (by rw [hl]; simp)
      exact ⟨i, by rw [hi]; exact h⟩
    · obtain ⟨i, hi⟩ := (hmem b).1 (by rw [hl]; simp [hb])
      exact ⟨i, by rw [hi]; exact h⟩

end

section
variable {n : Nat}

/-- Comparing `amax` with a tolerance compares the norm. -/
theorem amax_reaches {v : Vec F64 n} (hv : ∀ i, (v i).IsFinite) {t : F64} (ht : t.IsFinite) (ht0 : (0 : ℝ) ≤ t.val) :
    Fl.ltb t (amax v) = false ↔ ‖reals v‖ ≤ t.val := by
  have key : ∀ a : F64, a.IsFinite → (Fl.ltb t (Fl.abs a) = false ↔ |(a.val : ℝ)| ≤ t.val) := by
    intro a ha
    rw [Bool.eq_false_iff, Ne, fl_ltb_val ht (abs_finite ha), val_abs, not_lt, ← Rat.cast_le (K := ℝ), Rat.cast_abs]
  have hfin : (amax v).IsFinite := by
    rcases fl_amax_mem v with ⟨-, h⟩ | ⟨i, h⟩
    · rw [h]; trivial
    · rw [h]; exact abs_finite (hv i)
  constructor
  · intro h
    refine (pi_norm_le_iff_of_nonneg ht0).2 fun i => ?_
    have h1 := fl_abs_le_amax v (fun i => (hv i).not_nan) i
    refine (key _ (hv i)).1 ?_
    rw [Bool.eq_false_iff] at h ⊢
    intro h2
    refine h ((Fl.ltb_iff ht.not_nan hfin.not_nan).2 fun h3 => ?_)
    exact (Fl.ltb_iff ht.not_nan (abs_finite (hv i)).not_nan).1 h2 (Fl.leb_trans h1 h3)
  · intro h
    rcases fl_amax_mem v with ⟨-, h0⟩ | ⟨i, h0⟩
    · rw [h0, Bool.eq_false_iff, Ne, fl_ltb_val ht (b := .zero false) trivial]
      have : (0 : ℚ) ≤ t.val := by exact_mod_cast ht0
      exact not_lt.2 this
    · rw [h0]
      exact (key _ (hv i)).2 ((norm_le_pi_norm (reals v) i).trans h)

end

section
variable {K : Type} [Field K] [LinearOrder K] [Rounding K] [IsStrictOrderedRing K] {n : Nat}
variable {c : Config (Fl K) n} {EI EU S : Type} {m : UserModel (Fl K) n EI EU S} {inv : S → Prop}
variable {D : Vec (Fl K) n → Prop} {f : Vec (Fl K) n → ResidualsValues (Fl K) n}

theorem system_update (hc : SystemDefault c) (x : Vec (Fl K) n) : updateAt c f x = differences f x := by
  funext i
  change normalization ((f x).left i) ((f x).right i) (c.res.upd i) = _
  rw [hc.update]
  rfl

theorem system_errors (hc : SystemDefault c) (x : Vec (Fl K) n) :
    errorsAt c f x = fun i => Fl.abs (differences f x i) := by
  funext i
  change Fl.abs (normalization ((f x).left i) ((f x).right i) (c.res.stop i)) = _
  rw [hc.stop]
  rfl

theorem system_next (hc : SystemDefault c) {C : Mat (Fl K) n} {z : Vec (Fl K) n} (hz : ∀ i, (z i).IsFinite)
    (hs : ∀ i, c.la.dot (mneg C i) (differences f z) ≠ .nan) :
    stepLimitations c.iters z (mulVec c.la (mneg C) (updateAt c f z)) =
      fun i => Fl.add (z i) (c.la.dot (mneg C i) (differences f z)) := by
  rw [system_update hc]
  funext i
  change (c.iters i).stepLimitation (z i) (c.la.dot (mneg C i) (differences f z)) = _
  rw [hc.limits]
  exact fl_default_limits (hz i) (hs i)

end

section
variable {n : Nat} {Φ : (Fin n → ℝ) → Fin n → ℝ} {A : Matrix (Fin n) (Fin n) ℝ} {ρ : Fin n → ℝ} {R σ L ω β ε : ℝ}
variable {c : Config F64 n} {EI EU S : Type} {m : UserModel F64 n EI EU S} {inv : S → Prop}
variable {f : Vec F64 n → ResidualsValues F64 n}

/-- A pass with an approximate inverse. -/
theorem system_pass (hc : SystemDefault c) (hn : n ≤ 2 ^ 40) (hdot : AccurateDot c.la) (h : NearSystem Φ A ρ R σ L ω)
    (hw : Conditioned n β L ω) (he : EvaluatesSystem f Φ ρ R ε) (hδ : 2 * systemFloor σ β ε ≤ R)
    (hf : Computes m inv (Near ρ R) f) {C : Mat F64 n} (hC : ApproxInverse A β C) {z : Vec F64 n} (hz : Near ρ R z)
    {st st1 : Solver F64 n} (hdb : st1.debug = false) {s s1 : S} (hs1 : At m inv f s1 z)
    (hstep : computeStep c m { st with iter := st.iter + 1 } s = .ok (st1, s1,
      .ok (stepLimitations c.iters z (mulVec c.la (mneg C) (updateAt c f z))))) :
    ∃ st' s' y, iterate c m st s = .ok (st', s', .ok (amax (evaluateErrors c m s'))) ∧ At m inv f s' y ∧
      st'.debug = false ∧ st'.valid = true ∧ st'.jac = st1.jac ∧ (∀ i, (y i).IsFinite) ∧
      ‖reals y - ρ‖ ≤ 1 / 2 * ‖reals z - ρ‖ + systemFloor σ β ε := by
  have key := fun i => system_step hn hdot h hw he hδ hC hz i
  rw [system_next hc hz.1 fun i => (key i).1] at hstep
  have hE := norm_nonneg (reals z - ρ)
  have hε : 0 ≤ ε := (norm_nonneg _).trans (he z hz).2
  have hσ : 0 ≤ σ := (norm_nonneg _).trans h.rootSize
  have hfl : 0 ≤ systemFloor σ β ε := by
    have := hw.positive
    unfold systemFloor
    positivity
  set y : Vec F64 n := fun i => Fl.add (z i) (c.la.dot (mneg C i) (differences f z)) with hy
  have hyρ : ‖reals y - ρ‖ ≤ 1 / 2 * ‖reals z - ρ‖ + systemFloor σ β ε :=
    (pi_norm_le_iff_of_nonneg (by positivity)).2 fun i => (key i).2.2
  have hyn : Near ρ R y := ⟨fun i => (key i).2.1, hyρ.trans (by have := hz.2; linarith)⟩
  obtain ⟨s', hs', hi⟩ := iterate_at (c := c) hf hstep hdb hs1 hyn (fun h => by rw [hc.damping] at h; cases h)
  rw [← hs'.errors] at hi
  exact ⟨_, s', y, hi, hs', (storeSteps_fields ..).2.2.2.2.trans hdb, (storeSteps_fields ..).2.2.2.1,
    (storeSteps_fields ..).2.2.1, hyn.1, hyρ⟩

theorem reals_abs (v : Vec F64 n) : ‖reals fun i => Fl.abs (v i)‖ = ‖reals v‖ := by
  have : ∀ i, ‖reals (fun i => Fl.abs (v i)) i‖ = ‖reals v i‖ := by
    intro i
    unfold reals
    rw [val_abs, Rat.cast_abs, Real.norm_eq_abs, Real.norm_eq_abs, _root_.abs_abs]
  refine le_antisymm ?_ ?_
  · exact (pi_norm_le_iff_of_nonneg (norm_nonneg _)).2 fun i => (this i).le.trans (norm_le_pi_norm (reals v) i)
  · exact (pi_norm_le_iff_of_nonneg (norm_nonneg _)).2 fun i =>
      (this i).ge.trans (norm_le_pi_norm (reals fun i => Fl.abs (v i)) i)

/-- If each pass halves the distance to `ρ` up to `δ`, the solve succeeds. -/
theorem system_converges (hc : SystemDefault c) (hf : Computes m inv (Near ρ R) f) {r δ : ℝ} (hr : r ≤ R)
    (hδ : 2 * δ ≤ r) (P : Nat → Solver F64 n → Vec F64 n → Prop) (h0 : P 0 .new c.guess)
    (hpass : ∀ k (x : Vec F64 n) st s, Near ρ r x → ‖reals x - ρ‖ ≤ halved r δ k → st.debug = false → P k st x →
      At m inv f s x →
      ∃ st' s' y, iterate c m st s = .ok (st', s', .ok (amax (evaluateErrors c m s'))) ∧ At m inv f s' y ∧
        st'.debug = false ∧ st'.valid = true ∧ P (k + 1) st' y ∧ (∀ i, (y i).IsFinite) ∧
        ‖reals y - ρ‖ ≤ 1 / 2 * halved r δ k + δ)
    (hg : Near ρ r c.guess) (ht : c.params.tolerance.IsFinite) (ht0 : (0 : ℝ) ≤ c.params.tolerance.val)
    {N : Nat} (hNm : N ≤ c.params.maxIter)
    (hfin : ∀ x, Near ρ r x → ∀ i, (differences f x i).IsFinite)
    (hend : ∀ x, Near ρ r x → ‖reals x - ρ‖ ≤ halved r δ N → ‖reals (differences f x)‖ ≤ c.params.tolerance.val)
    {s : S} (hs : inv s) :
    ∃ st' s' x, solve c m .new s = .ok (st', s', .ok ()) ∧ st'.iter ≤ N ∧ At m inv f s' x ∧ Near ρ r x ∧
      ‖reals (differences f x)‖ ≤ c.params.tolerance.val := by
  have hreach : ∀ {x}, Near ρ r x → (Fl.ltb c.params.tolerance (amax (errorsAt c f x)) = false ↔
      ‖reals (differences f x)‖ ≤ c.params.tolerance.val) := by
    intro x hx
    rw [system_errors hc, ← reals_abs]
    exact amax_reaches (fun i => abs_finite (hfin x hx i)) ht ht0
  obtain ⟨k, st', s', h1, ⟨x, hat, hd, hv, hP, hx, hk, hxk⟩, h3, h4⟩ := solve_follow (c := c) hf
    (fun k st s => ∃ x, At m inv f s x ∧ st.debug = false ∧ st.valid = true ∧ P k st x ∧
      Near ρ r x ∧ k ≤ N ∧ ‖reals x - ρ‖ ≤ halved r δ k)
    (by
      rintro k st s ⟨x, hat, hd, hv, hP, hx, hk, hxk⟩ hgo
      have hkN : k < N := by
        rcases lt_or_eq_of_le hk with h | h
        · exact h
        exfalso
        subst h
        have hgo' := hgo
        unfold continues at hgo'
        rw [Bool.and_eq_true, hat.errors] at hgo'
        have := (hreach hx).2 (hend x hx hxk)
        exact absurd (hgo'.1.symm.trans this) (by decide)
      obtain ⟨st', s', y, hi, hat', hd', hv', hP', hy, hyρ⟩ := hpass k x st s hx hxk hd hP hat
      have hyk : ‖reals y - ρ‖ ≤ halved r δ (k + 1) := by
        rw [halved_succ]
        linarith
      exact ⟨st', s', hi, y, hat', hd', hv', hP', ⟨hy, hyk.trans (halved_le hδ _)⟩, by omega, hyk⟩)
    hs ⟨hg.1, hg.2.trans hr⟩
    (fun s0 hs0 => ⟨c.guess, hs0, rfl, rfl, h0, hg, by omega, by rw [halved_zero]; exact hg.2⟩)
  have hle : Fl.ltb c.params.tolerance (amax (errorsAt c f x)) = false := by
    rw [hat.errors] at h3
    unfold continues at h3
    rw [Bool.and_eq_false_iff, decide_eq_false_iff_not] at h3
    rcases h3 with h | h
    · exact h
    · have : k = N := by omega
      subst this
      exact (hreach hx).2 (hend x hx hxk)
  refine ⟨st', s', x, ?_, by omega, hat, hx, (hreach hx).1 hle⟩
  refine h1.trans ?_
  rw [hat.errors]
  unfold finalResult
  have : Scalar.lt c.params.tolerance (amax (errorsAt c f x)) = false := hle
  rw [this, hv]
  rfl

end
end Nrf
