import Verif.Proofs.LuFactors

/-!
# The triangular systems in binary64
-/

set_option linter.unusedSectionVars false

namespace Nrf
open Fl

section
variable {n : Nat}

/-- The first `i` products of a row of the lower factor, plus the rest. -/
noncomputable def lowerRest (M : Mat F64 n) (i : Nat) (y : Vec F64 n) (r : Fin n) : ℝ :=
  ∑ j : Fin n, (if j.val < i then lowerPart (vals M) r j * rv (y j) else 0) + (if i ≤ r.val then rv (y r) else 0)

structure LowerInv (M : Mat F64 n) (b : Vec F64 n) (i : Nat) (y : Vec F64 n) : Prop where
  finite : ∀ r, (y r).IsFinite
  size : ∀ r, |rv (y r)| ≤ 3 ^ i
  error : ∀ r, |rv (b r) - lowerRest M i y r| ≤ 3 * ur * 3 ^ i

theorem lowerInv_step {M : Mat F64 n} {b y : Vec F64 n} {i : Fin n} (hM : ∀ r k, (M r k).IsFinite)
    (hl : ∀ r j : Fin n, j < r → |rv (M r j)| ≤ 1 + 3 * ur) (h3 : (3 : ℝ) ^ i.val ≤ 2 ^ 900) (h : LowerInv M b i y) :
    LowerInv M b (i.val + 1) (lowerStep M y i) := by
  have hu := ur_pos
  set G := (3 : ℝ) ^ i.val with hG
  have hG1 : 1 ≤ G := one_le_pow₀ (by norm_num)
  have hGl : 2 ^ (-900 : ℤ) ≤ G :=
    le_trans (zpow_le_one_of_nonpos₀ (by norm_num) (by norm_num)) hG1
  have e3 : (3 : ℝ) ^ (i.val + 1) = 3 * G := by rw [pow_succ, hG]; ring
  have hyi : |rv (y i)| ≤ 2 ^ 1000 := (h.size i).trans (h3.trans (pow_le_pow_right₀ (by norm_num) (by norm_num)))
  obtain ⟨fd, ed⟩ := rv_div_one (h.finite i) hyi
  have helim : ∀ r, i < r → (lowerStep M y i r).IsFinite ∧
      |rv (lowerStep M y i r) - (rv (y r) - rv (y i) * rv (M r i))| ≤ 5 * ur * G ∧ |rv (lowerStep M y i r)| ≤ 3 * G := by
    intro r hr
    have e : lowerStep M y i r = Fl.add (Fl.mul (Fl.neg (Fl.div (y i) Fl.one)) (M r i)) (y r) := by
      unfold lowerStep; rw [if_pos hr]; rfl
    rw [e]
    have := elim_step hGl h3 fd (hM r i) (h.finite r) (by rw [ed]; exact h.size i) (hl r i hr) (h.size r)
    rwa [ed] at this
  have hsame : ∀ r, ¬ i < r → lowerStep M y i r = y r := fun r hr => by unfold lowerStep; rw [if_neg hr]
  refine ⟨?_, ?_, ?_⟩
  · intro r
    by_cases hr : i < r
    · exact (helim r hr).1
    · rw [hsame r hr]; exact h.finite r
  · intro r
    rw [e3]
    by_cases hr : i < r
    · exact (helim r hr).2.2
    · rw [hsame r hr]
      have := h.size r
      change |rv (y r)| ≤ G at this
      linarith
  · intro r
    have e : lowerRest M (i.val + 1) (lowerStep M y i) r = lowerRest M i.val y r +
        (if i < r then rv (lowerStep M y i r) - (rv (y r) - rv (y i) * rv (M r i)) else 0) := by
      unfold lowerRest
      rw [sum_if_succ (fun j => lowerPart (vals M) r j * rv (lowerStep M y i j)) i, add_assoc, add_assoc]
      congr 1
      · apply Finset.sum_congr rfl
        intro j _
        by_cases hj : j.val < i.val
        · rw [if_pos hj, if_pos hj, hsame j (not_lt.2 (Fin.le_def.2 hj.le))]
        · rw [if_neg hj, if_neg hj]
      · rw [hsame i (lt_irrefl _)]
        unfold lowerPart vals
        rcases lt_trichotomy r i with hr | rfl | hr
        · have h3 : r.val < i.val := hr
          rw [if_neg (not_lt.2 hr.le), if_neg hr.ne', zero_mul, zero_add, if_neg (by omega), if_neg (by omega),
            if_neg (not_lt.2 hr.le), add_zero]
        · have h5 : ¬ r.val + 1 ≤ r.val := by omega
          rw [if_neg h5, if_pos le_rfl, if_neg (lt_irrefl _), if_neg (lt_irrefl _), if_pos rfl, _root_.one_mul]
        · have h3 : i.val < r.val := hr
          rw [if_pos hr, if_pos (by omega), if_pos h3.le, if_pos hr]
          ring
    have h1 : |rv (b r) - lowerRest M i.val y r| ≤ 3 * ur * G := h.error r
    rw [e, e3, ← sub_sub]
    refine (abs_sub _ _).trans ?_
    have huG : 0 ≤ ur * G := by positivity
    have h2 : |(if i < r then rv (lowerStep M y i r) - (rv (y r) - rv (y i) * rv (M r i)) else 0)| ≤ 5 * ur * G := by
      split_ifs with hr
      · exact (helim r hr).2.1
      · rw [abs_zero]; linarith
    clear_value G
    clear h3 hGl hyi
    linarith

/-- The lower system. -/
theorem lower_float {M : Mat F64 n} {b : Vec F64 n} (hM : ∀ r k, (M r k).IsFinite)
    (hl : ∀ r j : Fin n, j < r → |rv (M r j)| ≤ 1 + 3 * ur) (h3 : (3 : ℝ) ^ n ≤ 2 ^ 900) (hb : ∀ r, (b r).IsFinite)
    (hb1 : ∀ r, |rv (b r)| ≤ 1) : LowerInv M b n (solveLower M b) := by
  unfold solveLower
  have hu := ur_pos
  refine foldl_finRange (lowerStep M) (fun i y => LowerInv M b i y) _ ⟨hb, fun r => by rw [pow_zero]; exact hb1 r, fun r => ?_⟩
    fun i y h => lowerInv_step hM hl ((pow_le_pow_right₀ (by norm_num) i.2.le).trans h3) h
  have e : lowerRest M 0 b r = rv (b r) := by simp [lowerRest]
  rw [e, sub_self, abs_zero]
  positivity

/-! ## The upper system -/

/-- One division, as numbers. -/
theorem upper_div_arith {u τ G β D Y p x z : ℝ} (hu : 0 < u) (hu1 : u ≤ 1 / 1000) (hY : 0 ≤ Y) (hYD : Y ≤ D)
    (hGτ : G * τ ≤ u * Y / 8) (hτ : 0 ≤ τ) (hG : 0 ≤ G) (hβ : 0 ≤ β) (hp0 : 1 ≤ 2 * β * |p|) (hp1 : |p| ≤ G)
    (hx : |x| ≤ 9 / 8 * D) (hz : |z - x / p| ≤ |x / p| * u + τ) :
    G * |z| ≤ 3 * (β * G) * D ∧ |x - z * p| ≤ 2 * u * D ∧ 1 ≤ 2 * (β * G) ∧ |x / p| ≤ 9 / 4 * (β * D) := by
  have hp : 0 < |p| := by
    rcases (_root_.abs_nonneg p).eq_or_lt with h | h
    · rw [← h, mul_zero] at hp0; linarith
    · exact h
  have hpne : p ≠ 0 := abs_pos.1 hp
  have hD : 0 ≤ D := hY.trans hYD
  have hβG : 1 ≤ 2 * (β * G) := by
    have := mul_le_mul_of_nonneg_left hp1 (show 0 ≤ 2 * β by positivity)
    linarith
  have hxp : |x / p| ≤ 9 / 4 * (β * D) := by
    rw [abs_div, div_le_iff₀ hp]
    have h1 := mul_le_mul_of_nonneg_right hp0 (show 0 ≤ 9 / 8 * D by positivity)
    calc |x| ≤ 9 / 8 * D := hx
      _ ≤ 2 * β * |p| * (9 / 8 * D) := by linarith
      _ = _ := by ring
  refine ⟨?_, ?_, hβG, hxp⟩
  · have h1 : |z| ≤ |x / p| * (1 + u) + τ := by
      have e : z = (z - x / p) + x / p := by ring
      rw [e]
      refine (abs_add_le _ _).trans ?_
      linarith
    have h2 : |z| ≤ 9 / 4 * (β * D) * (1 + u) + τ :=
      h1.trans (add_le_add_left (mul_le_mul_of_nonneg_right hxp (by linarith)) _)
    have h3 := mul_le_mul_of_nonneg_left h2 hG
    have hβGD : 0 ≤ β * G * D := by positivity
    have h4 : u * (β * G * D) ≤ 1 / 1000 * (β * G * D) := mul_le_mul_of_nonneg_right hu1 hβGD
    have h5 : u * Y / 8 ≤ 1 / 1000 * D := by
      have := mul_le_mul hu1 hYD hY (by norm_num)
      have : 0 ≤ u * Y := by positivity
      linarith
    have h6 : D ≤ 2 * (β * G) * D := by
      have := mul_le_mul_of_nonneg_right hβG hD
      linarith
    have e : G * (9 / 4 * (β * D) * (1 + u) + τ) = 9 / 4 * (β * G * D) + 9 / 4 * (u * (β * G * D)) + G * τ := by ring
    rw [e] at h3
    linarith
  · have e : x - z * p = -(z - x / p) * p := by field_simp; ring
    rw [e, abs_mul, _root_.abs_neg]
    have h1 := mul_le_mul_of_nonneg_right hz hp.le
    have e2 : (|x / p| * u + τ) * |p| = |x| * u + |p| * τ := by rw [abs_div]; field_simp
    rw [e2] at h1
    have h2 := mul_le_mul_of_nonneg_right hx hu.le
    have h3 := mul_le_mul_of_nonneg_right hp1 hτ
    have h4 := mul_le_mul_of_nonneg_left hYD hu.le
    have h5 : 0 ≤ u * Y := by positivity
    linarith

/-- One subtraction, as numbers. -/
theorem upper_elim_arith {u τ G D Y z m c t s : ℝ} (hu : 0 < u) (hu1 : u ≤ 1 / 1000) (hY : 0 ≤ Y) (hYD : Y ≤ D)
    (hτ : τ ≤ u * Y / 8) (hm : |m| ≤ G) (hc : |c| ≤ 9 / 8 * D)
    (ht : |t - -z * m| ≤ |-z * m| * u + τ) :
    |t + c| ≤ 2 * (D + G * |z|) ∧
    (|s - (t + c)| ≤ |t + c| * u → |s - (c - z * m)| ≤ 4 * u * (D + G * |z|)) := by
  have hG : 0 ≤ G := (_root_.abs_nonneg _).trans hm
  have hD : 0 ≤ D := hY.trans hYD
  have hz := _root_.abs_nonneg z
  have hzm : |-z * m| ≤ G * |z| := by
    rw [abs_mul, _root_.abs_neg, _root_.mul_comm]
    exact mul_le_mul_of_nonneg_right hm hz
  have hGz : 0 ≤ G * |z| := by positivity
  have huGz : u * (G * |z|) ≤ 1 / 1000 * (G * |z|) := mul_le_mul_of_nonneg_right hu1 hGz
  have huGz0 : 0 ≤ u * (G * |z|) := by positivity
  have huD : u * D ≤ 1 / 1000 * D := mul_le_mul_of_nonneg_right hu1 hD
  have huD0 : 0 ≤ u * D := by positivity
  have huY : u * Y ≤ u * D := mul_le_mul_of_nonneg_left hYD hu.le
  have h1 : |t - -z * m| ≤ u * (G * |z|) + u * D / 8 := by
    have := mul_le_mul_of_nonneg_right hzm hu.le
    linarith
  have h2 : |t + c| ≤ 2 * (D + G * |z|) := by
    have e : t + c = (t - -z * m) + (-z * m) + c := by ring
    rw [e]
    refine (abs_add_le _ _).trans ?_
    have := abs_add_le (t - -z * m) (-z * m)
    linarith
  refine ⟨h2, fun hs => ?_⟩
  have e : s - (c - z * m) = (s - (t + c)) + (t - -z * m) := by ring
  rw [e]
  refine (abs_add_le _ _).trans ?_
  have h3 := mul_le_mul_of_nonneg_right h2 hu.le
  have e2 : 4 * u * (D + G * |z|) = 4 * (u * D) + 4 * (u * (G * |z|)) := by ring
  have e3 : 2 * (D + G * |z|) * u = 2 * (u * D) + 2 * (u * (G * |z|)) := by ring
  rw [e2]
  rw [e3] at h3
  linarith

theorem sum_if_ge {K : Type} [AddCommGroup K] (f : Fin n → K) (i : Fin n) : ∑ j : Fin n, (if i.val ≤ j.val then f j else 0) =
    ∑ j : Fin n, (if i.val + 1 ≤ j.val then f j else 0) + f i := by
  rw [← Finset.sum_erase_add _ _ (Finset.mem_univ i),
    ← Finset.sum_erase_add (a := i) _ (fun j => if i.val + 1 ≤ j.val then f j else 0) (Finset.mem_univ i)]
  rw [if_pos le_rfl, if_neg (by omega), add_zero]
  congr 1
  apply Finset.sum_congr rfl
  intro j hj
  have : j.val ≠ i.val := fun h => (Finset.mem_erase.1 hj).1 (Fin.ext h)
  by_cases h : i.val ≤ j.val
  · rw [if_pos h, if_pos (by omega)]
  · rw [if_neg h, if_neg (by omega)]

/-- What the unknowns from `i` on contribute. -/
noncomputable def upperRest (M : Mat F64 n) (i : Nat) (x : Vec F64 n) (r : Fin n) : ℝ :=
  ∑ j : Fin n, (if i ≤ j.val then upperPart (vals M) r j * rv (x j) else 0) + (if r.val < i then rv (x r) else 0)

/-- The scale of the numbers from `i` on. -/
noncomputable def upperScale (G Y : ℝ) (i : Nat) (x : Vec F64 n) : ℝ :=
  Y + G * ∑ j : Fin n, (if i ≤ j.val then |rv (x j)| else 0)

structure UpperInv (M : Mat F64 n) (b : Vec F64 n) (G β Y : ℝ) (i : Nat) (x : Vec F64 n) : Prop where
  finite : ∀ r, (x r).IsFinite
  size : upperScale G Y i x ≤ Y * (5 * (β * G)) ^ (n - i)
  error : ∀ r, |rv (b r) - upperRest M i x r| ≤ 4 * ur * (n - i : ℕ) * upperScale G Y i x

theorem upperScale_ge {G Y : ℝ} (hG : 0 ≤ G) (i : Nat) (x : Vec F64 n) : Y ≤ upperScale G Y i x := by
  unfold upperScale
  have : 0 ≤ ∑ j : Fin n, (if i ≤ j.val then |rv (x j)| else 0) := Finset.sum_nonneg fun j _ => by
    split_ifs
    · exact _root_.abs_nonneg _
    · exact le_rfl
  have := _root_.mul_nonneg hG this
  linarith

/-- The right-hand sides stay below the scale. -/
theorem upper_current {M : Mat F64 n} {b x : Vec F64 n} {G β Y : ℝ} {i : Nat} (h : UpperInv M b G β Y i x)
    (hG : 0 ≤ G) (hY : 0 ≤ Y) (hb : ∀ r, |rv (b r)| ≤ Y) (hM : ∀ r k : Fin n, r ≤ k → |rv (M r k)| ≤ G)
    (hnu : 4 * ur * n ≤ 1 / 8) {r : Fin n} (hr : r.val < i) : |rv (x r)| ≤ 9 / 8 * upperScale G Y i x := by
  have h1 := h.error r
  have hu := ur_pos
  set D := upperScale G Y i x with hD
  have hDY : Y ≤ D := upperScale_ge hG i x
  have hD0 : 0 ≤ D := hY.trans hDY
  have h2 : 4 * ur * (n - i : ℕ) * D ≤ 1 / 8 * D := by
    refine mul_le_mul_of_nonneg_right (le_trans ?_ hnu) hD0
    refine mul_le_mul_of_nonneg_left ?_ (by positivity)
    exact_mod_cast Nat.sub_le n i
  have h3 : |∑ j : Fin n, (if i ≤ j.val then upperPart (vals M) r j * rv (x j) else 0)| ≤
      G * ∑ j : Fin n, (if i ≤ j.val then |rv (x j)| else 0) := by
    refine (Finset.abs_sum_le_sum_abs _ _).trans ?_
    rw [Finset.mul_sum]
    refine Finset.sum_le_sum fun j _ => ?_
    split_ifs with hj
    · rw [abs_mul]
      refine mul_le_mul_of_nonneg_right ?_ (_root_.abs_nonneg _)
      unfold upperPart vals
      split_ifs with hrj
      · exact hM r j hrj
      · rw [abs_zero]; exact hG
    · simp
  unfold upperRest at h1
  rw [if_pos hr] at h1
  set S := ∑ j : Fin n, (if i ≤ j.val then upperPart (vals M) r j * rv (x j) else 0) with hS
  have e : rv (x r) = rv (b r) - S - (rv (b r) - (S + rv (x r))) := by ring
  rw [e]
  refine (abs_sub _ _).trans ?_
  have h4 := abs_sub (rv (b r)) S
  have h5 := hb r
  have h6 : D = Y + G * ∑ j : Fin n, (if i ≤ j.val then |rv (x j)| else 0) := hD
  linarith

theorem upperInv_step {M : Mat F64 n} {b x : Vec F64 n} {G β Y : ℝ} {i : Fin n} (h : UpperInv M b G β Y (i.val + 1) x)
    (hMf : ∀ r k, (M r k).IsFinite) (hG : 0 ≤ G) (hY : 1 ≤ Y) (hb : ∀ r, |rv (b r)| ≤ Y)
    (hM : ∀ r k : Fin n, r ≤ k → |rv (M r k)| ≤ G) (hnu : 4 * ur * n ≤ 1 / 8) (hβ : 0 ≤ β)
    (hpiv : ∀ j, 1 ≤ 2 * β * |rv (M j j)|) (hGτ : G * tr ≤ ur * Y / 8) (hβ2 : β ≤ 2 ^ 90)
    (hbig : Y * (5 * (β * G)) ^ n ≤ 2 ^ 900) : ∃ x', upperStep M (some x) i = some x' ∧ UpperInv M b G β Y i x' := by
  have hu := ur_pos
  have hu1 := ur_small
  have hτ0 := tr_nonneg
  have hY0 : 0 ≤ Y := zero_le_one.trans hY
  set D := upperScale G Y (i.val + 1) x with hD
  have hYD : Y ≤ D := upperScale_ge hG _ x
  have hD0 : 0 ≤ D := hY0.trans hYD
  have hp := hpiv i
  have hne : rv (M i i) ≠ 0 := by
    intro h0
    rw [h0, abs_zero, mul_zero] at hp
    linarith
  have hτ : tr ≤ ur * Y / 8 := by
    have h1 : tr ≤ ur * 2 ^ (-3 : ℤ) := tr_le.trans
      (mul_le_mul_of_nonneg_left (zpow_le_zpow_right₀ (by norm_num) (by norm_num)) hu.le)
    have h2 : ur * 1 ≤ ur * Y := mul_le_mul_of_nonneg_left hY hu.le
    have e : ur * 2 ^ (-3 : ℤ) = ur / 8 := by norm_num [div_eq_mul_inv]
    rw [e] at h1
    linarith
  have hcur : ∀ r : Fin n, r ≤ i → |rv (x r)| ≤ 9 / 8 * D := fun r hr =>
    upper_current h hG hY0 hb hM hnu (Nat.lt_succ_of_le hr)
  have hβG : 1 ≤ 2 * (β * G) := by
    have := mul_le_mul_of_nonneg_left (hM i i le_rfl) (show 0 ≤ 2 * β by positivity)
    linarith
  have h5 : 1 ≤ 5 * (β * G) := by linarith
  have hDn : D * (5 * (β * G)) ≤ Y * (5 * (β * G)) ^ (n - i.val) := by
    have := mul_le_mul_of_nonneg_right h.size (show 0 ≤ 5 * (β * G) by linarith)
    rw [_root_.mul_assoc, ← pow_succ, show n - (i.val + 1) + 1 = n - i.val by omega] at this
    exact this
  have hDbig : D * (5 * (β * G)) ≤ 2 ^ 900 := by
    refine hDn.trans (le_trans ?_ hbig)
    exact mul_le_mul_of_nonneg_left (pow_le_pow_right₀ h5 (Nat.sub_le _ _)) hY0
  have hDbig' : D ≤ 2 ^ 900 := by
    have := mul_le_mul_of_nonneg_left h5 hD0
    rw [_root_.mul_one] at this
    exact this.trans hDbig
  have h1000 : (8 : ℝ) * 2 ^ 900 ≤ 2 ^ 1000 := by
    calc (8 : ℝ) * 2 ^ 900 = 2 ^ 903 := by rw [pow_add 2 900 3]; ring
      _ ≤ _ := pow_le_pow_right₀ (by norm_num) (by norm_num)
  -- the division
  have hq : |rv (x i) / rv (M i i)| ≤ 9 / 4 * (β * D) :=
    (upper_div_arith (z := rv (x i) / rv (M i i)) hu hu1 hY0 hYD hGτ hτ0 hG hβ hp (hM i i le_rfl) (hcur i le_rfl)
      (by rw [sub_self, abs_zero]; positivity)).2.2.2
  have hq2 : |rv (x i) / rv (M i i)| ≤ 2 ^ 1000 := by
    refine hq.trans ?_
    have h1 : β * D ≤ 2 ^ 90 * 2 ^ 900 := mul_le_mul hβ2 hDbig' hD0 (by positivity)
    have h2 : (9 / 4 : ℝ) * (2 ^ 90 * 2 ^ 900) ≤ 2 ^ 1000 := by
      have : (2 : ℝ) ^ 1000 = 2 ^ 10 * (2 ^ 90 * 2 ^ 900) := by rw [← pow_add, ← pow_add]
      rw [this]
      exact mul_le_mul_of_nonneg_right (by norm_num) (by positivity)
    exact (mul_le_mul_of_nonneg_left h1 (by norm_num)).trans h2
  obtain ⟨fz, ez⟩ := rv_div (h.finite i) (hMf i i) hne hq2
  set z := Fl.div (x i) (M i i) with hz
  obtain ⟨hGz, hxz, -, -⟩ := upper_div_arith hu hu1 hY0 hYD hGτ hτ0 hG hβ hp (hM i i le_rfl) (hcur i le_rfl) ez
  have hz0 := _root_.abs_nonneg (rv z)
  have hGz0 : 0 ≤ G * |rv z| := by positivity
  have hscale : D + G * |rv z| ≤ D * (5 * (β * G)) := by
    have := mul_le_mul_of_nonneg_left hβG hD0
    linarith
  have hsb : 2 * (D + G * |rv z|) ≤ 2 ^ 1000 := by
    refine le_trans ?_ h1000
    generalize (2 : ℝ) ^ 900 = P at *
    linarith
  -- the new vector
  refine ⟨_, by unfold upperStep; rw [Option.bind_some, if_neg (by rw [fl_isZero_false (hMf i i) (rv_ne hne)]; simp)], ?_⟩
  set x' : Vec F64 n := fun r => if r = i then x i /ᶠ M i i
      else if r < i then Scalar.neg (x i /ᶠ M i i) *ᶠ M r i +ᶠ x r else x r with hx'
  have xi : x' i = z := by simp only [hx', if_true]; rfl
  have xlt : ∀ r, r < i → x' r = Fl.add (Fl.mul (Fl.neg z) (M r i)) (x r) := by
    intro r hr
    simp only [hx', if_neg hr.ne, if_pos hr]; rfl
  have xgt : ∀ r, i < r → x' r = x r := by
    intro r hr
    simp only [hx', if_neg hr.ne', if_neg (not_lt.2 hr.le)]
  have helim : ∀ r, r < i → (x' r).IsFinite ∧ |rv (x' r) - (rv (x r) - rv z * rv (M r i))| ≤ 4 * ur * (D + G * |rv z|) := by
    intro r hr
    have hzm : |rv (Fl.neg z) * rv (M r i)| ≤ G * |rv z| := by
      rw [rv_neg, abs_mul, _root_.abs_neg, _root_.mul_comm]
      exact mul_le_mul_of_nonneg_right (hM r i hr.le) hz0
    obtain ⟨ft, et⟩ := rv_mul (fl_neg_finite fz) (hMf r i) (hzm.trans (le_trans (by linarith) hsb))
    rw [rv_neg] at et
    obtain ⟨h1, h2⟩ := upper_elim_arith (s := rv (x' r)) hu hu1 hY0 hYD hτ (hM r i hr.le) (hcur r hr.le) et
    obtain ⟨fs, es⟩ := rv_add ft (h.finite r) (h1.trans hsb)
    rw [← xlt r hr] at fs es
    exact ⟨fs, h2 es⟩
  have hscale' : upperScale G Y i.val x' = D + G * |rv z| := by
    unfold upperScale at hD ⊢
    rw [sum_if_ge (fun j => |rv (x' j)|) i, xi, hD, mul_add, ← add_assoc]
    congr 3
    apply Finset.sum_congr rfl
    intro j _
    split_ifs with hj
    · rw [xgt j (Fin.lt_def.2 (by omega))]
    · rfl
  refine ⟨?_, ?_, ?_⟩
  · intro r
    rcases lt_trichotomy r i with hr | rfl | hr
    · exact (helim r hr).1
    · rw [xi]; exact fz
    · rw [xgt r hr]; exact h.finite r
  · rw [hscale']
    exact hscale.trans hDn
  · intro r
    rw [hscale']
    have h1 : |rv (b r) - upperRest M (i.val + 1) x r| ≤ 4 * ur * (n - (i.val + 1) : ℕ) * D := h.error r
    have e : upperRest M i.val x' r = upperRest M (i.val + 1) x r +
        (if r < i then rv (x' r) - (rv (x r) - rv z * rv (M r i)) else if r = i then rv z * rv (M i i) - rv (x i) else 0) := by
      unfold upperRest
      rw [sum_if_ge (fun j => upperPart (vals M) r j * rv (x' j)) i, add_assoc, add_assoc, xi]
      congr 1
      · apply Finset.sum_congr rfl
        intro j _
        split_ifs with hj
        · rw [xgt j (Fin.lt_def.2 (by omega))]
        · rfl
      · unfold upperPart vals
        rcases lt_trichotomy r i with hr | rfl | hr
        · have h3 : r.val < i.val := hr
          have h4 : r.val < i.val + 1 := by omega
          rw [if_pos hr.le, if_pos h3, if_pos h4, if_pos hr]
          ring
        · have h4 : r.val < r.val + 1 := by omega
          rw [if_pos le_rfl, if_neg (lt_irrefl _), if_pos h4, if_neg (lt_irrefl _), if_pos rfl]
          ring
        · have h3 : i.val < r.val := hr
          have h4 : ¬ r.val < i.val := by omega
          have h5 : ¬ r.val < i.val + 1 := by omega
          rw [if_neg (not_le.2 hr), if_neg h4, if_neg h5, if_neg (not_lt.2 hr.le), if_neg hr.ne']
          ring
    have h2 : |(if r < i then rv (x' r) - (rv (x r) - rv z * rv (M r i)) else if r = i then rv z * rv (M i i) - rv (x i) else 0)|
        ≤ 4 * ur * (D + G * |rv z|) := by
      have huD : 0 ≤ ur * D := by positivity
      have huz : 0 ≤ ur * (G * |rv z|) := by positivity
      split_ifs with hr hr
      · exact (helim r hr).2
      · rw [abs_sub_comm]
        linarith
      · rw [abs_zero]; linarith
    rw [e, ← sub_sub]
    refine (abs_sub _ _).trans ?_
    have hcast : ((n - i.val : ℕ) : ℝ) = (n - (i.val + 1) : ℕ) + 1 := by
      have : n - i.val = n - (i.val + 1) + 1 := by omega
      rw [this]; push_cast; rfl
    rw [hcast]
    have h3 : 4 * ur * (n - (i.val + 1) : ℕ) * D ≤ 4 * ur * (n - (i.val + 1) : ℕ) * (D + G * |rv z|) :=
      mul_le_mul_of_nonneg_left (by linarith) (by positivity)
    calc _ ≤ 4 * ur * (n - (i.val + 1) : ℕ) * (D + G * |rv z|) + 4 * ur * (D + G * |rv z|) := add_le_add (h1.trans h3) h2
      _ = _ := by ring

/-- The upper system. -/
theorem upper_float {M : Mat F64 n} {b : Vec F64 n} {G β Y : ℝ} (hbf : ∀ r, (b r).IsFinite)
    (hMf : ∀ r k, (M r k).IsFinite) (hG : 0 ≤ G) (hY : 1 ≤ Y) (hb : ∀ r, |rv (b r)| ≤ Y)
    (hM : ∀ r k : Fin n, r ≤ k → |rv (M r k)| ≤ G) (hnu : 4 * ur * n ≤ 1 / 8) (hβ : 0 ≤ β)
    (hpiv : ∀ j, 1 ≤ 2 * β * |rv (M j j)|) (hGτ : G * tr ≤ ur * Y / 8) (hβ2 : β ≤ 2 ^ 90)
    (hbig : Y * (5 * (β * G)) ^ n ≤ 2 ^ 900) : ∃ x, solveUpper M b = some x ∧ UpperInv M b G β Y 0 x := by
  unfold solveUpper
  refine foldl_finRange_reverse (upperStep M) (fun i o => ∃ x, o = some x ∧ UpperInv M b G β Y i x) (some b)
    ⟨b, rfl, hbf, ?_, fun r => ?_⟩ fun i o h => ?_
  · have e : ∑ j : Fin n, (if n ≤ j.val then |rv (b j)| else 0) = 0 := Finset.sum_eq_zero fun j _ => if_neg (by omega)
    unfold upperScale
    rw [e, mul_zero, add_zero, Nat.sub_self, pow_zero, _root_.mul_one]
  · have e : upperRest M n b r = rv (b r) := by
      unfold upperRest
      rw [if_pos r.2, Finset.sum_eq_zero, zero_add]
      intro j _
      rw [if_neg (by omega)]
    rw [e, sub_self, abs_zero, Nat.sub_self, Nat.cast_zero, mul_zero, zero_mul]
  · obtain ⟨x, rfl, h⟩ := h
    exact upperInv_step h hMf hG hY hb hM hnu hβ hpiv hGτ hβ2 hbig

end
end Nrf
