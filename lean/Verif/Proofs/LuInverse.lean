import Verif.Proofs.LuSolve
import Mathlib.Analysis.Matrix.Normed

/-!
# The accuracy of the LU inverse in binary64
-/

set_option linter.unusedSectionVars false

namespace Nrf
open Fl

section
variable {n : Nat} {J : Mat F64 n} {α β : ℝ}

/-- The residual of one column, in terms of the size of the column. -/
theorem column_residual {b y x : Vec F64 n} {s : Mat F64 n × (Fin n → Fin n)} (hα : 0 ≤ α) (h : LuInv J α β n s)
    (hy : LowerInv s.1 b n y) (hx : UpperInv s.1 y (3 ^ n * α) β (3 ^ n) 0 x) (r : Fin n) :
    |∑ k, rv (J (s.2 r) k) * rv (x k) - rv (b r)| ≤
      ur * (3 + 8 * (n : ℝ) ^ 2) * (3 ^ n + 3 ^ n * α * ∑ k, |rv (x k)|) := by
  have hu := ur_pos
  have hu1 := ur_small
  set G := 3 ^ n * α with hG
  have hG0 : 0 ≤ G := by positivity
  set D := 3 ^ n + G * ∑ k, |rv (x k)| with hD
  have hS0 : 0 ≤ ∑ k, |rv (x k)| := Finset.sum_nonneg fun k _ => _root_.abs_nonneg _
  have h30 : (0 : ℝ) ≤ 3 ^ n := by positivity
  have hD0 : 0 ≤ D := by positivity
  set Lw := lowerPart (vals s.1) with hLw
  set Up := upperPart (vals s.1) with hUp
  have hprod : ∀ k, partialProduct n s.1 r k = ∑ j, Lw r j * Up j k := by
    intro k
    unfold partialProduct
    rw [if_neg (by omega), add_zero]
    apply Finset.sum_congr rfl
    intro j _
    rw [if_pos j.2]
  have hyr : |rv (b r) - ∑ j, Lw r j * rv (y j)| ≤ 3 * ur * 3 ^ n := by
    have := hy.error r
    unfold lowerRest at this
    rw [if_neg (by omega), add_zero] at this
    simpa using this
  have hxr : ∀ j, |rv (y j) - ∑ k, Up j k * rv (x k)| ≤ 4 * ur * n * D := by
    intro j
    have := hx.error j
    unfold upperRest upperScale at this
    rw [if_neg (by omega), add_zero] at this
    simpa using this
  have hL : ∀ j, |Lw r j| ≤ 2 := by
    intro j
    simp only [hLw, lowerPart, vals]
    split_ifs with h1 h2
    · exact (h.lower r j j.2 h1).trans (by linarith)
    · norm_num
    · norm_num
  have e1 : ∑ k, rv (J (s.2 r) k) * rv (x k) - rv (b r) =
      ∑ k, (rv (J (s.2 r) k) - partialProduct n s.1 r k) * rv (x k) -
        ∑ j, Lw r j * (rv (y j) - ∑ k, Up j k * rv (x k)) - (rv (b r) - ∑ j, Lw r j * rv (y j)) := by
    have e2 : ∑ k, partialProduct n s.1 r k * rv (x k) = ∑ j, Lw r j * ∑ k, Up j k * rv (x k) := by
      simp only [hprod, Finset.sum_mul, Finset.mul_sum]
      rw [Finset.sum_comm]
      simp only [_root_.mul_assoc]
    simp only [sub_mul, mul_sub, Finset.sum_sub_distrib]
    rw [e2]
    ring
  have b1 : |∑ k, (rv (J (s.2 r) k) - partialProduct n s.1 r k) * rv (x k)| ≤ 3 * ur * G * ∑ k, |rv (x k)| := by
    refine (Finset.abs_sum_le_sum_abs _ _).trans ?_
    rw [Finset.mul_sum]
    refine Finset.sum_le_sum fun k _ => ?_
    rw [abs_mul]
    exact mul_le_mul_of_nonneg_right (h.error r k) (_root_.abs_nonneg _)
  have b2 : |∑ j, Lw r j * (rv (y j) - ∑ k, Up j k * rv (x k))| ≤ n * (2 * (4 * ur * n * D)) := by
    refine (Finset.abs_sum_le_sum_abs _ _).trans ?_
    refine (Finset.sum_le_sum (g := fun _ => 2 * (4 * ur * n * D)) fun j _ => ?_).trans ?_
    · rw [abs_mul]
      exact mul_le_mul (hL j) (hxr j) (_root_.abs_nonneg _) (by norm_num)
    · rw [Finset.sum_const, Finset.card_univ, Fintype.card_fin, nsmul_eq_mul]
  rw [e1]
  refine (abs_sub _ _).trans ?_
  have h1 := abs_sub (∑ k, (rv (J (s.2 r) k) - partialProduct n s.1 r k) * rv (x k))
    (∑ j, Lw r j * (rv (y j) - ∑ k, Up j k * rv (x k)))
  have e3 : ur * (3 + 8 * (n : ℝ) ^ 2) * D =
      3 * ur * 3 ^ n + 3 * ur * G * ∑ k, |rv (x k)| + n * (2 * (4 * ur * n * D)) := by
    rw [hD]; ring
  rw [e3]
  linarith

/-- The size and the residual of one column, as numbers. -/
theorem column_arith {w t3 G N X S β res : ℝ} (hw : 0 ≤ w) (hN : 0 ≤ N) (hG : 0 ≤ G) (hβ : 0 ≤ β)
    (hS : S ≤ N * X) (hres : res ≤ w * (t3 + G * S)) (hX : X ≤ β * (1 + w * (t3 + G * S)))
    (h1 : w * t3 ≤ 1 / 4) (h2 : β * (w * (G * N)) ≤ 1 / 4) :
    X ≤ 2 * β ∧ res ≤ w * (t3 + 2 * (G * N * β)) := by
  have h3 : G * S ≤ G * (N * X) := mul_le_mul_of_nonneg_left hS hG
  have h4 : w * (G * S) ≤ w * (G * (N * X)) := mul_le_mul_of_nonneg_left h3 hw
  have hX2 : X ≤ 2 * β := by
    have h5 := mul_le_mul_of_nonneg_left h4 hβ
    have h6 := mul_le_mul_of_nonneg_left h1 hβ
    have e : β * (w * (G * (N * X))) = β * (w * (G * N)) * X := by ring
    rw [e] at h5
    have e2 : β * (1 + w * (t3 + G * S)) = β + β * (w * t3) + β * (w * (G * S)) := by ring
    rw [e2] at hX
    rcases le_total X 0 with hX0 | hX0
    · linarith
    · have h7 := mul_le_mul_of_nonneg_right h2 hX0
      linarith
  refine ⟨hX2, hres.trans ?_⟩
  refine mul_le_mul_of_nonneg_left ?_ hw
  have h8 : G * (N * X) ≤ G * (N * (2 * β)) := mul_le_mul_of_nonneg_left (mul_le_mul_of_nonneg_left hX2 hN) hG
  linarith

/-- The orders of magnitude under which the factorization works. -/
structure LuScale (n : Nat) (α β : ℝ) : Prop where
  size : 0 < n
  alphaLow : 2 ^ (-900 : ℤ) ≤ α
  alphaHigh : α ≤ 2 ^ 100
  betaLow : 0 ≤ β
  betaHigh : β ≤ 2 ^ 90
  product : 1 ≤ α * β
  growth : (3 : ℝ) ^ n ≤ 2 ^ 700
  solve : (3 : ℝ) ^ n * (5 * (β * (3 ^ n * α))) ^ n ≤ 2 ^ 900
  condition : 11 * (n : ℝ) ^ 3 * 3 ^ n * ur * (α * β) ≤ 1 / 4

theorem luInverse_column (h : LuScale n α β) (hf : ∀ r k, (J r k).IsFinite) (hJ : ∀ r k, |rv (J r k)| ≤ α)
    (hB : Bounded' J β) (j : Fin n) :
    ∃ x, solveUpper (lu J).1 (solveLower (lu J).1 (permutedUnit (lu J).2 j)) = some x ∧ (∀ r, (x r).IsFinite) ∧
      (∀ r, |rv (x r)| ≤ 2 * β) ∧
      ∀ r, |∑ k, rv (J r k) * rv (x k) - (1 : Matrix (Fin n) (Fin n) ℝ) r j| ≤ 33 * (n : ℝ) ^ 3 * 3 ^ n * ur * (α * β) := by
  have hu := ur_pos
  have hu1 := ur_small
  have hα : 0 < α := lt_of_lt_of_le (zpow_pos (by norm_num) _) h.alphaLow
  have hβ := h.betaLow
  have hκ := h.product
  have hN : (1 : ℝ) ≤ n := by exact_mod_cast h.size
  have h31 : (1 : ℝ) ≤ 3 ^ n := one_le_pow₀ (by norm_num)
  -- consequences of the condition
  obtain ⟨κ, hκd⟩ : ∃ κ, κ = α * β := ⟨_, rfl⟩
  obtain ⟨T, hT⟩ : ∃ T : ℝ, T = 3 ^ n := ⟨_, rfl⟩
  obtain ⟨N, hNd⟩ : ∃ N : ℝ, N = n := ⟨_, rfl⟩
  have hcond := h.condition
  rw [← hκd, ← hT, ← hNd] at hcond
  rw [← hκd] at hκ
  rw [← hNd] at hN
  rw [← hT] at h31
  have hN2 : 1 ≤ N ^ 2 := one_le_pow₀ hN
  have hN23 : N ^ 2 ≤ N ^ 3 := pow_le_pow_right₀ hN (by norm_num)
  have hN13 : N ≤ N ^ 3 := by
    calc N = N ^ 1 := (pow_one N).symm
      _ ≤ _ := pow_le_pow_right₀ hN (by norm_num)
  have hTu : 0 ≤ T * ur := by positivity
  have hTuκ : T * ur ≤ T * ur * κ := by
    have := mul_le_mul_of_nonneg_left hκ hTu
    linarith
  have huTuκ : ur ≤ T * ur * κ := by
    refine le_trans ?_ hTuκ
    have := mul_le_mul_of_nonneg_right h31 hu.le
    linarith
  have hpos : 0 ≤ T * ur * κ := by positivity
  have c1 : N * (T * ur * κ) ≤ 1 / 44 := by
    have := mul_le_mul_of_nonneg_right hN13 hpos
    have e : 11 * N ^ 3 * T * ur * κ = 11 * (N ^ 3 * (T * ur * κ)) := by ring
    linarith
  have c2 : N ^ 3 * (T * ur * κ) ≤ 1 / 44 := by
    have e : 11 * N ^ 3 * T * ur * κ = 11 * (N ^ 3 * (T * ur * κ)) := by ring
    linarith
  have c3 : N ^ 2 * (T * ur * κ) ≤ 1 / 44 := (mul_le_mul_of_nonneg_right hN23 hpos).trans c2
  have k1 : β * (n * (3 * ur * (3 ^ n * α))) ≤ 1 / 2 := by
    rw [← hT, ← hNd]
    have e : β * (N * (3 * ur * (T * α))) = 3 * (N * (T * ur * κ)) := by rw [hκd]; ring
    rw [e]; linarith
  have k2 : 4 * ur * n ≤ 1 / 8 := by
    rw [← hNd]
    have := mul_le_mul_of_nonneg_left huTuκ (show 0 ≤ N by linarith)
    linarith
  have hG2 : 3 ^ n * α ≤ 2 ^ 900 := by
    calc (3 : ℝ) ^ n * α ≤ 2 ^ 700 * 2 ^ 100 := mul_le_mul h.growth h.alphaHigh hα.le (by positivity)
      _ = 2 ^ 800 := by rw [← pow_add]
      _ ≤ _ := pow_le_pow_right₀ (by norm_num) (by norm_num)
  have hβ2 : 2 * β ≤ 2 ^ 900 := by
    calc 2 * β ≤ 2 * 2 ^ 90 := mul_le_mul_of_nonneg_left h.betaHigh (by norm_num)
      _ = 2 ^ 91 := by rw [pow_succ]; ring
      _ ≤ _ := pow_le_pow_right₀ (by norm_num) (by norm_num)
  have hlu := lu_float hf hJ hB hβ h.alphaLow hG2 hβ2 k1
  have hlow := lower_float (b := permutedUnit (lu J).2 j) hlu.finite (fun r j hj => hlu.lower r j j.2 hj)
    (h.growth.trans (pow_le_pow_right₀ (by norm_num) (by norm_num)))
    (fun r => by unfold permutedUnit; split_ifs <;> trivial)
    (fun r => by
      unfold permutedUnit
      split_ifs
      · change |rv Fl.one| ≤ 1; rw [rv_one, abs_one]
      · change |rv (.zero false)| ≤ 1; rw [rv_zero, abs_zero]; exact zero_le_one)
  have hGτ : 3 ^ n * α * tr ≤ ur * 3 ^ n / 8 := by
    have h1 : α * tr ≤ 2 ^ 100 * (ur * 2 ^ (-1000 : ℤ)) := mul_le_mul h.alphaHigh tr_le tr_nonneg (by positivity)
    have e : (2 : ℝ) ^ 100 * (ur * 2 ^ (-1000 : ℤ)) = ur * 2 ^ (-900 : ℤ) := by
      rw [← zpow_natCast, _root_.mul_left_comm, ← zpow_add₀ (by norm_num)]
      norm_num
    have h2 : ur * 2 ^ (-900 : ℤ) ≤ ur * 2 ^ (-3 : ℤ) :=
      mul_le_mul_of_nonneg_left (zpow_le_zpow_right₀ (by norm_num) (by norm_num)) hu.le
    have e2 : ur * 2 ^ (-3 : ℤ) = ur / 8 := by norm_num [div_eq_mul_inv]
    rw [e] at h1
    rw [e2] at h2
    have h3 := mul_le_mul_of_nonneg_left (h1.trans h2) (show (0 : ℝ) ≤ 3 ^ n by positivity)
    calc 3 ^ n * α * tr = 3 ^ n * (α * tr) := by ring
      _ ≤ _ := h3
      _ = _ := by ring
  obtain ⟨x, hx, hxi⟩ := upper_float (G := 3 ^ n * α) (β := β) (Y := 3 ^ n) hlow.finite hlu.finite (by positivity)
    (one_le_pow₀ (by norm_num)) hlow.size (fun r k hrk => hlu.upper r k (.inl hrk)) k2 hβ (fun i => hlu.pivots i i.2) hGτ
    h.betaHigh h.solve
  refine ⟨x, hx, hxi.finite, ?_⟩
  have hres := column_residual hα.le hlu hlow hxi
  have hunit : ∀ r, rv (permutedUnit (lu J).2 j r) = (1 : Matrix (Fin n) (Fin n) ℝ) ((lu J).2 r) j := by
    intro r
    unfold permutedUnit
    rw [Matrix.one_apply]
    split_ifs
    · exact rv_one
    · exact rv_zero
  have hres' : ∀ r, |∑ k, rv (J r k) * rv (x k) - (1 : Matrix (Fin n) (Fin n) ℝ) r j| ≤
      ur * (3 + 8 * N ^ 2) * (T + T * α * ∑ k, |rv (x k)|) := by
    intro r
    obtain ⟨r', rfl⟩ := hlu.bij.2 r
    have := hres r'
    rw [hunit r'] at this
    rw [hNd, hT]
    exact this
  set X := ‖fun k => rv (x k)‖ with hX
  have hXk : ∀ k, |rv (x k)| ≤ X := fun k => norm_le_pi_norm (fun k => rv (x k)) k
  have hS : ∑ k, |rv (x k)| ≤ N * X := by
    refine (Finset.sum_le_sum fun k _ => hXk k).trans ?_
    rw [Finset.sum_const, Finset.card_univ, Fintype.card_fin, nsmul_eq_mul, hNd]
  set w := ur * (3 + 8 * N ^ 2) with hwd
  have hw0 : 0 ≤ w := by positivity
  have hw1 : w ≤ 11 * (N ^ 2 * ur) := by
    have := mul_le_mul_of_nonneg_right hN2 hu.le
    rw [hwd]
    linarith
  have hXb : X ≤ β * (1 + w * (T + T * α * ∑ k, |rv (x k)|)) := by
    have hS0 : 0 ≤ ∑ k, |rv (x k)| := Finset.sum_nonneg fun k _ => _root_.abs_nonneg _
    have hB' := hB (fun k => rv (x k)) (1 + w * (T + T * α * ∑ k, |rv (x k)|)) (by
      intro r
      have h1 := hres' r
      have h2 : |(1 : Matrix (Fin n) (Fin n) ℝ) r j| ≤ 1 := by
        rw [Matrix.one_apply]
        split_ifs <;> norm_num
      have h3 := abs_sub_abs_le_abs_sub (∑ k, rv (J r k) * rv (x k)) ((1 : Matrix (Fin n) (Fin n) ℝ) r j)
      linarith)
    exact (pi_norm_le_iff_of_nonneg (by positivity)).2 hB'
  have a1 : w * T ≤ 1 / 4 := by
    have h1 := mul_le_mul_of_nonneg_right hw1 (show 0 ≤ T by linarith)
    have h2 := mul_le_mul_of_nonneg_left hTuκ (show 0 ≤ N ^ 2 by positivity)
    have e : 11 * (N ^ 2 * ur) * T = 11 * (N ^ 2 * (T * ur)) := by ring
    linarith
  have a2 : β * (w * (T * α * N)) ≤ 1 / 4 := by
    have h1 := mul_le_mul_of_nonneg_right hw1 (show 0 ≤ T * κ * N by positivity)
    have e : β * (w * (T * α * N)) = w * (T * κ * N) := by rw [hκd]; ring
    have e2 : 11 * (N ^ 2 * ur) * (T * κ * N) = 11 * (N ^ 3 * (T * ur * κ)) := by ring
    linarith
  have hT0 : 0 ≤ T := by linarith
  constructor
  · intro r
    refine (hXk r).trans ?_
    exact (column_arith (res := 0) hw0 (by linarith) (by positivity) hβ hS
      (by have : 0 ≤ ∑ k, |rv (x k)| := Finset.sum_nonneg fun k _ => _root_.abs_nonneg _
          positivity) hXb a1 a2).1
  · intro r
    refine (column_arith hw0 (by linarith) (by positivity) hβ hS (hres' r) hXb a1 a2).2.trans ?_
    rw [← hNd, ← hT, ← hκd]
    have e : w * (T + 2 * (T * α * N * β)) = w * (T * (1 + 2 * (κ * N))) := by rw [hκd]; ring
    rw [e]
    have h1 : 1 ≤ κ * N := by
      have := mul_le_mul hκ hN zero_le_one (by linarith)
      linarith
    have h2 : T * (1 + 2 * (κ * N)) ≤ T * (3 * (κ * N)) := mul_le_mul_of_nonneg_left (by linarith) hT0
    calc w * (T * (1 + 2 * (κ * N))) ≤ 11 * (N ^ 2 * ur) * (T * (3 * (κ * N))) :=
          mul_le_mul hw1 h2 (by positivity) (by positivity)
      _ = _ := by ring

/-- The inverse of a matrix that is not too badly conditioned is found, is not large, and is a right inverse up to
roundings. -/
theorem luInverse_residual (h : LuScale n α β) (hf : ∀ r k, (J r k).IsFinite) (hJ : ∀ r k, |rv (J r k)| ≤ α)
    (hB : Bounded' J β) : ∃ C, luInverse J = some C ∧ (∀ r j, (C r j).IsFinite) ∧ (∀ r j, |rv (C r j)| ≤ 2 * β) ∧
      ∀ r j, |∑ k, rv (J r k) * rv (C k j) - (1 : Matrix (Fin n) (Fin n) ℝ) r j| ≤ 33 * (n : ℝ) ^ 3 * 3 ^ n * ur * (α * β) := by
  have hcol := luInverse_column h hf hJ hB
  have hsome : ∀ j, (solveUpper (lu J).1 (solveLower (lu J).1 (permutedUnit (lu J).2 j))).isSome := by
    intro j
    obtain ⟨x, hx, -⟩ := hcol j
    rw [hx]; rfl
  refine ⟨fun r j => (solveUpper (lu J).1 (solveLower (lu J).1 (permutedUnit (lu J).2 j))).get (hsome j) r, ?_, ?_⟩
  · unfold luInverse
    simp only
    rw [dif_pos hsome]
  · have hget : ∀ j, ∃ x, (fun r => (solveUpper (lu J).1 (solveLower (lu J).1 (permutedUnit (lu J).2 j))).get (hsome j) r) = x ∧
        (∀ r, (x r).IsFinite) ∧ (∀ r, |rv (x r)| ≤ 2 * β) ∧
        ∀ r, |∑ k, rv (J r k) * rv (x k) - (1 : Matrix (Fin n) (Fin n) ℝ) r j| ≤
          33 * (n : ℝ) ^ 3 * 3 ^ n * ur * (α * β) := by
      intro j
      obtain ⟨x, hx, h1, h2, h3⟩ := hcol j
      exact ⟨x, funext fun r => congrFun (Option.get_of_eq_some _ hx) r, h1, h2, h3⟩
    refine ⟨fun r j => ?_, fun r j => ?_, fun r j => ?_⟩ <;> obtain ⟨x, hx, h1, h2, h3⟩ := hget j
    · have := h1 r
      rwa [← hx] at this
    · have := h2 r
      rwa [← hx] at this
    · have := h3 r
      rwa [← hx] at this

/-! ## From a right inverse to an approximate left inverse -/

attribute [local instance] Matrix.linftyOpNormedRing

theorem rows_norm {M : Matrix (Fin n) (Fin n) ℝ} {t : ℝ} (ht : 0 ≤ t) (h : ∀ i, ∑ j, |M i j| ≤ t) : ‖M‖ ≤ t := by
  rw [Matrix.linfty_opNorm_def]
  have : (Finset.univ.sup fun i => ∑ j, ‖M i j‖₊) ≤ (⟨t, ht⟩ : NNReal) := by
    refine Finset.sup_le fun i _ => ?_
    refine NNReal.coe_le_coe.1 ?_
    push_cast
    exact h i
  exact_mod_cast this

theorem norm_rows (M : Matrix (Fin n) (Fin n) ℝ) (i : Fin n) : ∑ j, |M i j| ≤ ‖M‖ := by
  rw [Matrix.linfty_opNorm_def]
  have : ∑ j, ‖M i j‖₊ ≤ (Finset.univ.sup fun i => ∑ j, ‖M i j‖₊) :=
    Finset.le_sup (f := fun i => ∑ j, ‖M i j‖₊) (Finset.mem_univ i)
  have h2 := NNReal.coe_le_coe.2 this
  push_cast at h2
  simpa [Real.norm_eq_abs] using h2

theorem entries_norm {M : Matrix (Fin n) (Fin n) ℝ} {t : ℝ} (ht : 0 ≤ t) (h : ∀ i j, |M i j| ≤ t) : ‖M‖ ≤ n * t := by
  refine rows_norm (by positivity) fun i => ?_
  refine (Finset.sum_le_sum fun j _ => h i j).trans ?_
  rw [Finset.sum_const, Finset.card_univ, Fintype.card_fin, nsmul_eq_mul]

/-- `C` is a right inverse of `K` up to `φ`; `K` is close to `A`, whose inverse is `B`. -/
theorem left_inverse {A B K C : Matrix (Fin n) (Fin n) ℝ} {α β η φ : ℝ} (hBA : B * A = 1) (hA : ‖A‖ ≤ α) (hB : ‖B‖ ≤ β)
    (hK : ‖A - K‖ ≤ η) (hη : β * η ≤ 1 / 16) (hF : ‖K * C - 1‖ ≤ φ) (hφ : φ ≤ 1 / 32) (hφ2 : φ * (α * β) ≤ 1 / 32) :
    ‖C‖ ≤ 5 / 4 * β ∧ ‖1 - C * A‖ ≤ 1 / 8 := by
  have hβ : 0 ≤ β := (norm_nonneg _).trans hB
  have hφ0 : 0 ≤ φ := (norm_nonneg _).trans hF
  have e1 : C = B + B * (K * C - 1) + B * ((A - K) * C) := by
    calc C = (B * A) * C := by rw [hBA, Matrix.one_mul]
      _ = _ := by noncomm_ring
  have h1 : ‖B * (K * C - 1)‖ ≤ β * φ := (norm_mul_le _ _).trans (mul_le_mul hB hF (norm_nonneg _) hβ)
  have h2 : ‖B * ((A - K) * C)‖ ≤ 1 / 16 * ‖C‖ := by
    refine (norm_mul_le _ _).trans ?_
    calc ‖B‖ * ‖(A - K) * C‖ ≤ β * (η * ‖C‖) :=
          mul_le_mul hB ((norm_mul_le _ _).trans (mul_le_mul_of_nonneg_right hK (norm_nonneg _))) (norm_nonneg _) hβ
      _ = β * η * ‖C‖ := by ring
      _ ≤ _ := mul_le_mul_of_nonneg_right hη (norm_nonneg _)
  have h3 : ‖C‖ ≤ β + β * φ + 1 / 16 * ‖C‖ := by
    calc ‖C‖ = ‖B + B * (K * C - 1) + B * ((A - K) * C)‖ := by rw [← e1]
      _ ≤ ‖B + B * (K * C - 1)‖ + ‖B * ((A - K) * C)‖ := norm_add_le _ _
      _ ≤ ‖B‖ + ‖B * (K * C - 1)‖ + ‖B * ((A - K) * C)‖ := by gcongr; exact norm_add_le _ _
      _ ≤ _ := by linarith
  have h4 := mul_le_mul_of_nonneg_left hφ hβ
  refine ⟨by linarith, ?_⟩
  have e2 : 1 - C * A = -(B * ((K * C - 1) * A)) - B * ((A - K) * (1 - (1 - C * A))) := by
    have : C * A = (B + B * (K * C - 1) + B * ((A - K) * C)) * A := by rw [← e1]
    calc 1 - C * A = B * A - (B + B * (K * C - 1) + B * ((A - K) * C)) * A := by rw [hBA, ← this]
      _ = _ := by noncomm_ring
  have h5 : ‖B * ((K * C - 1) * A)‖ ≤ 1 / 32 := by
    refine (norm_mul_le _ _).trans ?_
    calc ‖B‖ * ‖(K * C - 1) * A‖ ≤ β * (φ * α) :=
          mul_le_mul hB ((norm_mul_le _ _).trans (mul_le_mul hF hA (norm_nonneg _) hφ0)) (norm_nonneg _) hβ
      _ = φ * (α * β) := by ring
      _ ≤ _ := hφ2
  have hone : ‖(1 : Matrix (Fin n) (Fin n) ℝ)‖ ≤ 1 := by
    refine rows_norm zero_le_one fun i => ?_
    simp only [Matrix.one_apply]
    rw [Finset.sum_eq_single i]
    · simp
    · intro j _ hj
      simp [Ne.symm hj]
    · simp
  have h6 : ‖B * ((A - K) * (1 - (1 - C * A)))‖ ≤ 1 / 16 * (1 + ‖1 - C * A‖) := by
    refine (norm_mul_le _ _).trans ?_
    have h7 : ‖(1 : Matrix (Fin n) (Fin n) ℝ) - (1 - C * A)‖ ≤ 1 + ‖1 - C * A‖ :=
      (norm_sub_le _ _).trans (by linarith)
    have h8 : 0 ≤ 1 + ‖1 - C * A‖ := by positivity
    have hη0 : 0 ≤ η := (norm_nonneg _).trans hK
    calc ‖B‖ * ‖(A - K) * (1 - (1 - C * A))‖ ≤ β * (η * (1 + ‖1 - C * A‖)) :=
          mul_le_mul hB ((norm_mul_le _ _).trans (mul_le_mul hK h7 (norm_nonneg _) hη0)) (norm_nonneg _) hβ
      _ = β * η * (1 + ‖1 - C * A‖) := by ring
      _ ≤ _ := mul_le_mul_of_nonneg_right hη h8
  have h9 : ‖1 - C * A‖ ≤ 1 / 32 + 1 / 16 * (1 + ‖1 - C * A‖) := by
    calc ‖1 - C * A‖ = ‖-(B * ((K * C - 1) * A)) - B * ((A - K) * (1 - (1 - C * A)))‖ := by rw [← e2]
      _ ≤ ‖-(B * ((K * C - 1) * A))‖ + ‖B * ((A - K) * (1 - (1 - C * A)))‖ := norm_sub_le _ _
      _ ≤ _ := by rw [norm_neg]; linarith
  linarith

/-- The distance to the exact inverse. -/
theorem inverse_error {A B K C : Matrix (Fin n) (Fin n) ℝ} {η φ : ℝ} (hBA : B * A = 1) (hB : ‖B‖ ≤ β) (hβ : 0 ≤ β)
    (hK : ‖A - K‖ ≤ η) (hF : ‖K * C - 1‖ ≤ φ) (hC : ‖C‖ ≤ 5 / 4 * β) : ‖C - B‖ ≤ β * (φ + η * (5 / 4 * β)) := by
  have e : C - B = B * ((K * C - 1) + (A - K) * C) := by
    calc C - B = B * A * C - B := by rw [hBA, one_mul]
      _ = _ := by noncomm_ring
  have hη0 : 0 ≤ η := (norm_nonneg _).trans hK
  rw [e]
  refine (norm_mul_le _ _).trans (mul_le_mul hB ?_ (norm_nonneg _) hβ)
  exact (norm_add_le _ _).trans (add_le_add hF ((norm_mul_le _ _).trans (mul_le_mul hK hC (norm_nonneg _) hη0)))

/-! ## The inverse of a matrix close to `A` -/

private theorem dim_le {n : Nat} (h : 2048 * (n : ℝ) ^ 5 * 3 ^ n * ur ≤ 1) : n ≤ 15 := by
  by_contra hn
  have h16 : 16 ≤ n := by omega
  have h1 : (16 : ℝ) ^ 5 ≤ (n : ℝ) ^ 5 := pow_le_pow_left₀ (by norm_num) (by exact_mod_cast h16) 5
  have h2 : (3 : ℝ) ^ 16 ≤ 3 ^ n := pow_le_pow_right₀ (by norm_num) h16
  have hu := ur_pos
  have h3 : (2048 : ℝ) * 16 ^ 5 * 3 ^ 16 * ur ≤ 2048 * (n : ℝ) ^ 5 * 3 ^ n * ur := by gcongr
  have h4 : (1 : ℝ) < 2048 * 16 ^ 5 * 3 ^ 16 * ur := by unfold ur; norm_num
  linarith

theorem wellPosed_product {A B : Matrix (Fin n) (Fin n) ℝ} (h : Spec.WellPosed A B α β) (hn : 0 < n) :
    1 ≤ α * β ∧ 0 ≤ α ∧ 0 ≤ β := by
  let i : Fin n := ⟨0, hn⟩
  have hα : 0 ≤ α := (_root_.abs_nonneg _).trans (h.entries i i)
  have hβ : 0 ≤ β := (Finset.sum_nonneg fun j _ => _root_.abs_nonneg (B i j)).trans (h.rows i)
  refine ⟨?_, hα, hβ⟩
  have h1 : (B * A) i i = 1 := by rw [h.inverse, Matrix.one_apply, if_pos rfl]
  rw [Matrix.mul_apply] at h1
  calc (1 : ℝ) = |∑ k, B i k * A k i| := by rw [h1, abs_one]
    _ ≤ ∑ k, |B i k * A k i| := Finset.abs_sum_le_sum_abs _ _
    _ ≤ ∑ k, |B i k| * α := Finset.sum_le_sum fun k _ => by
        rw [abs_mul]
        exact mul_le_mul_of_nonneg_left (h.entries k i) (_root_.abs_nonneg _)
    _ = (∑ k, |B i k|) * α := by rw [Finset.sum_mul]
    _ ≤ β * α := mul_le_mul_of_nonneg_right (h.rows i) hα
    _ = _ := _root_.mul_comm _ _

theorem wellPosed_scale {A B : Matrix (Fin n) (Fin n) ℝ} (h : Spec.WellPosed A B α β) (hn : 0 < n) :
    LuScale n (17 / 16 * α) (16 / 15 * β) := by
  obtain ⟨hκ, hα, hβ⟩ := wellPosed_product h hn
  have hu := ur_pos
  have hN : (1 : ℝ) ≤ n := by exact_mod_cast hn
  have hc : 2048 * (n : ℝ) ^ 5 * 3 ^ n * ur * (α * β) ^ 2 ≤ 1 := h.condition
  have h31 : (1 : ℝ) ≤ 3 ^ n := one_le_pow₀ (by norm_num)
  have hκ2 : 1 ≤ (α * β) ^ 2 := one_le_pow₀ hκ
  have hn15 : n ≤ 15 := by
    apply dim_le
    have := mul_le_mul_of_nonneg_left hκ2 (show 0 ≤ 2048 * (n : ℝ) ^ 5 * 3 ^ n * ur by positivity)
    linarith
  have h3n : (3 : ℝ) ^ n ≤ 2 ^ 24 := (pow_le_pow_right₀ (by norm_num) hn15).trans (by norm_num)
  have hκb : α * β ≤ 2 ^ 21 := by
    by_contra hb
    have h1 : ((2 : ℝ) ^ 21) ^ 2 ≤ (α * β) ^ 2 := pow_le_pow_left₀ (by norm_num) (not_le.1 hb).le 2
    have h2 : (2048 : ℝ) * 1 * 3 * ur * (2 ^ 21) ^ 2 ≤ 2048 * (n : ℝ) ^ 5 * 3 ^ n * ur * (α * β) ^ 2 := by
      have : (1 : ℝ) ≤ (n : ℝ) ^ 5 := one_le_pow₀ hN
      have h3 : (3 : ℝ) ≤ 3 ^ n := by
        calc (3 : ℝ) = 3 ^ 1 := by norm_num
          _ ≤ _ := pow_le_pow_right₀ (by norm_num) hn
      gcongr
    have h3 : (1 : ℝ) < 2048 * 1 * 3 * ur * (2 ^ 21) ^ 2 := by unfold ur; norm_num
    linarith
  have hβ90 := h.betaHigh
  have hαl : 2 ^ (-89 : ℤ) ≤ α := by
    have h1 : α * β ≤ α * 2 ^ 89 := mul_le_mul_of_nonneg_left hβ90 hα
    have h2 : 1 ≤ α * 2 ^ 89 := hκ.trans h1
    rw [zpow_neg, inv_le_iff_one_le_mul₀ (by positivity)]
    exact_mod_cast h2
  refine ⟨hn, ?_, ?_, by positivity, ?_, ?_, h3n.trans (pow_le_pow_right₀ (by norm_num) (by norm_num)), ?_, ?_⟩
  · have h1 : (2 : ℝ) ^ (-900 : ℤ) ≤ 2 ^ (-89 : ℤ) := zpow_le_zpow_right₀ (by norm_num) (by norm_num)
    exact h1.trans (hαl.trans (by linarith))
  · have h1 := h.alphaHigh
    calc 17 / 16 * α ≤ 2 * 2 ^ 89 := by linarith
      _ ≤ _ := by norm_num
  · calc 16 / 15 * β ≤ 2 * 2 ^ 89 := by linarith
      _ ≤ _ := by norm_num
  · have : 17 / 16 * α * (16 / 15 * β) = 17 / 15 * (α * β) := by ring
    rw [this]; linarith
  · have h1 : 5 * (16 / 15 * β * (3 ^ n * (17 / 16 * α))) ≤ 2 ^ 48 := by
      have e : 5 * (16 / 15 * β * (3 ^ n * (17 / 16 * α))) = 17 / 3 * (3 ^ n * (α * β)) := by ring
      rw [e]
      have := mul_le_mul h3n hκb (by positivity) (by positivity)
      calc 17 / 3 * (3 ^ n * (α * β)) ≤ 17 / 3 * (2 ^ 24 * 2 ^ 21) := mul_le_mul_of_nonneg_left this (by norm_num)
        _ ≤ _ := by norm_num
    calc (3 : ℝ) ^ n * (5 * (16 / 15 * β * (3 ^ n * (17 / 16 * α)))) ^ n ≤ 2 ^ 24 * (2 ^ 48) ^ 15 := by
          refine mul_le_mul h3n ?_ (by positivity) (by positivity)
          exact (pow_le_pow_left₀ (by positivity) h1 n).trans (pow_le_pow_right₀ (one_le_pow₀ (by norm_num)) hn15)
      _ = 2 ^ 744 := by rw [← pow_mul, ← pow_add]
      _ ≤ _ := pow_le_pow_right₀ (by norm_num) (by norm_num)
  · have h35 : (n : ℝ) ^ 3 ≤ (n : ℝ) ^ 5 := pow_le_pow_right₀ hN (by norm_num)
    have hκκ : α * β ≤ (α * β) ^ 2 := by
      calc α * β = (α * β) ^ 1 := (pow_one _).symm
        _ ≤ _ := pow_le_pow_right₀ hκ (by norm_num)
    calc 11 * (n : ℝ) ^ 3 * 3 ^ n * ur * (17 / 16 * α * (16 / 15 * β))
        = 187 / 15 * ((n : ℝ) ^ 3 * 3 ^ n * ur * (α * β)) := by ring
      _ ≤ 187 / 15 * ((n : ℝ) ^ 5 * 3 ^ n * ur * (α * β) ^ 2) := by gcongr
      _ ≤ _ := by linarith

/-- The LU inverse of a matrix of doubles close to a well conditioned one is an approximate inverse, and close to the exact
inverse. -/
theorem luInverse_accurate {A B : Matrix (Fin n) (Fin n) ℝ} {η : ℝ} (h : Spec.WellPosed A B α β) (hf : ∀ r k, (J r k).IsFinite)
    (hη : ∀ i, ∑ j, |A i j - ((J i j).val : ℝ)| ≤ η) (hβη : β * η ≤ 1 / 16) :
    ∃ C, luInverse J = some C ∧ Spec.ApproxInverse A (5 / 4 * β) C ∧
      ∀ i, ∑ j, |((C i j).val : ℝ) - B i j| ≤ β * (5 / 4 * (β * η) + 38 * ((n : ℝ) ^ 4 * 3 ^ n * ur * (α * β))) := by
  rcases Nat.eq_zero_or_pos n with rfl | hn
  · refine ⟨fun i => i.elim0, ?_, ⟨fun i => i.elim0, fun i => i.elim0, fun i => i.elim0⟩, fun i => i.elim0⟩
    unfold luInverse
    simp only
    rw [dif_pos (fun j => j.elim0)]
    congr 1
    funext i
    exact i.elim0
  · obtain ⟨hκ, hα, hβ⟩ := wellPosed_product h hn
    have hu := ur_pos
    have hN : (1 : ℝ) ≤ n := by exact_mod_cast hn
    have hη0 : 0 ≤ η := (Finset.sum_nonneg fun j _ => _root_.abs_nonneg _).trans (hη ⟨0, hn⟩)
    have hηα : η ≤ 1 / 16 * α := by
      have h1 := mul_le_mul_of_nonneg_left hβη hα
      have h2 := mul_le_mul_of_nonneg_right hκ hη0
      linarith
    have hJ : ∀ r k, |rv (J r k)| ≤ 17 / 16 * α := by
      intro r k
      have h1 : |A r k - rv (J r k)| ≤ η :=
        (Finset.single_le_sum (f := fun j => |A r j - rv (J r j)|) (fun j _ => _root_.abs_nonneg _) (Finset.mem_univ k)).trans
          (hη r)
      have h2 := h.entries r k
      have h3 := abs_sub_abs_le_abs_sub (rv (J r k)) (A r k)
      rw [abs_sub_comm] at h1
      linarith
    have hBn : ‖B‖ ≤ β := rows_norm hβ h.rows
    have hKn : ‖A - vals J‖ ≤ η := rows_norm hη0 fun i => hη i
    have hAn : ‖A‖ ≤ n * α := entries_norm hα h.entries
    have hbd : Bounded' J (16 / 15 * β) := by
      intro v t ht k
      have ht0 : 0 ≤ t := (_root_.abs_nonneg _).trans (ht ⟨0, hn⟩)
      have e : v = B.mulVec ((vals J).mulVec v + (A - vals J).mulVec v) := by
        rw [← Matrix.add_mulVec, add_sub_cancel, Matrix.mulVec_mulVec, h.inverse, Matrix.one_mulVec]
      have h1 : ‖(vals J).mulVec v‖ ≤ t := (pi_norm_le_iff_of_nonneg ht0).2 ht
      have h2 : ‖(A - vals J).mulVec v‖ ≤ η * ‖v‖ :=
        (Matrix.linfty_opNorm_mulVec _ _).trans (mul_le_mul_of_nonneg_right hKn (norm_nonneg _))
      have h3 : ‖v‖ ≤ β * (t + η * ‖v‖) := by
        calc ‖v‖ = ‖B.mulVec ((vals J).mulVec v + (A - vals J).mulVec v)‖ := by rw [← e]
          _ ≤ ‖B‖ * ‖(vals J).mulVec v + (A - vals J).mulVec v‖ := Matrix.linfty_opNorm_mulVec _ _
          _ ≤ _ := mul_le_mul hBn ((norm_add_le _ _).trans (add_le_add h1 h2)) (norm_nonneg _) hβ
      have h4 := mul_le_mul_of_nonneg_right hβη (norm_nonneg v)
      have h5 : |v k| ≤ ‖v‖ := norm_le_pi_norm v k
      linarith
    obtain ⟨C, hC, hCf, -, hCr⟩ := luInverse_residual (wellPosed_scale h hn) hf hJ hbd
    refine ⟨C, hC, ?_⟩
    have hφ0 : 0 ≤ 33 * (n : ℝ) ^ 3 * 3 ^ n * ur * (17 / 16 * α * (16 / 15 * β)) := by positivity
    have hF : ‖vals J * vals C - 1‖ ≤ n * (33 * (n : ℝ) ^ 3 * 3 ^ n * ur * (17 / 16 * α * (16 / 15 * β))) := by
      refine entries_norm hφ0 fun i j => ?_
      rw [Matrix.sub_apply, Matrix.mul_apply]
      exact hCr i j
    have hc : 2048 * (n : ℝ) ^ 5 * 3 ^ n * ur * (α * β) ^ 2 ≤ 1 := h.condition
    have h45 : (n : ℝ) ^ 4 ≤ (n : ℝ) ^ 5 := pow_le_pow_right₀ hN (by norm_num)
    have hκκ : α * β ≤ (α * β) ^ 2 := by
      calc α * β = (α * β) ^ 1 := (pow_one _).symm
        _ ≤ _ := pow_le_pow_right₀ hκ (by norm_num)
    have hφ : n * (33 * (n : ℝ) ^ 3 * 3 ^ n * ur * (17 / 16 * α * (16 / 15 * β))) ≤ 1 / 32 := by
      calc n * (33 * (n : ℝ) ^ 3 * 3 ^ n * ur * (17 / 16 * α * (16 / 15 * β)))
          = 187 / 5 * ((n : ℝ) ^ 4 * 3 ^ n * ur * (α * β)) := by ring
        _ ≤ 187 / 5 * ((n : ℝ) ^ 5 * 3 ^ n * ur * (α * β) ^ 2) := by gcongr
        _ ≤ _ := by linarith
    have hφ2 : n * (33 * (n : ℝ) ^ 3 * 3 ^ n * ur * (17 / 16 * α * (16 / 15 * β))) * (n * α * β) ≤ 1 / 32 := by
      calc n * (33 * (n : ℝ) ^ 3 * 3 ^ n * ur * (17 / 16 * α * (16 / 15 * β))) * (n * α * β)
          = 187 / 5 * ((n : ℝ) ^ 5 * 3 ^ n * ur * (α * β) ^ 2) := by ring
        _ ≤ _ := by linarith
    obtain ⟨h1, h2⟩ := left_inverse h.inverse hAn hBn hKn hβη hF hφ hφ2
    refine ⟨⟨hCf, fun i => (norm_rows (vals C) i).trans h1, fun i => ?_⟩, fun i => ?_⟩
    · have h3 := (norm_rows (1 - vals C * A) i).trans h2
      simp only [Matrix.sub_apply, Matrix.mul_apply] at h3
      exact h3
    · refine (norm_rows (vals C - B) i).trans ((inverse_error h.inverse hBn hβ hKn hF h1).trans ?_)
      refine mul_le_mul_of_nonneg_left ?_ hβ
      have h3 : 0 ≤ (n : ℝ) ^ 4 * 3 ^ n * ur * (α * β) := by positivity
      have e : n * (33 * (n : ℝ) ^ 3 * 3 ^ n * ur * (17 / 16 * α * (16 / 15 * β))) =
        187 / 5 * ((n : ℝ) ^ 4 * 3 ^ n * ur * (α * β)) := by ring
      rw [e]
      linarith

/-- The LU inverse of a matrix of doubles close to a well conditioned one is an approximate inverse. -/
theorem luInverse_approx {A B : Matrix (Fin n) (Fin n) ℝ} {η : ℝ} (h : Spec.WellPosed A B α β) (hf : ∀ r k, (J r k).IsFinite)
    (hη : ∀ i, ∑ j, |A i j - ((J i j).val : ℝ)| ≤ η) (hβη : β * η ≤ 1 / 16) :
    ∃ C, luInverse J = some C ∧ Spec.ApproxInverse A (5 / 4 * β) C := by
  obtain ⟨C, h1, h2, -⟩ := luInverse_accurate h hf hη hβη
  exact ⟨C, h1, h2⟩

end
end Nrf
