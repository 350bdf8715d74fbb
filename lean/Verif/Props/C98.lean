import Verif.Proofs.SystemFollow
import Verif.Props.C97
import Verif.Spec.NewtonSystem
import Verif.Proofs.Case9Float

/-!
# C98: Newton-Raphson steps in binary64 are Newton steps, and converge quadratically
-/

set_option linter.unusedSectionVars false

namespace Nrf
open Spec Fl

section
variable {n : Nat} {c : Config F64 n} {EI EU S : Type} {m : UserModel F64 n EI EU S} {inv : S → Prop} {D : Vec F64 n → Prop}
variable {f : Vec F64 n → ResidualsValues F64 n} {g : Vec F64 n → JacobianValues F64 n}

/-- A Newton-Raphson pass with a Jacobian and the LU inverse, at any finite point `x`.  `φ` and `A` are the real residuals and
Jacobian, which the model computes with errors of at most `ε` and `η`; `B` is the inverse of `A`.  The pass moves to a finite
point that differs from the exact Newton iterate `x - B φ` by at most `stepError`. -/
theorem C98_step {A B : Matrix (Fin n) (Fin n) ℝ} {α β η ε M X : ℝ} (hn : n ≤ 2 ^ 40) (hc : SystemDefault c)
    (hdot : AccurateDot c.la) (hla : c.la.inv = luInverse)
    (hmeth : c.params.method = .NewtonRaphson) (hf : Computes m inv D f) (hg : Differentiates m inv f g)
    (hw : WellPosed A B α β) (hβ : 0 ≤ β) {x : Vec F64 n} (hx : ∀ i, (x i).IsFinite) (hη0 : 0 ≤ η)
    (hJ : ∀ i j, (jacobianDifferences g x i j).IsFinite)
    (hη : ∀ i, ∑ j, |A i j - ((jacobianDifferences g x i j).val : ℝ)| ≤ η) (hβη : β * η ≤ 1 / 16)
    (hr : ∀ i, (differences f x i).IsFinite) {φ : Fin n → ℝ} (he : ‖reals (differences f x) - φ‖ ≤ ε)
    (hM : ‖φ‖ ≤ M) (hX : ‖reals x - B.mulVec φ‖ ≤ X) (hbig : M + ε ≤ 2 ^ 200) (hX0 : 2 ^ (-900 : ℤ) ≤ X) (hX1 : X ≤ 2 ^ 200)
    (hD : ∀ y : Vec F64 n, (∀ i, (y i).IsFinite) → ‖reals y - (reals x - B.mulVec φ)‖ ≤ stepError n α β η ε M X → D y)
    {st : Solver F64 n} {s : S} (hdb : st.debug = false) (hat : At m inv f s x) :
    ∃ st' s' y, iterate c m st s = .ok (st', s', .ok (amax (evaluateErrors c m s'))) ∧ At m inv f s' y ∧
      st'.debug = false ∧ st'.valid = true ∧ (∀ i, (y i).IsFinite) ∧
      ‖reals y - (reals x - B.mulVec φ)‖ ≤ stepError n α β η ε M X :=
  system_newton_pass hn hc hdot hla hmeth hf hg hw hβ hx hη0 hJ hη hβη hr he hM hX hbig hX0 hX1 hD hdb hat

variable {Φ : (Fin n → ℝ) → Fin n → ℝ} {A B : (Fin n → ℝ) → Matrix (Fin n) (Fin n) ℝ} {ρ : Fin n → ℝ}
variable {R σ L γ α β η ε : ℝ}

theorem rows_mulVec {B : Matrix (Fin n) (Fin n) ℝ} (hβ : 0 ≤ β) (h : ∀ i, ∑ j, |B i j| ≤ β) (v : Fin n → ℝ) :
    ‖B.mulVec v‖ ≤ β * ‖v‖ := by
  refine (pi_norm_le_iff_of_nonneg (by positivity)).2 fun i => ?_
  rw [Real.norm_eq_abs]
  simp only [Matrix.mulVec, dotProduct]
  refine (Finset.abs_sum_le_sum_abs _ _).trans ?_
  refine le_trans (Finset.sum_le_sum (g := fun j => |B i j| * ‖v‖) fun j _ => ?_) ?_
  · rw [abs_mul]
    exact mul_le_mul_of_nonneg_left (norm_le_pi_norm v j) (_root_.abs_nonneg _)
  · rw [← Finset.sum_mul]
    exact mul_le_mul_of_nonneg_right (h i) (norm_nonneg _)

/-- The exact Newton iterate. -/
theorem newton_exact (h : NewtonSystem Φ A B ρ R σ L γ α β) {x : Fin n → ℝ} (hx : ‖x - ρ‖ ≤ R) :
    ‖x - (B x).mulVec (Φ x) - ρ‖ ≤ β * γ * ‖x - ρ‖ ^ 2 := by
  have hp := h.posed x hx
  have e : x - (B x).mulVec (Φ x) - ρ = (B x).mulVec ((A x).mulVec (x - ρ) - Φ x) := by
    rw [Matrix.mulVec_sub, Matrix.mulVec_mulVec, hp.inverse, Matrix.one_mulVec]
    abel
  rw [e]
  refine (rows_mulVec h.betaLow hp.rows _).trans ?_
  refine (mul_le_mul_of_nonneg_left (h.newton x hx) h.betaLow).trans (le_of_eq (by ring))

theorem quadratic_arith {b R F κ δ a e : ℝ} (hb : 0 ≤ b) (hR : 4 * (b * R) ≤ 1) (hF : F = 2 * (κ * R + δ)) (hF2 : 2 * F ≤ R)
    (hF0 : 0 ≤ F) (hκ : 0 ≤ κ) (ha : 0 ≤ a) (he : e ≤ R) (he0 : 0 ≤ e) (hea : e ≤ R * a + F) (hR0 : 0 ≤ R) :
    b * e ^ 2 + κ * e + δ ≤ R * (a ^ 2 / 2) + F ∧ b * e ^ 2 + κ * e + δ ≤ R := by
  have h1 : κ * e ≤ κ * R := mul_le_mul_of_nonneg_left he hκ
  have h2 : e ^ 2 ≤ 2 * (R * a) ^ 2 + 2 * F ^ 2 := by
    have h3 : e ^ 2 ≤ (R * a + F) ^ 2 := pow_le_pow_left₀ he0 hea 2
    nlinarith [sq_nonneg (R * a - F)]
  have h3 : b * e ^ 2 ≤ 2 * (b * R) * (R * a ^ 2) + 2 * (b * F) * F := by
    calc b * e ^ 2 ≤ b * (2 * (R * a) ^ 2 + 2 * F ^ 2) := mul_le_mul_of_nonneg_left h2 hb
      _ = _ := by ring
  have hbF : 8 * (b * F) ≤ 1 := by
    have := mul_le_mul_of_nonneg_left hF2 hb
    nlinarith
  have h4 : 2 * (b * R) * (R * a ^ 2) ≤ 1 / 2 * (R * a ^ 2) :=
    mul_le_mul_of_nonneg_right (by linarith) (by positivity)
  have h5 : 2 * (b * F) * F ≤ 1 / 4 * F := mul_le_mul_of_nonneg_right (by linarith) hF0
  refine ⟨by linarith, ?_⟩
  have h6 : b * e ^ 2 ≤ 1 / 4 * R := by
    have h7 : e ^ 2 ≤ R ^ 2 := pow_le_pow_left₀ he0 he 2
    calc b * e ^ 2 ≤ b * R ^ 2 := mul_le_mul_of_nonneg_left h7 hb
      _ = b * R * R := by ring
      _ ≤ 1 / 4 * R := mul_le_mul_of_nonneg_right (by linarith) hR0
  linarith

/-- Newton-Raphson with a Jacobian and the LU inverse converges quadratically in binary64: from every finite guess within `R`,
the solve succeeds after at most `N` iterations as soon as the tolerance is above `L (2 R / 2 ^ 2ᴺ + F) + ε`, where `F` is
`newtonFloor`. -/
theorem C98_quadratic (hn : n ≤ 2 ^ 40) (hc : SystemDefault c) (hdot : AccurateDot c.la) (hla : c.la.inv = luInverse)
    (hmeth : c.params.method = .NewtonRaphson) (h : NewtonSystem Φ A B ρ R σ L γ α β)
    (he : EvaluatesSystem f Φ ρ R ε) (hf : Computes m inv (Near ρ R) f) (hg : Differentiates m inv f g) (hη0 : 0 ≤ η)
    (hJ : ∀ x, Near ρ R x → (∀ i j, (jacobianDifferences g x i j).IsFinite) ∧
      ∀ i, ∑ j, |A (reals x) i j - ((jacobianDifferences g x i j).val : ℝ)| ≤ η) (hη : β * η ≤ 1 / 16)
    (hε : ε ≤ 2 ^ 190) (hfl : 2 * newtonFloor n α β η ε L σ R ≤ R) (hguess : Near ρ R c.guess)
    (ht : c.params.tolerance.IsFinite) (N : Nat) (hN : N ≤ c.params.maxIter)
    (htol : L * (2 * R / 2 ^ 2 ^ N + newtonFloor n α β η ε L σ R) + ε ≤ c.params.tolerance.val) (s : S) (hs : inv s) :
    SystemSolved c m inv f Φ ρ β ε N s := by
  have hR0 : 0 ≤ R := (norm_nonneg _).trans hguess.2
  have hε0 : 0 ≤ ε := (norm_nonneg _).trans (he _ hguess).2
  have hβ0 := h.betaLow
  have hL0 := h.slopeLow
  have hσ0 : 0 ≤ σ := hR0.trans h.radius
  have hu : (0 : ℝ) ≤ 2 ^ (-53 : ℤ) := zpow_nonneg (by norm_num) _
  have hT : 0 ≤ (n : ℝ) ^ 4 * 3 ^ n * 2 ^ (-53 : ℤ) * (α * β) := by
    rcases Nat.eq_zero_or_pos n with h0 | h0
    · subst h0
      have : ((0 : ℕ) : ℝ) ^ 4 = 0 := by norm_num
      rw [this]
      apply le_of_eq
      ring
    · have hα : 0 ≤ α := (_root_.abs_nonneg _).trans ((h.posed _ hguess.2).entries ⟨0, h0⟩ ⟨0, h0⟩)
      positivity
  obtain ⟨κ, hκ⟩ : ∃ κ, κ = β * (3 / 2 * (β * η) + 48 * ((n : ℝ) ^ 4 * 3 ^ n * 2 ^ (-53 : ℤ) * (α * β))) * L := ⟨_, rfl⟩
  obtain ⟨δ, hδ⟩ : ∃ δ, δ = 2 * (β * ε) + 4 * 2 ^ (-53 : ℤ) * σ := ⟨_, rfl⟩
  have hκ0 : 0 ≤ κ := by rw [hκ]; positivity
  have hδ0 : 0 ≤ δ := by rw [hδ]; positivity
  have hF : newtonFloor n α β η ε L σ R = 2 * (κ * R + δ) := by
    rw [hκ, hδ]
    unfold newtonFloor
    ring
  have hE : ∀ e, stepError n α β η ε (L * e) (2 * σ) = κ * e + δ := by
    intro e
    rw [hκ, hδ]
    unfold stepError
    ring
  generalize hFn : newtonFloor n α β η ε L σ R = F at *
  have hF0 : 0 ≤ F := by rw [hF]; positivity
  have hb : 0 ≤ β * γ := mul_nonneg hβ0 h.gammaLow
  have hbR : 4 * (β * γ * R) ≤ 1 := h.small
  have hpow : ∀ k : ℕ, (0 : ℝ) ≤ 2 / 2 ^ 2 ^ k := fun k => by positivity
  have hsq : ∀ k : ℕ, ((2 : ℝ) / 2 ^ 2 ^ k) ^ 2 / 2 = 2 / 2 ^ 2 ^ (k + 1) := by
    intro k
    have : (2 : ℝ) ^ 2 ^ (k + 1) = (2 ^ 2 ^ k) ^ 2 := by rw [pow_succ 2 k, pow_mul]
    rw [this, div_pow]
    have h2 : ((2 : ℝ) ^ 2 ^ k) ^ 2 ≠ 0 := by positivity
    field_simp
  have hLR : L * R ≤ 2 ^ 190 := by
    calc L * R ≤ 2 ^ 100 * 2 ^ 90 := mul_le_mul h.slopeHigh (h.radius.trans h.scaleHigh) hR0 (by positivity)
      _ = 2 ^ 190 := by rw [← pow_add]
  have hdist : ∀ x : Vec F64 n, Near ρ R x → 0 ≤ ‖reals x - ρ‖ := fun x _ => norm_nonneg _
  have htol0 : (0 : ℝ) ≤ c.params.tolerance.val := by
    refine le_trans ?_ htol
    have := hpow N
    have h2 : 0 ≤ 2 * R / 2 ^ 2 ^ N := by positivity
    positivity
  obtain ⟨st', s', x, k, h1, h2, h3, _, h5, h6⟩ := system_reaches hc hf
    (Q := fun k x => Near ρ R x ∧ ‖reals x - ρ‖ ≤ R * (2 / 2 ^ 2 ^ k) + F) (N := N)
    ⟨hguess, by
      have : (2 : ℝ) / 2 ^ 2 ^ 0 = 1 := by norm_num
      rw [this]
      linarith [hguess.2]⟩ hguess (fun k x hx => (he x hx.1).1)
    (by
      intro k x st s _ hx hdb hat
      obtain ⟨hnr, hk⟩ := hx
      have hex := newton_exact h hnr.2
      have hM := h.slope _ hnr.2
      have hnb : β * γ * ‖reals x - ρ‖ ^ 2 ≤ 1 / 4 * R := by
        have h7 : ‖reals x - ρ‖ ^ 2 ≤ R ^ 2 := pow_le_pow_left₀ (norm_nonneg _) hnr.2 2
        calc β * γ * ‖reals x - ρ‖ ^ 2 ≤ β * γ * R ^ 2 := mul_le_mul_of_nonneg_left h7 hb
          _ = β * γ * R * R := by ring
          _ ≤ 1 / 4 * R := mul_le_mul_of_nonneg_right (by linarith) hR0
      have hX : ‖reals x - (B (reals x)).mulVec (Φ (reals x))‖ ≤ 2 * σ := by
        have h8 := norm_sub_norm_le (reals x - (B (reals x)).mulVec (Φ (reals x))) ρ
        have := h.rootSize
        have := h.radius
        linarith
      obtain ⟨hA1, hA2⟩ := quadratic_arith (a := 2 / 2 ^ 2 ^ k) hb hbR hF hfl hF0 hκ0 (hpow k) hnr.2 (norm_nonneg _) hk hR0
      have hto : ∀ y : Vec F64 n, ‖reals y - (reals x - (B (reals x)).mulVec (Φ (reals x)))‖ ≤
          stepError n α β η ε (L * ‖reals x - ρ‖) (2 * σ) →
          ‖reals y - ρ‖ ≤ β * γ * ‖reals x - ρ‖ ^ 2 + κ * ‖reals x - ρ‖ + δ := by
        intro y hy
        rw [hE] at hy
        have := norm_add_le (reals y - (reals x - (B (reals x)).mulVec (Φ (reals x))))
          (reals x - (B (reals x)).mulVec (Φ (reals x)) - ρ)
        rw [sub_add_sub_cancel] at this
        linarith
      obtain ⟨st', s', y, hi, hat', hd', hv', hyf, hy⟩ := system_newton_pass hn hc hdot hla hmeth hf hg (h.posed _ hnr.2) hβ0 hnr.1
        hη0 (hJ x hnr).1 (hJ x hnr).2 hη (he x hnr).1 (he x hnr).2 hM hX
        (by
          have h9 : L * ‖reals x - ρ‖ ≤ L * R := mul_le_mul_of_nonneg_left hnr.2 hL0
          have h10 : (2 : ℝ) ^ 190 + 2 ^ 190 ≤ 2 ^ 200 := by norm_num
          exact (add_le_add (h9.trans hLR) hε).trans h10)
        (by
          have := h.scaleLow
          refine this.trans ?_
          clear * - hσ0
          linarith)
        (by
          have h9 := h.scaleHigh
          have h10 : 2 * (2 : ℝ) ^ 90 ≤ 2 ^ 200 := by norm_num
          exact (mul_le_mul_of_nonneg_left h9 (by norm_num)).trans h10)
        (fun y hyf hy => ⟨hyf, (hto y hy).trans hA2⟩) hdb hat
      exact ⟨st', s', y, hi, hat', hd', hv', ⟨hyf, (hto y hy).trans hA2⟩, by rw [← hsq]; exact (hto y hy).trans hA1⟩)
    ht htol0 hN
    (by
      intro x hx
      obtain ⟨hnr, hk⟩ := hx
      have h7 := norm_sub_norm_le (reals (differences f x)) (Φ (reals x))
      have h8 := (he x hnr).2
      have h9 := h.slope _ hnr.2
      have h10 := mul_le_mul_of_nonneg_left hk hL0
      have h11 : R * (2 / 2 ^ 2 ^ N) = 2 * R / 2 ^ 2 ^ N := by ring
      rw [h11] at h10
      linarith) hs
  have hnr := h5.1
  have hphi : ‖Φ (reals x)‖ ≤ c.params.tolerance.val + ε := by
    have h7 := norm_sub_norm_le (Φ (reals x)) (reals (differences f x))
    have h8 := (he x hnr).2
    rw [norm_sub_rev] at h8
    linarith
  refine ⟨st', s', x, h1, h2, h3, hnr.1, hphi, ?_⟩
  have hex := newton_exact h hnr.2
  have hB := rows_mulVec hβ0 (h.posed _ hnr.2).rows (Φ (reals x))
  have hB' := mul_le_mul_of_nonneg_left hphi hβ0
  have hq : β * γ * ‖reals x - ρ‖ ^ 2 ≤ 1 / 4 * ‖reals x - ρ‖ := by
    have h7 : β * γ * ‖reals x - ρ‖ ≤ β * γ * R := mul_le_mul_of_nonneg_left hnr.2 hb
    calc β * γ * ‖reals x - ρ‖ ^ 2 = β * γ * ‖reals x - ρ‖ * ‖reals x - ρ‖ := by ring
      _ ≤ 1 / 4 * ‖reals x - ρ‖ := mul_le_mul_of_nonneg_right (by linarith) (norm_nonneg _)
  have htri := norm_add_le (reals x - (B (reals x)).mulVec (Φ (reals x)) - ρ) ((B (reals x)).mulVec (Φ (reals x)))
  have e : reals x - (B (reals x)).mulVec (Φ (reals x)) - ρ + (B (reals x)).mulVec (Φ (reals x)) = reals x - ρ := by abel
  rw [e] at htri
  linarith

end

open TestCases

private theorem box_near {x : Fin 2 → ℝ} {r : ℝ} (h : ‖x - fun _ => (1 : ℝ)‖ ≤ r) (i : Fin 2) : |x i - 1| ≤ r := by
  have := (norm_le_pi_norm (x - fun _ => (1 : ℝ)) i).trans h
  rw [Real.norm_eq_abs] at this
  exact this

/-- Case 9 of Broyden's tests within `1 / 100` of its solution `(1, 1)`. -/
private theorem case9_newton : NewtonSystem case9Phi case9A case9B (fun _ => 1) (1 / 100) 2 31 10 21 (22 / 10) := by
  refine ⟨fun x hx => ?_, fun x hx => ?_, fun x hx => ?_, by norm_num, by norm_num, ?_, by norm_num, ?_, by norm_num, by norm_num,
    by norm_num, by norm_num⟩
  · have h := abs_le.1 (box_near hx 0)
    refine case9_posed (a := 101 / 100) ?_ (by norm_num) (by norm_num) (by norm_num) (by norm_num) (by norm_num) (by norm_num)
      (by norm_num)
    rw [abs_le]
    constructor <;> linarith
  · have e : (case9A x).mulVec (x - fun _ => 1) - case9Phi x = ![-10 * (x 0 - 1) ^ 2, 0] := by
      funext i
      fin_cases i <;> simp [case9A, case9Phi, Matrix.vecHead, Matrix.vecTail] <;> ring
    rw [e]
    have h : |x 0 - 1| ≤ ‖x - fun _ => (1 : ℝ)‖ := box_near le_rfl 0
    have h2 : (x 0 - 1) ^ 2 ≤ ‖x - fun _ => (1 : ℝ)‖ ^ 2 := by
      rw [← sq_abs]
      exact pow_le_pow_left₀ (_root_.abs_nonneg _) h 2
    refine (pi_norm_le_iff_of_nonneg (by positivity)).2 (Fin.forall_fin_two.2 ⟨?_, ?_⟩)
    · change |-10 * (x 0 - 1) ^ 2| ≤ _
      rw [abs_mul, abs_of_nonneg (sq_nonneg (x 0 - 1))]
      norm_num
      linarith
    · change |(0 : ℝ)| ≤ _
      rw [abs_zero]
      positivity
  · have h0 := abs_le.1 (box_near (x := x) le_rfl 0)
    have h1 := abs_le.1 (box_near (x := x) le_rfl 1)
    have hs := box_near hx 0
    set d := ‖x - fun _ => (1 : ℝ)‖ with hd
    have hsq : |(x 0 - 1) * (x 0 - 1)| ≤ 1 / 100 * d := by
      rw [abs_mul]
      exact mul_le_mul hs (abs_le.2 h0) (_root_.abs_nonneg _) (by norm_num)
    rw [abs_le] at hsq
    have hd0 : 0 ≤ d := norm_nonneg _
    refine (pi_norm_le_iff_of_nonneg (by positivity)).2 (Fin.forall_fin_two.2 ⟨?_, ?_⟩)
    · change |10 * (x 1 - x 0 ^ 2)| ≤ _
      rw [abs_le]
      constructor <;> nlinarith
    · change |1 - x 0| ≤ _
      rw [abs_le]
      constructor <;> linarith
  · exact (zpow_le_zpow_right₀ (by norm_num) (by norm_num : (-900 : ℤ) ≤ 0)).trans (by norm_num)
  · exact (pi_norm_le_iff_of_nonneg (by norm_num)).2 fun i => by norm_num

private def case9Near : Config F64 2 := { Demo64.pair .NewtonRaphson with
  guess := ![Demo64.ofRat (127 / 128), Demo64.ofRat (129 / 128)]
  params := { problemSize := 2, tolerance := Scalar.dec 1 6, maxIter := 50, method := .NewtonRaphson, damping := false } }

private theorem case9_box {x : Vec F64 2} (hx : Near (fun _ => 1) (1 / 100) x) : |rv (x 0)| ≤ 33 ∧ |rv (x 1)| ≤ 1200 := by
  have h0 := abs_le.1 (box_near hx.2 0)
  have h1 := abs_le.1 (box_near hx.2 1)
  change _ ≤ rv (x 0) - 1 ∧ rv (x 0) - 1 ≤ _ at h0
  change _ ≤ rv (x 1) - 1 ∧ rv (x 1) - 1 ≤ _ at h1
  constructor <;> rw [abs_le] <;> constructor <;> linarith

/-- `C98_quadratic` applies to case 9 near its solution: five iterations are enough for `1e-6`. -/
example : SystemSolved case9Near (fromFunctionAndJacobian broydenCase9 broydenCase9Jac) (fun s => s.right = fun _ => .zero false)
    case9F case9Phi (fun _ => 1) (22 / 10) (1 / 10 ^ 9) 5 AdapterState.new := by
  refine C98_quadratic (n := 2) (c := case9Near) (η := 2 / 10 ^ 11) (by norm_num) ⟨rfl, fun _ => rfl, fun _ => rfl, fun _ => rfl⟩
    (C96_dot (by norm_num)) rfl rfl case9_newton (fun x hx => case9_evaluates hx.1 (case9_box hx).1 (case9_box hx).2) ?_
    (fromFunctionAndJacobian_differentiates _ _ _) (by norm_num)
    (fun x hx => case9_jacobian hx.1 (case9_box hx).1) (by norm_num) ?_ ?_ ?_ default_tolerance.1 5
    (by change 5 ≤ 50; norm_num) ?_ _ rfl
  · have h := fromFunctionAndJacobian_computes (F := F64) broydenCase9 broydenCase9Jac (fun _ => .zero false)
    exact ⟨fun s x hs _ => h.keeps s x hs trivial, fun s x hs _ => h.ok s x hs trivial,
      fun s x hs _ => h.iteratives s x hs trivial, fun s x hs _ => h.residuals s x hs trivial⟩
  · norm_num
  · unfold newtonFloor
    norm_num
  · have h : ((Demo64.ofRat (127 / 128)).IsFinite ∧ (Demo64.ofRat (127 / 128)).val = 127 / 128) ∧
      (Demo64.ofRat (129 / 128)).IsFinite ∧ (Demo64.ofRat (129 / 128)).val = 129 / 128 := by decide +kernel
    obtain ⟨⟨f1, v1⟩, f2, v2⟩ := h
    refine ⟨Fin.forall_fin_two.2 ⟨f1, f2⟩, (pi_norm_le_iff_of_nonneg (by norm_num)).2 (Fin.forall_fin_two.2 ⟨?_, ?_⟩)⟩
    · change |((Demo64.ofRat (127 / 128)).val : ℝ) - 1| ≤ _
      rw [v1]
      norm_num
    · change |((Demo64.ofRat (129 / 128)).val : ℝ) - 1| ≤ _
      rw [v2]
      norm_num
  · have h3 := (Rat.cast_le (K := ℝ)).2 default_tolerance.2.1
    push_cast at h3
    refine le_trans ?_ h3
    unfold newtonFloor
    norm_num

private theorem start_near : |(initCase9 0 : F64).val - -12 / 10| ≤ 1 / 10 ^ 15 ∧ |(initCase9 1 : F64).val - 1| ≤ 1 / 10 ^ 15 := by
  decide +kernel
private theorem start_fin : (initCase9 0 : F64).IsFinite ∧ (initCase9 1 : F64).IsFinite := by decide +kernel

/-- `C98_step` applies at the starting point `(-1.2, 1)` of case 9: the first pass leads to `(1, -3.84)` up to `1e-7`. -/
example : ∃ st' s' y, iterate case9Near (fromFunctionAndJacobian broydenCase9 broydenCase9Jac) .new
        ((fromFunctionAndJacobian broydenCase9 broydenCase9Jac).evaluate
          ((fromFunctionAndJacobian broydenCase9 broydenCase9Jac).setIteratives .new initCase9)).1 =
        .ok (st', s', .ok (amax (evaluateErrors case9Near (fromFunctionAndJacobian broydenCase9 broydenCase9Jac) s'))) ∧
      s'.inputs = y ∧ |((y 0).val : ℝ) - 1| ≤ 1 / 10 ^ 7 ∧ |((y 1).val : ℝ) + 384 / 100| ≤ 1 / 10 ^ 7 := by
  have hf := fromFunctionAndJacobian_computes (F := F64) broydenCase9 broydenCase9Jac (fun _ => .zero false)
  have hg := fromFunctionAndJacobian_differentiates (F := F64) broydenCase9 broydenCase9Jac (fun _ => .zero false)
  have hat : At (fromFunctionAndJacobian broydenCase9 broydenCase9Jac) (fun s => s.right = fun _ => .zero false) case9F
      ((fromFunctionAndJacobian broydenCase9 broydenCase9Jac).evaluate
          ((fromFunctionAndJacobian broydenCase9 broydenCase9Jac).setIteratives .new initCase9)).1 initCase9 :=
    ⟨hf.keeps _ _ rfl trivial, hf.iteratives _ _ rfl trivial, hf.residuals _ _ rfl trivial⟩
  have hx : ∀ i, (initCase9 i : F64).IsFinite := Fin.forall_fin_two.2 start_fin
  have a0 := (Rat.cast_le (K := ℝ)).2 start_near.1
  have a1 := (Rat.cast_le (K := ℝ)).2 start_near.2
  push_cast at a0 a1
  change |rv (initCase9 0) - -12 / 10| ≤ _ at a0
  change |rv (initCase9 1) - 1| ≤ _ at a1
  rw [abs_le] at a0 a1
  have h0 : |rv (initCase9 0)| ≤ 13 / 10 := by rw [abs_le]; constructor <;> linarith
  have h1 : |rv (initCase9 1)| ≤ 1200 := by rw [abs_le]; constructor <;> linarith
  have h0' : |rv (initCase9 0)| ≤ 33 := h0.trans (by norm_num)
  have hX : ‖reals initCase9 - (case9B (reals initCase9)).mulVec (case9Phi (reals initCase9))‖ ≤ 5 := by
    rw [case9_exact]
    refine (pi_norm_le_iff_of_nonneg (by norm_num)).2 (Fin.forall_fin_two.2 ⟨?_, ?_⟩)
    · change |(1 : ℝ)| ≤ _
      norm_num
    · change |1 - (1 - rv (initCase9 0)) ^ 2| ≤ _
      rw [abs_le]
      constructor <;> nlinarith
  have hphi : ‖case9Phi (reals initCase9)‖ ≤ 5 := by
    refine (pi_norm_le_iff_of_nonneg (by norm_num)).2 (Fin.forall_fin_two.2 ⟨?_, ?_⟩)
    · change |10 * (rv (initCase9 1) - rv (initCase9 0) ^ 2)| ≤ _
      rw [abs_le]
      constructor <;> nlinarith
    · change |1 - rv (initCase9 0)| ≤ _
      rw [abs_le]
      constructor <;> linarith
  obtain ⟨st', s', y, k1, k2, -, -, -, k6⟩ := C98_step (c := case9Near) (n := 2) (st := .new) (M := 5) (X := 5) (D := fun _ => True)
    (by norm_num) ⟨rfl, fun _ => rfl, fun _ => rfl, fun _ => rfl⟩ (C96_dot (by norm_num)) rfl rfl hf hg
    (case9_posed (x := reals initCase9) (a := 13 / 10) (α := 26) (β := 27 / 10) h0 (by norm_num) (by norm_num) (by norm_num)
      (by norm_num) (by norm_num) (by norm_num) (by norm_num)) (by norm_num) hx (by norm_num : (0 : ℝ) ≤ 2 / 10 ^ 11)
    (case9_jacobian hx h0').1 (case9_jacobian hx h0').2 (by norm_num) (case9_evaluates hx h0' h1).1
    (case9_evaluates hx h0' h1).2 hphi hX
    ((by norm_num : (5 : ℝ) + 1 / 10 ^ 9 ≤ 2 ^ 3).trans (pow_le_pow_right₀ (by norm_num) (by norm_num)))
    ((zpow_le_zpow_right₀ (by norm_num) (by norm_num : (-900 : ℤ) ≤ 0)).trans (by norm_num))
    ((by norm_num : (5 : ℝ) ≤ 2 ^ 3).trans (pow_le_pow_right₀ (by norm_num) (by norm_num)))
    (fun _ _ _ => trivial) rfl hat
  have k7 := k6.trans (by unfold stepError; norm_num : stepError 2 26 (27 / 10) (2 / 10 ^ 11) (1 / 10 ^ 9) 5 5 ≤ 9 / 10 ^ 8)
  rw [case9_exact] at k7
  refine ⟨st', s', y, k1, k2.iteratives, ?_, ?_⟩
  · exact ((norm_le_pi_norm (reals y - ![1, 1 - (1 - reals initCase9 0) ^ 2]) 0).trans k7).trans (by norm_num)
  · have k8 : |rv (y 1) - (1 - (1 - rv (initCase9 0)) ^ 2)| ≤ 9 / 10 ^ 8 :=
      (norm_le_pi_norm (reals y - ![1, 1 - (1 - reals initCase9 0) ^ 2]) 1).trans k7
    change |rv (y 1) + 384 / 100| ≤ _
    rw [abs_le] at k8 ⊢
    constructor <;> nlinarith

end Nrf
