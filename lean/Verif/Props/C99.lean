import Verif.Proofs.Case9Pass
import Verif.Props.C97

/-!
# C99: Newton-Raphson solves case 9 in binary64 from every guess in a box
-/

namespace Nrf
open Spec Fl TestCases

/-- What the solve of case 9 in binary64 returns, given the tolerance `t`: the two equations hold up to the tolerance and the
errors of their evaluation, and the solution `(1, 1)` is that close. -/
def Spec.SolvesCase9Float (c : Config F64 2) (s : AdapterState F64 2) : Prop :=
  ∃ st' s', solve c (fromFunctionAndJacobian broydenCase9 broydenCase9Jac) .new s = .ok (st', s', .ok ()) ∧ st'.iter ≤ 3 ∧
    (s'.inputs 0).IsFinite ∧ (s'.inputs 1).IsFinite ∧
    |10 * ((s'.inputs 1).val - (s'.inputs 0).val ^ 2)| ≤ c.params.tolerance.val + 1 / 10 ^ 9 ∧
    |(s'.inputs 0).val - 1| ≤ c.params.tolerance.val + 1 / 10 ^ 9 ∧
    |(s'.inputs 1).val - 1| ≤ 3 * (c.params.tolerance.val + 1 / 10 ^ 9)

/-- The points after `k` passes. -/
private def stage (k : Nat) (x : Vec F64 2) : Prop :=
  (∀ i, (x i).IsFinite) ∧
  match k with
  | 0 => |rv (x 0)| ≤ 32 ∧ |rv (x 1)| ≤ 32
  | 1 => |rv (x 0) - 1| ≤ 1 / 20 ∧ |rv (x 1)| ≤ 1100
  | 2 => |rv (x 0) - 1| ≤ 1 / 10 ^ 5 ∧ |rv (x 1) - 1| ≤ 1 / 200
  | _ => |rv (x 0) - 1| ≤ 1 / 10 ^ 8 ∧ |rv (x 1) - 1| ≤ 1 / 10 ^ 8

private theorem stage_box {k : Nat} {x : Vec F64 2} (h : stage k x) : |rv (x 0)| ≤ 33 ∧ |rv (x 1)| ≤ 1200 := by
  obtain ⟨-, h⟩ := h
  match k with
  | 0 => exact ⟨h.1.trans (by norm_num), h.2.trans (by norm_num)⟩
  | 1 =>
    have h0 := abs_le.1 h.1
    exact ⟨by rw [abs_le]; constructor <;> linarith, h.2.trans (by norm_num)⟩
  | 2 =>
    have h0 := abs_le.1 h.1
    have h1 := abs_le.1 h.2
    constructor <;> rw [abs_le] <;> constructor <;> linarith
  | k + 3 =>
    have h0 := abs_le.1 h.1
    have h1 := abs_le.1 h.2
    constructor <;> rw [abs_le] <;> constructor <;> linarith

private theorem square_bound {a r : ℝ} (h : |a| ≤ r) : a ^ 2 ≤ r ^ 2 := by
  rw [← sq_abs]
  exact pow_le_pow_left₀ (_root_.abs_nonneg _) h 2

/-- Newton-Raphson with the Jacobian of the crate and nalgebra's LU inverse, in binary64: from every finite guess in the box
`[-32, 32]²`, case 9 is solved within 3 iterations. -/
theorem C99_box {c : Config F64 2} (hc : SystemDefault c) (hdot : AccurateDot c.la) (hla : c.la.inv = luInverse)
    (hmeth : c.params.method = .NewtonRaphson) (hg : ∀ i, (c.guess i).IsFinite) (hbox : ∀ i, |(c.guess i).val| ≤ 32)
    (ht : c.params.tolerance.IsFinite) (ht0 : 1 / 10 ^ 6 / 2 ≤ c.params.tolerance.val) (ht1 : c.params.tolerance.val ≤ 1 / 2)
    (hN : 3 ≤ c.params.maxIter) (s : AdapterState F64 2) (hs : s.right = fun _ => .zero false) : SolvesCase9Float c s := by
  have ht0' := (Rat.cast_le (K := ℝ)).2 ht0
  have ht1' := (Rat.cast_le (K := ℝ)).2 ht1
  push_cast at ht0' ht1'
  have hf := fromFunctionAndJacobian_computes (F := F64) broydenCase9 broydenCase9Jac (fun _ => .zero false)
  have hb : ∀ i, |rv (c.guess i)| ≤ 32 := by
    intro i
    have := (Rat.cast_le (K := ℝ)).2 (hbox i)
    push_cast at this
    exact this
  obtain ⟨st', s', x, k, h1, h2, h3, -, h5, h6⟩ := system_reaches (f := case9F) hc hf stage (N := 3) ⟨hg, hb 0, hb 1⟩ trivial
    (fun k x hx => (case9_evaluates hx.1 (stage_box hx).1 (stage_box hx).2).1)
    (by
      intro k x st s hk hx hdb hat
      have hbx := stage_box hx
      match k, hk with
      | 0, _ =>
        obtain ⟨hfin, h0, h1⟩ := hx
        have a0 := abs_le.1 h0
        have a1 := abs_le.1 h1
        have q := square_bound h0
        have q0 := sq_nonneg (rv (x 0))
        obtain ⟨st', s', y, k1, k2, k3, k4, k5, k6, k7⟩ := case9_pass hc hdot hla hmeth hfin (a := 32) (α := 640)
          (β := 641 / 10) (M := 10560) (δ := 1 / 20) h0 (by norm_num) hbx.2 (by norm_num) (by norm_num) (by norm_num)
          (by norm_num) (by norm_num) (by norm_num) (by norm_num)
          (by rw [abs_le]; constructor <;> linarith)
          (by rw [abs_le]; constructor <;> linarith) (by norm_num) (by unfold stepError; norm_num) hdb hat
        refine ⟨st', s', y, k1, k2, k3, k4, k5, k6, ?_⟩
        have b := abs_le.1 k7
        rw [abs_le]
        constructor <;> nlinarith
      | 1, _ =>
        obtain ⟨hfin, h0, h1⟩ := hx
        have a0 := abs_le.1 h0
        have a1 := abs_le.1 h1
        have q := square_bound h0
        have q0 := sq_nonneg (rv (x 0) - 1)
        obtain ⟨st', s', y, k1, k2, k3, k4, k5, k6, k7⟩ := case9_pass hc hdot hla hmeth hfin (a := 21 / 20) (α := 21)
          (β := 22 / 10) (M := 11020) (δ := 1 / 10 ^ 5) (by rw [abs_le]; constructor <;> linarith) (by norm_num) hbx.2
          (by norm_num) (by norm_num) (by norm_num)
          (by norm_num) (by norm_num) (by norm_num) (by norm_num)
          (by rw [abs_le]; constructor <;> nlinarith)
          (by rw [abs_le]; constructor <;> linarith) (by norm_num) (by unfold stepError; norm_num) hdb hat
        refine ⟨st', s', y, k1, k2, k3, k4, k5, k6, ?_⟩
        have b := abs_le.1 k7
        rw [abs_le]
        constructor <;> nlinarith
      | 2, _ =>
        obtain ⟨hfin, h0, h1⟩ := hx
        have a0 := abs_le.1 h0
        have a1 := abs_le.1 h1
        have q := square_bound h0
        have q0 := sq_nonneg (rv (x 0) - 1)
        obtain ⟨st', s', y, k1, k2, k3, k4, k5, k6, k7⟩ := case9_pass hc hdot hla hmeth hfin (a := 21 / 20) (α := 21)
          (β := 22 / 10) (M := 6 / 100) (δ := 9 / 10 ^ 9) (by rw [abs_le]; constructor <;> linarith) (by norm_num) hbx.2
          (by norm_num) (by norm_num) (by norm_num)
          (by norm_num) (by norm_num) (by norm_num) (by norm_num)
          (by rw [abs_le]; constructor <;> nlinarith)
          (by rw [abs_le]; constructor <;> linarith) (by norm_num) (by unfold stepError; norm_num) hdb hat
        refine ⟨st', s', y, k1, k2, k3, k4, k5, k6.trans (by norm_num), ?_⟩
        have b := abs_le.1 k7
        rw [abs_le]
        constructor <;> nlinarith)
    ht (by linarith) hN
    (by
      intro x hx
      have he := (case9_evaluates hx.1 (stage_box hx).1 (stage_box hx).2).2
      have a0 := abs_le.1 hx.2.1
      have a1 := abs_le.1 hx.2.2
      have q := square_bound hx.2.1
      have q0 := sq_nonneg (rv (x 0) - 1)
      have hphi : ‖case9Phi (reals x)‖ ≤ 4 / 10 ^ 7 := by
        refine (pi_norm_le_iff_of_nonneg (by norm_num)).2 (Fin.forall_fin_two.2 ⟨?_, ?_⟩)
        · change |10 * (rv (x 1) - rv (x 0) ^ 2)| ≤ _
          rw [abs_le]
          constructor <;> nlinarith
        · change |1 - rv (x 0)| ≤ _
          rw [abs_le]
          constructor <;> linarith
      have := norm_sub_norm_le (reals (differences case9F x)) (case9Phi (reals x))
      linarith) hs
  have hin : s'.inputs = x := h3.iteratives
  have he := (case9_evaluates h5.1 (stage_box h5).1 (stage_box h5).2).2
  rw [norm_sub_rev] at he
  have hphi : ‖case9Phi (reals x)‖ ≤ c.params.tolerance.val + 1 / 10 ^ 9 := by
    have := norm_sub_norm_le (case9Phi (reals x)) (reals (differences case9F x))
    linarith
  have p0 : |10 * (rv (x 1) - rv (x 0) ^ 2)| ≤ (c.params.tolerance.val : ℝ) + 1 / 10 ^ 9 :=
    (norm_le_pi_norm (case9Phi (reals x)) 0).trans hphi
  have p1 : |1 - rv (x 0)| ≤ (c.params.tolerance.val : ℝ) + 1 / 10 ^ 9 :=
    (norm_le_pi_norm (case9Phi (reals x)) 1).trans hphi
  have p2 : |rv (x 1) - 1| ≤ 3 * ((c.params.tolerance.val : ℝ) + 1 / 10 ^ 9) := by
    have q := square_bound p1
    have q0 := sq_nonneg (1 - rv (x 0))
    have b0 := abs_le.1 p0
    have b1 := abs_le.1 p1
    generalize (c.params.tolerance.val : ℝ) = t at *
    have ht2 : (t + 1 / 10 ^ 9) ^ 2 ≤ 6 / 10 * (t + 1 / 10 ^ 9) := by nlinarith
    rw [abs_le]
    constructor <;> nlinarith
  refine ⟨st', s', h1, h2, ?_, ?_, ?_, ?_, ?_⟩
  · rw [hin]; exact h5.1 0
  · rw [hin]; exact h5.1 1
  · rw [hin]
    refine (Rat.cast_le (K := ℝ)).1 ?_
    push_cast
    exact p0
  · rw [hin, abs_sub_comm]
    refine (Rat.cast_le (K := ℝ)).1 ?_
    push_cast
    exact p1
  · rw [hin]
    refine (Rat.cast_le (K := ℝ)).1 ?_
    push_cast
    exact p2

/-- With the solver of `default_with_guess` (tolerance `1e-6`, 50 iterations), the default iteratives and residuals and
nalgebra's linear algebra. -/
theorem C99_default (g0 g1 : F64) (h0 : g0.IsFinite) (h1 : g1.IsFinite) (hb0 : |g0.val| ≤ 32) (hb1 : |g1.val| ≤ 32)
    (r : ResidualsConfig) (hr : ResidualsConfig.new (convertIntoVecs (defaultVecResiduals 2)).1
      (convertIntoVecs (defaultVecResiduals 2)).2 = some r) (h) (c : Config F64 2)
    (hc : defaultWithGuess [g0, g1] ((defaultVecIteratives 2).map IterativeParams.toIterative) r h .NewtonRaphson false
      (nalgebraLinAlg F64) = .ok c) (s : AdapterState F64 2) (hs : s.right = fun _ => .zero false) :
    SolvesCase9Float c s ∧ c.params.tolerance = Scalar.dec 1 6 := by
  have hd : SystemDefault c ∧ c.params.method = .NewtonRaphson ∧ c.guess = ![g0, g1] ∧ c.params.tolerance = Scalar.dec 1 6 ∧
      c.params.maxIter = 50 ∧ c.la = nalgebraLinAlg F64 2 := by
    cases hr
    cases hc
    refine ⟨⟨rfl, Fin.forall_fin_two.2 ⟨rfl, rfl⟩, Fin.forall_fin_two.2 ⟨rfl, rfl⟩, Fin.forall_fin_two.2 ⟨rfl, rfl⟩⟩, rfl,
      funext (Fin.forall_fin_two.2 ⟨rfl, rfl⟩), rfl, rfl, rfl⟩
  obtain ⟨hd, hm, hg, ht, hmax, hla⟩ := hd
  obtain ⟨t0, t1, t2⟩ := default_tolerance
  refine ⟨C99_box hd (by rw [hla]; exact C96_dot (by norm_num)) (by rw [hla]; rfl) hm ?_ ?_ (by rw [ht]; exact t0) ?_ ?_
    (by omega) s hs, ht⟩
  · rw [hg]
    exact Fin.forall_fin_two.2 ⟨h0, h1⟩
  · rw [hg]
    exact Fin.forall_fin_two.2 ⟨hb0, hb1⟩
  · rw [ht]
    exact le_trans (by norm_num) t1
  · rw [ht]
    exact t2.trans (by norm_num)

/-- The guess of the crate, `(-1.2, 1)`, is in the box. -/
theorem case9_guess : ((initCase9 0 : F64).IsFinite ∧ (initCase9 1 : F64).IsFinite) ∧ |(initCase9 0 : F64).val| ≤ 32 ∧
    |(initCase9 1 : F64).val| ≤ 32 := by decide +kernel

/-- `C99_default` applies to the guess of the crate, `(-1.2, 1)`. -/
example : ∃ c, defaultWithGuess [initCase9 0, initCase9 1] ((defaultVecIteratives 2).map IterativeParams.toIterative)
      ⟨[.Abs, .Abs], [.Abs, .Abs], 2⟩ ⟨rfl, rfl⟩ .NewtonRaphson false (nalgebraLinAlg F64) = .ok c ∧
    SolvesCase9Float c .new :=
  ⟨_, rfl, (C99_default (initCase9 0) (initCase9 1) case9_guess.1.1 case9_guess.1.2 case9_guess.2.1 case9_guess.2.2
    ⟨[.Abs, .Abs], [.Abs, .Abs], 2⟩ (by decide) ⟨rfl, rfl⟩ _ rfl .new rfl).1⟩

/-- `C99_box` applies with the tolerance `1e-6` and 3 iterations. -/
example : SolvesCase9Float { Demo64.pair .NewtonRaphson with
    params := { problemSize := 2, tolerance := Scalar.dec 1 6, maxIter := 3, method := .NewtonRaphson, damping := false } } .new :=
  C99_box (c := { Demo64.pair .NewtonRaphson with
      params := { problemSize := 2, tolerance := Scalar.dec 1 6, maxIter := 3, method := .NewtonRaphson, damping := false } })
    ⟨rfl, fun _ => rfl, fun _ => rfl, fun _ => rfl⟩ (C96_dot (by norm_num)) rfl rfl
    (pair_guess .NewtonRaphson).1 (by decide +kernel) default_tolerance.1 (le_trans (by norm_num) default_tolerance.2.1)
    (default_tolerance.2.2.trans (by norm_num)) le_rfl .new rfl

end Nrf
