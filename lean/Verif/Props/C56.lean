import Verif.Proofs.OneDim
import Mathlib.Algebra.Order.Archimedean.Basic
import Mathlib.Tactic.Positivity

/-!
# C56: square roots converge from any positive guess
-/

namespace Nrf
open Spec
open scoped Exact

section
variable {K : Type} [Field K] [LinearOrder K] [IsStrictOrderedRing K]

section
variable {a x p : K}

private theorem next_pos (ha : 0 < a) (hx : 0 < x) (hp : 0 ≤ p) : 0 < x - (x * x - a) / (2 * x + p) := by
  have h : x - (x * x - a) / (2 * x + p) = (x * x + p * x + a) / (2 * x + p) := by
    have : 2 * x + p ≠ 0 := by positivity
    field_simp
    ring
  rw [h]
  positivity

private theorem next_res (hx : 0 < x) (hp : 0 ≤ p) :
    (x - (x * x - a) / (2 * x + p)) * (x - (x * x - a) / (2 * x + p)) - a =
      (x * x - a) * (((x + p) * (x + p) - a) / ((2 * x + p) * (2 * x + p))) := by
  have : 2 * x + p ≠ 0 := by positivity
  field_simp
  ring

private theorem ratio_le (ha : 0 < a) (hx : 0 < x) (hp : 0 ≤ p) {A B l : K} (hA : 0 ≤ A) (hB : 0 ≤ B) (hl : 0 < l)
    (hlx : l ≤ x) (hpB : p ≤ A + B * x) :
    ((x + p) * (x + p) - a) / ((2 * x + p) * (2 * x + p)) ≤ 1 - l / (A + (2 + B) * l) :=
  calc ((x + p) * (x + p) - a) / ((2 * x + p) * (2 * x + p)) ≤ (x + p) / (2 * x + p) := by
        rw [div_le_div_iff₀ (by positivity) (by positivity)]
        have : ((x + p) * (x + p) - a) * (2 * x + p) ≤ (x + p) * (2 * x + p) * (2 * x + p) :=
          mul_le_mul_of_nonneg_right (by nlinarith) (by positivity)
        linarith
    _ = 1 - x / (2 * x + p) := by
        have : 2 * x + p ≠ 0 := by positivity
        field_simp
        ring
    _ ≤ 1 - l / (A + (2 + B) * l) := by
        apply sub_le_sub_left
        rw [div_le_div_iff₀ (by positivity) (by positivity)]
        have h1 : A * l ≤ A * x := mul_le_mul_of_nonneg_left hlx hA
        have h2 : l * p ≤ l * (A + B * x) := mul_le_mul_of_nonneg_left hpB hl.le
        nlinarith

private theorem jump_le (ha : 0 < a) (hx : 0 < x) (hp : 0 ≤ p) {g : K} (hg : 0 < g) (hgx : g ≤ x) (he : x * x - a ≤ 0)
    (hw : (x + p) * (x + p) - a ≤ 0) :
    (x * x - a) * (((x + p) * (x + p) - a) / ((2 * x + p) * (2 * x + p))) ≤ a * (a / (4 * (g * g))) := by
  rw [← neg_mul_neg, ← neg_div]
  refine mul_le_mul (by nlinarith) ?_ (div_nonneg (by linarith) (by positivity)) ha.le
  rw [div_le_div_iff₀ (by positivity) (by positivity)]
  refine mul_le_mul (by nlinarith) ?_ (by positivity) ha.le
  nlinarith [mul_le_mul hgx hgx hg.le hx.le, mul_nonneg hx.le hp]

private theorem low_bound {e : K} (he : 0 ≤ e) (hx : 0 < x) (h : x * x - a = e) : min 1 a ≤ x := by
  by_contra hlt
  push Not at hlt
  have h1 : x < 1 := hlt.trans_le (min_le_left _ _)
  have h2 : x < a := hlt.trans_le (min_le_right _ _)
  nlinarith

end

variable [Archimedean K]

/-- The common part: the slope used at `x` is `2 x + p x`. -/
private theorem squares (a guess tol A B : K) (ha : 0 < a) (hguess : 0 < guess) (htol : 0 < tol) (hA : 0 ≤ A)
    (hB : 0 ≤ B) :
    ∃ N, ∀ c : Config K 1, Spec.Default c → c.params.method = .NewtonRaphson → c.guess 0 = guess →
      c.params.tolerance = tol → N ≤ c.params.maxIter →
      ∀ (m : UserModel K 1 Empty Empty (AdapterState K 1)) (p : K → K),
      Computes m (fun s => s.right = 0) (fun _ => True) (fun x => ⟨fun _ => x 0 * x 0 - a, 0⟩) →
      (∀ x, 0 < x → 0 ≤ p x ∧ p x ≤ A + B * x ∧ ∃ q, Source c m (fun s => s.right = 0) (fun _ => True)
        (fun x => ⟨fun _ => x 0 * x 0 - a, 0⟩) (vec1 x) (vec1 q) (mat1 (2 * x + p x))) →
      ∀ s : AdapterState K 1, s.right = 0 → ∃ st' s', solve c m .new s = .ok (st', s', .ok ()) ∧
        0 < m.getIteratives s' 0 ∧ |m.getIteratives s' 0 * m.getIteratives s' 0 - a| ≤ tol := by
  set l := min guess (min 1 a) with hldef
  have hl : 0 < l := lt_min hguess (lt_min one_pos ha)
  set θ := 1 - l / (A + (2 + B) * l) with hθ
  have hden : 0 < A + (2 + B) * l := by positivity
  have hθ1 : θ < 1 := by
    have : 0 < l / (A + (2 + B) * l) := by positivity
    linarith
  have hθ0 : 0 < θ := by
    have : l / (A + (2 + B) * l) < 1 := by rw [div_lt_one hden]; nlinarith
    linarith
  set C := |guess * guess - a| + a * (a / (4 * (guess * guess))) with hC
  have hCpos : 0 < C := by positivity
  obtain ⟨N, hN⟩ := exists_pow_lt_of_lt_one (div_pos htol hCpos) hθ1
  rw [lt_div_iff₀ hCpos] at hN
  have hNle : ∀ k, N ≤ k → θ ^ k * C ≤ tol := fun k hk =>
    (mul_le_mul_of_nonneg_right (pow_le_pow_of_le_one hθ0.le hθ1.le hk) hCpos.le).trans hN.le
  refine ⟨2 * N, fun c hc hm hg0 htol0 hmax m p hf hsrc s hs => ?_⟩
  set f : Vec K 1 → ResidualsValues K 1 := fun x => ⟨fun _ => x 0 * x 0 - a, 0⟩ with hfdef
  have hupd : ∀ x, updateAt c f (vec1 x) 0 = x * x - a := fun x => by
    rw [hfdef, updateAt_zero hc]; rfl
  have hamax : ∀ x, amax (errorsAt c f (vec1 x)) = |x * x - a| := fun x => by
    rw [amax_single, hfdef, errorsAt_zero hc (fun x _ => x 0 * x 0 - a), abs_abs]
    rfl
  have hcont : ∀ st x s, At m (fun s => s.right = 0) f s (vec1 x) →
      (continues c st (amax (evaluateErrors c m s)) = true ↔ tol < |x * x - a| ∧ st.iter < c.params.maxIter) := by
    intro st x s hat
    rw [hat.errors, hamax, continues, Bool.and_eq_true, ex_lt, decide_eq_true_iff, htol0]
  obtain ⟨k, st', s', h1, ⟨x, hat, hd, hv, hx, hcase⟩, h3, h4⟩ := solve_follow (c := c) hf
    (fun k st s => ∃ x, At m (fun s => s.right = 0) f s (vec1 x) ∧ st.debug = false ∧ st.valid = true ∧ 0 < x ∧
      ((x * x - a ≤ 0 ∧ guess ≤ x ∧ -(x * x - a) ≤ θ ^ k * C) ∨
       (0 ≤ x * x - a ∧ ∃ j, k ≤ N + j ∧ x * x - a ≤ θ ^ j * C)))
    (by
      rintro k st s ⟨x, hat, hd, hv, hx, hcase⟩ hgo
      obtain ⟨hgt, -⟩ := (hcont st x s hat).1 hgo
      obtain ⟨hp0, hpB, q, hq⟩ := hsrc x hx
      obtain ⟨st', s', hi, hat', hd', hv'⟩ := newton_pass hc hm hf hq (by positivity)
        (show x - (x * x - a) / (2 * x + p x) = _ by rw [hupd]) trivial hd hat
      refine ⟨st', s', hi, _, hat', hd', hv', next_pos ha hx hp0, ?_⟩
      rw [next_res hx hp0]
      rcases hcase with ⟨he, hgx, hbd⟩ | ⟨he, j, hkj, hbd⟩
      · rcases le_total ((x + p x) * (x + p x) - a) 0 with hw | hw
        · -- the jump above the root
          refine .inr ⟨mul_nonneg_of_nonpos_of_nonpos he (div_nonpos_of_nonpos_of_nonneg hw (by positivity)),
            0, ?_, ?_⟩
          · by_contra hk
            rw [abs_of_nonpos he] at hgt
            exact absurd (hbd.trans (hNle k (by omega))) (not_le.2 hgt)
          · rw [pow_zero, one_mul]
            refine (jump_le ha hx hp0 hguess hgx he hw).trans ?_
            rw [hC]
            linarith [abs_nonneg (guess * guess - a)]
        · -- rising towards the root
          have hlx : l ≤ x := (min_le_left _ _).trans hgx
          have hr := ratio_le ha hx hp0 hA hB hl hlx hpB
          refine .inl ⟨mul_nonpos_of_nonpos_of_nonneg he (by positivity), ?_, ?_⟩
          · have : (x * x - a) / (2 * x + p x) ≤ 0 := div_nonpos_of_nonpos_of_nonneg he (by positivity)
            linarith
          · rw [← neg_mul, pow_succ, mul_right_comm]
            exact mul_le_mul hbd hr (by positivity) (by positivity)
      · -- descending towards the root
        have hlx : l ≤ x := (min_le_right _ _).trans (low_bound he hx rfl)
        have hr := ratio_le ha hx hp0 hA hB hl hlx hpB
        have hw : 0 ≤ (x + p x) * (x + p x) - a := by nlinarith
        refine .inr ⟨by positivity, j + 1, by omega, ?_⟩
        rw [pow_succ, mul_right_comm]
        exact mul_le_mul hbd hr (by positivity) (by positivity))
    hs trivial
    (fun s0 h0 => ⟨guess, by rw [vec_one c.guess, hg0] at h0; exact h0, rfl, rfl, hguess, by
      have h1 : |guess * guess - a| ≤ C := by
        rw [hC]
        have : 0 < a * (a / (4 * (guess * guess))) := by positivity
        linarith
      rw [pow_zero, one_mul]
      rcases le_total (guess * guess - a) 0 with h | h
      · exact .inl ⟨h, le_refl _, (abs_of_nonpos h).symm.le.trans h1⟩
      · exact .inr ⟨h, 0, by omega, by rw [pow_zero, one_mul]; exact (abs_of_nonneg h).symm.le.trans h1⟩⟩)
  have hle : |x * x - a| ≤ tol := by
    by_contra hgt
    have hk : ¬ st'.iter < c.params.maxIter := fun h => by
      rw [(hcont st' x s' hat).2 ⟨not_le.1 hgt, h⟩] at h3; cases h3
    apply hgt
    rcases hcase with ⟨he, -, hbd⟩ | ⟨he, j, hkj, hbd⟩
    · rw [abs_of_nonpos he]; exact hbd.trans (hNle k (by omega))
    · rw [abs_of_nonneg he]; exact hbd.trans (hNle j (by omega))
  have hx0 : m.getIteratives s' 0 = x := by rw [hat.iteratives]; rfl
  refine ⟨st', s', ?_, by rw [hx0]; exact hx, by rw [hx0]; exact hle⟩
  rw [h1, hat.errors, hamax, finalResult, htol0, if_neg, if_pos hv]
  rw [ex_lt]; exact not_lt.2 hle

/-- `x² = a` with its derivative, no limits, no damping: for every `a > 0`, guess and tolerance there
is an iteration count from which on Newton-Raphson returns `Ok` at a positive point within the
tolerance. -/
theorem C56_analytic (a guess tol : K) (ha : 0 < a) (hguess : 0 < guess) (htol : 0 < tol) :
    ∃ N, ∀ c : Config K 1, Spec.Default c → c.params.method = .NewtonRaphson → c.guess 0 = guess →
      c.params.tolerance = tol → N ≤ c.params.maxIter → ∀ s : AdapterState K 1, s.right = 0 →
      ∃ st' s', solve c (Spec.square a) .new s = .ok (st', s', .ok ()) ∧
        0 < s'.inputs 0 ∧ |s'.inputs 0 * s'.inputs 0 - a| ≤ tol := by
  obtain ⟨N, hN⟩ := squares a guess tol 0 0 ha hguess htol (le_refl _) (le_refl _)
  refine ⟨N, fun c hc hm hg ht hmax s hs => hN c hc hm hg ht hmax (Spec.square a) (fun _ => 0)
    (fromFunctionAndJacobian_computes _ _ 0) (fun x hx => ⟨le_refl _, by simp, 0, ?_⟩) s hs⟩
  rw [add_zero]
  exact analytic_source hc (fun x => x * x - a) (fun x => 2 * x) x

/-- The documented example (`solver/mod.rs` L26-47): the derivative by finite differences, with any
accepted perturbation parameters. -/
theorem C56_finite_differences (a guess tol : K) (ha : 0 < a) (hguess : 0 < guess) (htol : 0 < tol)
    (pp : IterativeParamsFD K) (hda : 0 < pp.dxAbs) (hdr : 0 < pp.dxRel) :
    ∃ N, ∀ c : Config K 1, Spec.Default c → c.params.method = .NewtonRaphson → c.guess 0 = guess →
      c.params.tolerance = tol → N ≤ c.params.maxIter →
      (c.iters 0).computePerturbation = some pp.computePerturbation → ∀ s : AdapterState K 1, s.right = 0 →
      ∃ st' s', solve c (Spec.squareFd a) .new s = .ok (st', s', .ok ()) ∧
        0 < s'.inputs 0 ∧ |s'.inputs 0 * s'.inputs 0 - a| ≤ tol := by
  obtain ⟨N, hN⟩ := squares a guess tol pp.dxAbs pp.dxRel ha hguess htol hda.le hdr.le
  refine ⟨N, fun c hc hm hg ht hmax hpp s hs => hN c hc hm hg ht hmax (Spec.squareFd a) pp.computePerturbation
    (fromFunction_computes _ 0) (fun x hx => ?_) s hs⟩
  have hb : 0 < pp.computePerturbation x ∧ pp.computePerturbation x ≤ pp.dxAbs + pp.dxRel * x := by
    unfold IterativeParamsFD.computePerturbation
    have hxr : 0 < x * pp.dxRel := by positivity
    split
    · rw [ex_max, ex_mul, ex_abs, abs_of_pos hx]
      exact ⟨lt_max_of_lt_left hda, max_le (by linarith) (by linarith)⟩
    · rw [ex_add, ex_mul, ex_abs, abs_of_pos hx]
      exact ⟨by linarith, by linarith⟩
  refine ⟨hb.1.le, hb.2, pp.computePerturbation x, ?_⟩
  have h := fd_source hc (fun x => x * x - a) hpp x hb.1.ne'
  have e : ((x + pp.computePerturbation x) * (x + pp.computePerturbation x) - a - (x * x - a)) /
      pp.computePerturbation x = 2 * x + pp.computePerturbation x := by
    have := hb.1.ne'
    field_simp
    ring
  rw [e] at h
  exact h

end

/-! ### The hypotheses can be met -/

example : ∃ N, ∀ maxIter, N ≤ maxIter → ∃ st' s',
    solve (Demo.plain .NewtonRaphson (1 / 1000) (1 / 100) maxIter) (Spec.square 2) .new ⟨0, 0, 0⟩ =
      .ok (st', s', .ok ()) ∧ |s'.inputs 0 * s'.inputs 0 - 2| ≤ 1 / 100 := by
  obtain ⟨N, hN⟩ := C56_analytic (2 : ℚ) (1 / 1000) (1 / 100) (by norm_num) (by norm_num) (by norm_num)
  refine ⟨N, fun maxIter h => ?_⟩
  obtain ⟨st', s', h1, -, h2⟩ := hN (Demo.plain _ _ _ maxIter) (Demo.plain_default _ _ _ _) rfl rfl rfl h
    ⟨0, 0, 0⟩ rfl
  exact ⟨st', s', h1, h2⟩

/-- The documented parameters `dx_abs = dx_rel = 5e-8`, guess 1, over the reals. -/
noncomputable def Spec.realFdConfig (tol : ℝ) (maxIter : Nat) (pp : IterativeParamsFD ℝ) : Config ℝ 1 :=
  { Spec.realConfig .NewtonRaphson 1 tol maxIter with
    iters := fun _ =>
      { stepLimitation := fun v d => v + d, computePerturbation := some pp.computePerturbation,
        withFiniteDiff := true } }

example : ∃ N, ∀ maxIter, N ≤ maxIter → ∃ st' s',
    solve (Spec.realFdConfig (1 / 10 ^ 6) maxIter
        ⟨⟨0, 0, 0, 0⟩, .Max, 5 / 10 ^ 8, 5 / 10 ^ 8⟩) (Spec.squareFd 2) .new ⟨0, 0, 0⟩ =
      .ok (st', s', .ok ()) ∧ |s'.inputs 0 * s'.inputs 0 - 2| ≤ 1 / 10 ^ 6 := by
  obtain ⟨N, hN⟩ := C56_finite_differences (2 : ℝ) 1 (1 / 10 ^ 6) (by norm_num) (by norm_num) (by norm_num)
    ⟨⟨0, 0, 0, 0⟩, .Max, 5 / 10 ^ 8, 5 / 10 ^ 8⟩ (by norm_num) (by norm_num)
  refine ⟨N, fun maxIter h => ?_⟩
  obtain ⟨st', s', h1, -, h2⟩ := hN (Spec.realFdConfig _ maxIter _)
    ⟨exactLinAlg_isExact ℝ 1, rfl, fun _ _ _ => rfl, fun _ => rfl, fun _ => rfl⟩ rfl rfl rfl h rfl ⟨0, 0, 0⟩ rfl
  exact ⟨st', s', h1, h2⟩

end Nrf
