import Verif.Props.C63
import Verif.Props.C68
import Verif.Props.C01
import Verif.Props.C02
import Verif.Props.C78
import Verif.Model.Lu
import Verif.Props.C80

/-!
# C88: the practical example of the documentation
-/

set_option linter.unusedSectionVars false

namespace Nrf
open Spec
open scoped Exact Topology
open Matrix Filter

/-- The equations of the crate's documentation (`lib.rs` L12-35):
`x1 x2 + x3 = 1`, `x1 x2 / x3 = x1 x3`, `x1 x3 - x3 / x2 - 1 = 0`. -/
def practical {F : Type} [Scalar F] (x : Vec F 3) : ResidualsValues F 3 where
  left := ![x 0 *ᶠ x 1 +ᶠ x 2, x 0 *ᶠ x 1 /ᶠ x 2, x 0 *ᶠ x 2 -ᶠ x 2 /ᶠ x 1 -ᶠ Scalar.one]
  right := ![Scalar.one, x 0 *ᶠ x 2, Scalar.zero]

/-- The sides are defined. -/
def Spec.PracticalDomain {K : Type} [Zero K] (x : Vec K 3) : Prop := x 1 ≠ 0 ∧ x 2 ≠ 0

section Exact
variable {K : Type} [Field K] [LinearOrder K] [IsStrictOrderedRing K]

theorem practical_exact (x : Vec K 3) : practical x =
    ⟨![x 0 * x 1 + x 2, x 0 * x 1 / x 2, x 0 * x 2 - x 2 / x 1 - 1], ![1, x 0 * x 2, 0]⟩ := rfl

/-- The example has exactly one solution, `(0, -1, 1)`. -/
theorem C88_unique (x : Vec K 3) (hx : PracticalDomain x) :
    (practical x).left = (practical x).right ↔ x = ![0, -1, 1] := by
  obtain ⟨h1, h2⟩ := hx
  rw [practical_exact]
  constructor
  · intro h
    have e0 : x 0 * x 1 + x 2 = 1 := congrFun h 0
    have e1 : x 0 * x 1 / x 2 = x 0 * x 2 := congrFun h 1
    have e2 : x 0 * x 2 - x 2 / x 1 - 1 = 0 := congrFun h 2
    rw [div_eq_iff h2] at e1
    by_cases h0 : x 0 = 0
    · rw [h0] at e0 e2
      have e3 : x 2 = 1 := by linarith
      rw [e3] at e2
      have e4 : x 1 = -1 := by
        field_simp at e2
        linarith
      funext i
      fin_cases i
      · exact h0
      · exact e4
      · exact e3
    · exfalso
      have e3 : x 1 = x 2 * x 2 := by
        apply mul_left_cancel₀ h0
        rw [e1]; ring
      rw [e3] at e0 e2
      have e4 : x 0 * x 2 * x 2 - 1 - x 2 = 0 := by
        have : x 2 / (x 2 * x 2) = 1 / x 2 := by field_simp
        rw [this] at e2
        field_simp at e2
        linarith
      apply h2
      linarith
  · rintro rfl
    have e : (![0, -1, 1] : Vec K 3) 2 = 1 := rfl
    funext i
    fin_cases i <;> simp [e]

variable {EI EU S : Type}

/-- A relative criterion on the second equation (the sides of which vanish at the solution) accepts a point with
negative `x2` only when `x1` is exactly zero, or when the sides are exactly opposite (`x2 = - x3 ^ 2`; the quotient by zero is
zero in the exact arithmetic of the model, in floating point see `C88_opposite_refuted`); on the third equation only when
the equation holds exactly.  The tolerance may be anything below 200 %. -/
theorem C88_relative_refuted (m : UserModel K 3 EI EU S) (c : Config K 3) (st st' : Solver K 3) (s s' : S)
    (hm : m.getResiduals s' = practical (m.getIteratives s')) (hD : PracticalDomain (m.getIteratives s'))
    (ht : c.params.tolerance < 2) (h : solve c m st s = .ok (st', s', .ok ())) :
    (c.res.stop 1 = .Rel → m.getIteratives s' 1 < 0 → m.getIteratives s' 0 = 0 ∨
      m.getIteratives s' 1 = -m.getIteratives s' 2 ^ 2) ∧
    (c.res.stop 2 = .Rel → (practical (m.getIteratives s')).left 2 = 0) := by
  have h3 := C01_ok_means_solved c m st st' s s' h
  rw [hm] at h3
  generalize m.getIteratives s' = x at h3 hD
  constructor
  · intro hi hneg
    by_contra hor
    obtain ⟨h0, hsq⟩ := not_or.1 hor
    have h4 := h3 1
    rw [hi, practical_exact] at h4
    change abs ((x 0 * x 1 / x 2 - x 0 * x 2) / (|x 0 * x 1 / x 2 + x 0 * x 2| / 2)) ≤ _ at h4
    set l := x 0 * x 1 / x 2 with hl
    set r := x 0 * x 2 with hr
    have hr0 : r ≠ 0 := mul_ne_zero h0 hD.2
    have hlr : l * r < 0 := by
      have : l * r = x 0 ^ 2 * x 1 := by rw [hl, hr]; field_simp [hD.2]
      rw [this]
      exact mul_neg_of_pos_of_neg (by positivity) hneg
    have hle : |l + r| ≤ |l - r| := by
      rw [← sq_le_sq]
      nlinarith
    have hlr0 : 0 < |l - r| := by
      rw [abs_pos, sub_ne_zero]
      rintro he
      rw [he] at hlr
      nlinarith [mul_self_nonneg r]
    by_cases hs : l + r = 0
    · apply hsq
      have h5 : x 0 * (x 1 + x 2 ^ 2) = 0 := by
        have : (l + r) * x 2 = x 0 * (x 1 + x 2 ^ 2) := by rw [hl, hr]; field_simp [hD.2]
        rw [← this, hs, zero_mul]
      have := (mul_eq_zero.1 h5).resolve_left h0
      linarith
    · have hs' : 0 < |l + r| := abs_pos.2 hs
      rw [abs_div, abs_of_pos (a := |l + r| / 2) (by positivity), div_le_iff₀ (by positivity)] at h4
      have : c.params.tolerance * (|l + r| / 2) < 2 * (|l + r| / 2) := mul_lt_mul_of_pos_right ht (by positivity)
      linarith
  · intro hi
    by_contra h0
    have h4 := h3 2
    rw [hi] at h4
    have hr : (practical x).right 2 = 0 := rfl
    rw [hr] at h4
    change abs (((practical x).left 2 - 0) / (|(practical x).left 2 + 0| / 2)) ≤ _ at h4
    rw [sub_zero, add_zero, abs_div, abs_div, abs_abs, abs_two] at h4
    have hs' : 0 < |(practical x).left 2| := abs_pos.2 h0
    rw [div_le_iff₀ (by positivity)] at h4
    have : c.params.tolerance * (|(practical x).left 2| / 2) < 2 * (|(practical x).left 2| / 2) :=
      mul_lt_mul_of_pos_right ht (by positivity)
    linarith

/-- Success does not mean that the solution is near: for every tolerance and all normalizations of the residuals, the
criteria hold at a point whose first component is at least `4 / tol ^ 2`, and every solve from that guess returns it. -/
theorem C88_far_refuted (tol : K) (ht : 0 < tol) :
    ∃ x : Vec K 3, PracticalDomain x ∧ 4 / tol ^ 2 ≤ x 0 ∧
      ∀ (m : UserModel K 3 EI EU S) (inv : S → Prop), Computes m inv PracticalDomain practical →
      ∀ (c : Config K 3) (s : S), inv s → c.guess = x → c.params.tolerance = tol →
      ∃ st' s', solve c m .new s = .ok (st', s', .ok ()) ∧ st'.iter = 0 ∧ m.getIteratives s' = x := by
  have h2 : tol / 2 ≠ 0 := (half_pos ht).ne'
  have hD : PracticalDomain (![(1 + tol / 2) / (tol / 2) ^ 2, (tol / 2) ^ 2, tol / 2] : Vec K 3) :=
    ⟨pow_ne_zero 2 h2, h2⟩
  refine ⟨![(1 + tol / 2) / (tol / 2) ^ 2, (tol / 2) ^ 2, tol / 2], hD, ?_, ?_⟩
  · change 4 / tol ^ 2 ≤ (1 + tol / 2) / (tol / 2) ^ 2
    rw [div_le_div_iff₀ (by positivity) (by positivity)]
    have := pow_pos ht 3
    nlinarith
  · intro m inv hm c s hs hg htol
    have hres : practical (![(1 + tol / 2) / (tol / 2) ^ 2, (tol / 2) ^ 2, tol / 2] : Vec K 3) =
        ⟨![1 + tol, (1 + tol / 2) / (tol / 2), 0], ![1, (1 + tol / 2) / (tol / 2), 0]⟩ := by
      rw [practical_exact]
      change (⟨![(1 + tol / 2) / (tol / 2) ^ 2 * (tol / 2) ^ 2 + tol / 2,
        (1 + tol / 2) / (tol / 2) ^ 2 * (tol / 2) ^ 2 / (tol / 2),
        (1 + tol / 2) / (tol / 2) ^ 2 * (tol / 2) - tol / 2 / (tol / 2) ^ 2 - 1],
        ![1, (1 + tol / 2) / (tol / 2) ^ 2 * (tol / 2), 0]⟩ : ResidualsValues K 3) = _
      have ht' := ht.ne'
      have e1 : (1 + tol / 2) / (tol / 2) ^ 2 * (tol / 2) ^ 2 = 1 + tol / 2 := by field_simp
      have e2 : (1 + tol / 2) / (tol / 2) ^ 2 * (tol / 2) = (1 + tol / 2) / (tol / 2) := by field_simp
      have e3 : (1 + tol / 2) / (tol / 2) - tol / 2 / (tol / 2) ^ 2 - 1 = 0 := by field_simp; ring
      rw [e1, e2, e3]
      congr 2
      ring
    have herr : ∀ s', At m inv practical s' c.guess →
        Scalar.lt c.params.tolerance (amax (evaluateErrors c m s')) = false := by
      intro s' hat
      unfold evaluateErrors
      rw [hat.residuals, hg, hres]
      rw [stopping_iff _ _ (by rw [htol]; exact ht.le)]
      intro i
      have hsame : ∀ (meth : NormalizationMethod) (v : K), |Spec.residual meth v v| ≤ c.params.tolerance := by
        intro meth v
        cases meth <;> simp [Spec.residual, htol, ht.le]
      fin_cases i
      · change |Spec.residual (c.res.stop 0) (1 + tol) 1| ≤ c.params.tolerance
        rw [htol]
        have hpos : 0 < 1 + tol + 1 := by linarith
        cases c.res.stop 0
        · simp [Spec.residual, abs_of_pos ht]
        · simp only [Spec.residual, add_sub_cancel_left]
          rw [abs_of_pos hpos, abs_div, abs_of_pos ht, abs_of_pos (by positivity), div_le_iff₀ (by positivity)]
          nlinarith
        · simp only [Spec.residual, add_sub_cancel_left]
          rw [abs_of_pos hpos, abs_div, abs_of_pos ht, abs_of_pos (by positivity), div_le_iff₀ (by positivity)]
          nlinarith
      · exact hsame _ _
      · exact hsame _ _
    rcases solve_follow_or (c := c) hm (fun k st s => k = 0 ∧ st = .new ∧ At m inv practical s c.guess)
      (fun _ _ _ _ => False)
      (by
        rintro k st s ⟨rfl, rfl, hat⟩ hc
        rw [continues, herr s hat] at hc
        cases hc)
      hs (hg ▸ hD) (fun s0 h => ⟨rfl, rfl, h⟩) with ⟨k, st', s', h1, ⟨rfl, rfl, hat⟩, -, -⟩ | ⟨k, st', s', e, h1, hf⟩
    · refine ⟨.new, s', ?_, rfl, hat.iteratives.trans hg⟩
      rw [h1]
      simp [finalResult, herr s' hat, Solver.new]
    · exact hf.elim

end Exact

/-! ### Convergence -/

/-- The derivatives of the sides. -/
noncomputable def practicalJac (x : Vec ℝ 3) : JacobianValues ℝ 3 where
  left := !![x 1, x 0, 1; x 1 / x 2, x 0 / x 2, -(x 0 * x 1) / x 2 ^ 2; x 2, x 2 / x 1 ^ 2, x 0 - 1 / x 1]
  right := !![0, 0, 0; x 2, 0, x 0; 0, 0, 0]

private theorem coord {n : Nat} (i : Fin n) (x : Vec ℝ n) :
    HasFDerivAt (fun x : Vec ℝ n => x i) (ContinuousLinearMap.proj (R := ℝ) (φ := fun _ : Fin n => ℝ) i) x :=
  (ContinuousLinearMap.proj (R := ℝ) (φ := fun _ : Fin n => ℝ) i).hasFDerivAt

private theorem coordInv {n : Nat} (i : Fin n) (x : Vec ℝ n) (h : x i ≠ 0) :
    HasFDerivAt (fun x : Vec ℝ n => (x i)⁻¹)
      (-(x i ^ 2)⁻¹ • ContinuousLinearMap.proj (R := ℝ) (φ := fun _ : Fin n => ℝ) i) x :=
  (hasDerivAt_inv h).comp_hasFDerivAt x (coord i x)

theorem practical_jacobian {x : Vec ℝ 3} (hx : PracticalDomain x) :
    IsJacobian (fun x => (practical x).left) (practicalJac x).left x ∧
    IsJacobian (fun x => (practical x).right) (practicalJac x).right x := by
  obtain ⟨h1, h2⟩ := hx
  simp only [practical_exact]
  constructor
  · refine hasFDerivAt_pi'.2 fun i => ?_
    fin_cases i
    · refine (((coord 0 x).mul (coord 1 x)).add (coord 2 x)).congr_fderiv ?_
      ext v
      simp [practicalJac, dotProduct, Fin.sum_univ_three]
      ring
    · refine (((coord 0 x).mul (coord 1 x)).mul (coordInv 2 x h2)).congr_fderiv ?_
      ext v
      simp [practicalJac, dotProduct, Fin.sum_univ_three]
      field_simp
      ring
    · refine ((((coord 0 x).mul (coord 2 x)).sub ((coord 2 x).mul (coordInv 1 x h1))).sub_const 1).congr_fderiv ?_
      ext v
      simp [practicalJac, dotProduct, Fin.sum_univ_three]
      field_simp
      ring
  · refine hasFDerivAt_pi'.2 fun i => ?_
    fin_cases i
    · refine (hasFDerivAt_const (1 : ℝ) x).congr_fderiv ?_
      ext v
      simp [practicalJac, dotProduct, Fin.sum_univ_three]
    · refine ((coord 0 x).mul (coord 2 x)).congr_fderiv ?_
      ext v
      simp [practicalJac, dotProduct, Fin.sum_univ_three]
      ring
    · refine (hasFDerivAt_const (0 : ℝ) x).congr_fderiv ?_
      ext v
      simp [practicalJac, dotProduct, Fin.sum_univ_three]

theorem practical_near : ∀ᶠ x : Vec ℝ 3 in 𝓝 ![0, -1, 1], PracticalDomain x := by
  have h1 : ContinuousAt (fun x : Vec ℝ 3 => x 1) ![0, -1, 1] := (continuous_apply 1).continuousAt
  have h2 : ContinuousAt (fun x : Vec ℝ 3 => x 2) ![0, -1, 1] := (continuous_apply 2).continuousAt
  filter_upwards [h1.eventually_ne (y := 0) (by change (-1 : ℝ) ≠ 0; norm_num),
    h2.eventually_ne (y := 0) (by change (1 : ℝ) ≠ 0; norm_num)] with x a b
  exact ⟨a, b⟩

/-- Criteria that can be met at the solution: the sides of the second and third equation vanish there. -/
structure Spec.PracticalCriteria (res : ResConf 3) : Prop where
  upd : res.upd 1 = .Abs ∧ res.upd 2 = .Abs
  stop : res.stop 1 ≠ .Rel ∧ res.stop 2 ≠ .Rel

theorem practical_smooth {res : ResConf 3} (h : PracticalCriteria res) :
    SmoothRoot practical practicalJac res ![0, -1, 1] where
  equal := (C88_unique _ practical_near.self_of_nhds).2 rfl
  left := by
    simp only [practical_exact]
    refine contDiffAt_pi.2 fun i => ?_
    have e : (![0, -1, 1] : Vec ℝ 3) 2 = 1 := rfl
    fin_cases i
    · change ContDiffAt ℝ 2 (fun x : Vec ℝ 3 => x 0 * x 1 + x 2) _
      fun_prop
    · change ContDiffAt ℝ 2 (fun x : Vec ℝ 3 => x 0 * x 1 / x 2) _
      exact ContDiffAt.div (by fun_prop) (by fun_prop) (by rw [e]; norm_num)
    · change ContDiffAt ℝ 2 (fun x : Vec ℝ 3 => x 0 * x 2 - x 2 / x 1 - 1) _
      exact ((by fun_prop : ContDiffAt ℝ 2 (fun x : Vec ℝ 3 => x 0 * x 2) _).sub
        (ContDiffAt.div (by fun_prop) (by fun_prop) (by norm_num))).sub contDiffAt_const
  right := by
    simp only [practical_exact]
    refine contDiffAt_pi.2 fun i => ?_
    fin_cases i
    · exact contDiffAt_const
    · change ContDiffAt ℝ 2 (fun x : Vec ℝ 3 => x 0 * x 2) _
      fun_prop
    · exact contDiffAt_const
  leftJacobian := practical_near.mono fun _ hx => (practical_jacobian hx).1
  rightJacobian := practical_near.mono fun _ hx => (practical_jacobian hx).2
  invertible := by
    have e : (practicalJac ![0, -1, 1]).left - (practicalJac ![0, -1, 1]).right = !![-1, 0, 1; -2, 0, 0; 1, 1, 1] := by
      have e2 : (![0, -1, 1] : Vec ℝ 3) 2 = 1 := rfl
      ext i j
      fin_cases i <;> fin_cases j <;> simp [practicalJac, e2] <;> norm_num
    rw [e, Matrix.det_fin_three]
    simp
  normalized := by
    intro i hi
    fin_cases i
    · rw [practical_exact]
      simp
    · exact absurd hi (not_or.2 ⟨not_not.2 h.upd.1, h.stop.1⟩)
    · exact absurd hi (not_or.2 ⟨not_not.2 h.upd.2, h.stop.2⟩)

/-- The solution is a simple root: Newton-Raphson with the derivatives converges quadratically from nearby guesses, for
every model that computes the example. -/
theorem C88_quadratic {EI EU S : Type} (m : UserModel ℝ 3 EI EU S) (inv : S → Prop) (res : ResConf 3)
    (hres : PracticalCriteria res) (hf : Computes m inv PracticalDomain practical)
    (hg : Differentiates m inv practical practicalJac) (R : ℝ) (hR : 0 < R) :
    ∃ ρ > 0, ∃ C > 0, C * ρ ≤ 1 / 2 ∧ ∀ tol > 0, ∃ N, ∀ c : Config ℝ 3, LocalConfig c res ![0, -1, 1] R ρ →
      c.params.method = .NewtonRaphson → c.params.tolerance = tol → N ≤ c.params.maxIter → ∀ s, inv s →
      ∀ e0 < ρ, (∀ i, |c.guess i - (![0, -1, 1] : Vec ℝ 3) i| ≤ e0) →
      ∃ st' s', solve c m .new s = .ok (st', s', .ok ()) ∧
        ∀ i, C * |m.getIteratives s' i - (![0, -1, 1] : Vec ℝ 3) i| ≤ (C * e0) ^ 2 ^ st'.iter :=
  C63_quadratic m inv PracticalDomain practical practicalJac res _ hf practical_near (practical_smooth hres) hg R hR

/-- Without derivatives, with finite differences (also for stationary Newton): convergence from nearby guesses. -/
theorem C88_finite_differences {EI EU S : Type} (m : UserModel ℝ 3 EI EU S) (inv : S → Prop) (res : ResConf 3)
    (hres : PracticalCriteria res) (hf : Computes m inv PracticalDomain practical)
    (hu : Underived m inv practical) (R : ℝ) (hR : 0 < R) :
    ∃ ρ > 0, ∀ tol > 0, ∃ N, ∀ c : Config ℝ 3, LocalConfig c res ![0, -1, 1] R ρ →
      (∀ i, ∃ p, (c.iters i).computePerturbation = some p ∧
        ∀ v, |v - (![0, -1, 1] : Vec ℝ 3) i| < ρ → p v ≠ 0 ∧ |p v| < ρ) →
      c.params.tolerance = tol → N ≤ c.params.maxIter → ∀ s, inv s → Converged c m practical ![0, -1, 1] ρ s := by
  have h := practical_smooth hres
  refine C38_finite_differences m inv PracticalDomain practical (practicalJac ![0, -1, 1]).left
    (practicalJac ![0, -1, 1]).right res _ hf practical_near ⟨h.equal, ?_, ?_, h.invertible, ?_⟩ hu R hR
  · exact h.left.hasStrictFDerivAt' h.leftJacobian.self_of_nhds (by norm_num)
  · exact h.right.hasStrictFDerivAt' h.rightJacobian.self_of_nhds (by norm_num)
  · intro i hi
    refine h.normalized i (hi.imp_left fun hr => ?_)
    rw [hr]
    exact fun h => nomatch h

/-! ### Floating point -/

section Float
variable {K : Type} [Field K] [LinearOrder K] [Rounding K] [IsStrictOrderedRing K]

/-- What rounding a number gives. -/
theorem fl_ofExact_cases (x : K) : (∃ z, Fl.ofExact false x = .zero z ∧ Rounding.rnd x = 0) ∨
    (∃ h, Fl.ofExact false x = .num (Rounding.rnd x) h) ∨
    (∃ z, Fl.ofExact false x = .inf z ∧ ¬ |Rounding.rnd x| < Rounding.big) := by
  unfold Fl.ofExact
  split_ifs with h0 h1 h2
  · exact .inl ⟨_, rfl, by rw [h0, Fl.rnd_zero]⟩
  · exact .inl ⟨_, rfl, h1⟩
  · exact .inr (.inl ⟨⟨h1, Rounding.idem x, h2⟩, rfl⟩)
  · exact .inr (.inr ⟨_, rfl, h2⟩)

theorem abs_rnd (x : K) : |Rounding.rnd x| = Rounding.rnd |x| := by
  rcases abs_cases x with ⟨h, hx⟩ | ⟨h, hx⟩
  · rw [h, abs_of_nonneg (Fl.rnd_nonneg hx)]
  · rw [h, Rounding.odd, abs_of_nonpos (Fl.rnd_nonpos hx.le)]

/-- A quotient with a smaller divisor is at least one. -/
theorem fl_one_le_div {x y : K} (hx : IsFloat x) (hy : IsFloat y) (h : |y| ≤ |x|) :
    Fl.leb Fl.one (Fl.abs (Fl.div (.num x hx) (.num y hy))) = true := by
  have hq : 1 ≤ |x / y| := by
    rw [abs_div, le_div_iff₀ (abs_pos.2 hy.1), one_mul]
    exact h
  have h1 : 1 ≤ |Rounding.rnd (x / y)| := by
    rw [abs_rnd, ← Rounding.one (K := K)]
    exact Rounding.mono _ _ hq
  change Fl.leb Fl.one (Fl.abs (Fl.ofExact false (x / y))) = true
  rcases fl_ofExact_cases (x / y) with ⟨z, -, h0⟩ | ⟨hf, e⟩ | ⟨z, e, -⟩
  · rw [h0, abs_zero] at h1
    linarith
  · rw [e]
    generalize Rounding.rnd (x / y) = q at hf h1
    change Fl.leb Fl.one (if q < 0 then _ else _) = true
    split_ifs with hneg
    · rw [abs_of_neg hneg] at h1
      simpa [Fl.leb, Fl.one] using h1
    · rw [abs_of_nonneg (not_lt.1 hneg)] at h1
      simpa [Fl.leb, Fl.one] using h1
  · rw [e]
    rfl

/-- The relative residual of two numbers of opposite signs is at least one. -/
theorem fl_rel_opposite {a b : K} (ha : IsFloat a) (hb : IsFloat b) (hab : a * b < 0) :
    Fl.leb Fl.one (Fl.abs (normalization (.num a ha) (.num b hb : Fl K) .Rel)) = true := by
  change Fl.leb Fl.one (Fl.abs (Fl.div (Fl.ofExact false (a + -b))
    (Fl.div (Fl.abs (Fl.ofExact false (a + b))) Fl.two))) = true
  have hle : |a + b| ≤ |a + -b| := by
    rw [← sq_le_sq]
    nlinarith
  have hbm : |b| ≤ |a + -b| := by
    rw [← sq_le_sq]
    nlinarith [sq_nonneg a]
  have hsb : |a + b| ≤ max |a| |b| := by
    rcases lt_or_gt_of_ne ha.1 with h | h
    · have hb0 : 0 < b := by
        by_contra hc
        nlinarith [mul_nonneg_of_nonpos_of_nonpos h.le (not_lt.1 hc)]
      rw [abs_of_neg h, abs_of_pos hb0, abs_le]
      have := le_max_left (-a) b
      have := le_max_right (-a) b
      constructor <;> linarith
    · have hb0 : b < 0 := by
        by_contra hc
        nlinarith [mul_nonneg h.le (not_lt.1 hc)]
      rw [abs_of_pos h, abs_of_neg hb0, abs_le]
      have := le_max_left a (-b)
      have := le_max_right a (-b)
      constructor <;> linarith
  have habs : ∀ {x : K}, IsFloat x → Rounding.rnd |x| = |x| := fun h => by rw [← abs_rnd, h.2.1]
  have hd0 : Rounding.rnd (a + -b) ≠ 0 := by
    intro h0
    have h1 := Rounding.mono _ _ hbm
    rw [habs hb, ← abs_rnd, h0, abs_zero] at h1
    exact hb.1 (abs_nonpos_iff.1 h1)
  have hs1 : |Rounding.rnd (a + b)| ≤ |Rounding.rnd (a + -b)| := by
    rw [abs_rnd, abs_rnd]
    exact Rounding.mono _ _ hle
  -- the divisor
  have hdiv : (∃ z, Fl.div (Fl.abs (Fl.ofExact false (a + b))) Fl.two = .zero z) ∨
      ∃ y hy, Fl.div (Fl.abs (Fl.ofExact false (a + b))) Fl.two = .num y hy ∧ |y| ≤ |Rounding.rnd (a + b)| := by
    rcases fl_ofExact_cases (a + b) with ⟨z, e, -⟩ | ⟨hf, e⟩ | ⟨z, e, hbig⟩
    · rw [e]
      exact .inl ⟨_, rfl⟩
    · rw [e]
      generalize Rounding.rnd (a + b) = w at hf
      have hw : IsFloat |w| := ⟨abs_ne_zero.2 hf.1, habs hf, by rw [abs_abs]; exact hf.2.2⟩
      have e1 : Fl.abs (.num w hf) = .num |w| hw := by
        change (if w < 0 then Fl.num (-w) _ else .num w hf) = _
        split_ifs with h
        · simp only [abs_of_neg h]
        · simp only [abs_of_nonneg (not_lt.1 h)]
      rw [e1]
      have e2 : Fl.div (.num |w| hw) Fl.two = Fl.ofExact false (|w| / 2) := rfl
      rw [e2]
      have hr : |Rounding.rnd (|w| / 2)| ≤ |w| := by
        rw [abs_rnd]
        refine (Rounding.mono _ |w| ?_).trans_eq (habs hf)
        rw [abs_of_nonneg (by positivity)]
        linarith [abs_nonneg w]
      rcases fl_ofExact_cases (|w| / 2) with ⟨z, e, -⟩ | ⟨hf', e⟩ | ⟨z, e, hbig⟩
      · rw [e]; exact .inl ⟨_, rfl⟩
      · rw [e]; exact .inr ⟨_, hf', rfl, hr⟩
      · exact absurd (hr.trans_lt hf.2.2) hbig
    · exfalso
      apply hbig
      rw [abs_rnd]
      refine (Rounding.mono _ _ hsb).trans_lt ?_
      rcases max_choice |a| |b| with h | h
      · rw [h, habs ha]; exact ha.2.2
      · rw [h, habs hb]; exact hb.2.2
  rcases fl_ofExact_cases (a + -b) with ⟨z, -, h0⟩ | ⟨hf, e⟩ | ⟨z, e, -⟩
  · exact absurd h0 hd0
  · rw [e]
    rcases hdiv with ⟨z, hz⟩ | ⟨y, hy, hz, hyle⟩
    · rw [hz]; rfl
    · rw [hz]
      exact fl_one_le_div hf hy (hyle.trans hs1)
  · rw [e]
    rcases hdiv with ⟨t, hz⟩ | ⟨y, hy, hz, hyle⟩
    · rw [hz]; rfl
    · rw [hz]; rfl

/-- Floating point: with a relative criterion on an equation whose sides are numbers of opposite signs, a solve with a
tolerance below one succeeds only when some stopping residual is NaN (C02). -/
theorem C88_opposite_refuted {n : Nat} {EI EU S : Type} (m : UserModel (Fl K) n EI EU S) (c : Config (Fl K) n)
    (st st' : Solver (Fl K) n) (s s' : S) (i : Fin n) (hi : c.res.stop i = .Rel)
    (ht : Scalar.lt c.params.tolerance Scalar.one = true) {a b : K} (ha : IsFloat a) (hb : IsFloat b) (hab : a * b < 0)
    (hl : (m.getResiduals s').left i = .num a ha) (hr : (m.getResiduals s').right i = .num b hb)
    (h : solve c m st s = .ok (st', s', .ok ())) :
    ∃ j, normalization ((m.getResiduals s').left j) ((m.getResiduals s').right j) (c.res.stop j) = .nan := by
  have htn : c.params.tolerance ≠ .nan := by
    intro he; rw [he] at ht; cases ht
  rcases C02_nan_or_solved_partial c m htn st st' s s' h with hj | hall
  · exact hj
  · exfalso
    have h3 := hall i
    rw [hl, hr, hi] at h3
    have := Fl.leb_trans (fl_rel_opposite ha hb hab) h3
    rw [fl_lt, Fl.ltb_iff htn (by intro h; cases h)] at ht
    exact ht this

end Float

/-! ### The hypotheses can be met -/

namespace Demo

/-- A user's model with two sides; the derivatives may be given. -/
def pair {F : Type} {n : Nat} (f : Vec F n → ResidualsValues F n) (g : Option (Vec F n → JacobianValues F n)) :
    UserModel F n Empty Empty (Vec F n × ResidualsValues F n) where
  lenProblem _ := n
  setIteratives s x := (x, s.2)
  getIteratives s := s.1
  evaluate s := ((s.1, f s.1), .ok ())
  getResiduals s := s.2
  jacobianProvided _ := g.isSome
  getJacobian s := match g with
    | some g => (s, .ok (g s.1))
    | none => (s, .ok ⟨fun i _ => s.2.left i, fun i _ => s.2.left i⟩)
  getMemory _ := []
  setMemory s _ := s
  displayUnusable e := nomatch e

theorem pair_computes {F : Type} {n : Nat} (f : Vec F n → ResidualsValues F n) (g) (D : Vec F n → Prop) :
    Computes (pair f g) (fun _ => True) D f where
  keeps _ _ _ _ := trivial
  ok _ _ _ _ := rfl
  iteratives _ _ _ _ := rfl
  residuals _ _ _ _ := rfl

/-- No limits. -/
def openIterative (p : Option (ℝ → ℝ)) : Iterative ℝ := ⟨fun v d => v + d, p, p.isSome⟩

noncomputable def openCfg (guess : Vec ℝ 3) (tol : ℝ) (N : Nat) (p : Option (ℝ → ℝ)) : Config ℝ 3 :=
  ⟨⟨3, tol, N, .NewtonRaphson, false⟩, guess, fun _ => openIterative p, ⟨![.Rel, .Adapt, .Abs], ![.Rel, .Abs, .Abs]⟩, exactLinAlg ℝ 3⟩

theorem open_criteria : PracticalCriteria ⟨![.Rel, .Adapt, .Abs], ![.Rel, .Abs, .Abs]⟩ :=
  ⟨⟨rfl, rfl⟩, ⟨(fun h => nomatch h), (fun h => nomatch h)⟩⟩

/-- Quadratic convergence, without limits. -/
example : ∃ ρ > 0, ∃ C > 0, C * ρ ≤ 1 / 2 ∧ ∀ tol > 0, ∃ N, ∀ guess : Vec ℝ 3, ∀ e0 < ρ,
    (∀ i, |guess i - (![0, -1, 1] : Vec ℝ 3) i| ≤ e0) → ∀ s,
    ∃ st' s', solve (openCfg guess tol N none) (pair practical (some practicalJac)) .new s = .ok (st', s', .ok ()) ∧
      ∀ i, C * |s'.1 i - (![0, -1, 1] : Vec ℝ 3) i| ≤ (C * e0) ^ 2 ^ st'.iter := by
  obtain ⟨ρ, hρ, C, hC, hCρ, h⟩ := C88_quadratic (pair practical (some practicalJac)) (fun _ => True) _ open_criteria
    (pair_computes _ _ _) ⟨fun _ _ => rfl, fun s x h => by
      change Except.ok (practicalJac s.1) = _
      rw [show s.1 = x from h.iteratives], fun _ _ h => h⟩ 1 one_pos
  refine ⟨ρ, hρ, C, hC, hCρ, fun tol htol => ?_⟩
  obtain ⟨N, hN⟩ := h tol htol
  refine ⟨N, fun guess e0 he0 hg s => ?_⟩
  exact hN (openCfg guess tol N none) ⟨exactLinAlg_isExact ℝ 3, rfl, .inl rfl, fun _ _ _ _ _ => rfl,
    fun i => (hg i).trans_lt he0⟩ rfl rfl (le_refl _) s trivial e0 he0 hg

/-- Finite differences with a perturbation that is small enough. -/
example : ∃ ρ > 0, ∀ tol > 0, ∃ N, ∀ guess : Vec ℝ 3, (∀ i, |guess i - (![0, -1, 1] : Vec ℝ 3) i| < ρ) → ∀ s,
    Converged (openCfg guess tol N (some fun _ => ρ / 2)) (pair practical none) practical ![0, -1, 1] ρ s := by
  obtain ⟨ρ, hρ, h⟩ := C88_finite_differences (pair practical none) (fun _ => True) _ open_criteria
    (pair_computes _ _ _) ⟨fun _ _ => rfl, fun _ _ => rfl, fun _ _ _ h => h⟩ 1 one_pos
  refine ⟨ρ, hρ, fun tol htol => ?_⟩
  obtain ⟨N, hN⟩ := h tol htol
  refine ⟨N, fun guess hg s => ?_⟩
  exact hN (openCfg guess tol N (some fun _ => ρ / 2)) ⟨exactLinAlg_isExact ℝ 3, rfl, .inl rfl, fun _ _ _ _ _ => rfl, hg⟩
    (fun i => ⟨_, rfl, fun v _ => ⟨(half_pos hρ).ne', by rw [abs_of_pos (half_pos hρ)]; linarith⟩⟩) rfl (le_refl _) s trivial

/-- Hypotheses of `C88_relative_refuted`: a solve with a relative criterion on the second equation that succeeds, started at
the solution. -/
example : (let c : Config ℚ 3 := ⟨⟨3, 1 / 10, 5, .NewtonRaphson, false⟩, ![0, -1, 1], fun _ => wide.toIterative,
      ⟨![.Abs, .Rel, .Abs], fun _ => .Abs⟩, nalgebraLinAlg ℚ 3⟩
    Demo.kind (solve c (pair practical none) .new (![1, 1, 1], ⟨![1, 1, 1], ![1, 1, 1]⟩)) = .ok ∧
    (![0, -1, 1] : Vec ℚ 3) 1 < 0) := by
  constructor <;> decide +kernel

end Demo

/-- Hypotheses of `C88_opposite_refuted`: `x + 1` against `-x - 1` and `0 / 0`, at 1: a relative residual of infinity and
NaN, and the solve succeeds. -/
example : (let c : Config F64 2 := ⟨⟨2, Demo64.ofRat (1 / 10), 5, .NewtonRaphson, false⟩, fun _ => Fl.one,
      (Demo64.cfg 3).iters.comp fun _ => 0, ⟨fun _ => .Rel, fun _ => .Abs⟩, nalgebraLinAlg F64 2⟩
    let m := Demo.pair (fun x : Vec F64 2 => ⟨![Scalar.add (x 0) Scalar.one, Scalar.sub (x 1) (x 1)],
      ![Scalar.sub (Scalar.neg (x 0)) Scalar.one, Scalar.zero]⟩) none
    Demo.kind (solve c m .new (c.guess, ⟨c.guess, c.guess⟩)) = .ok ∧ Scalar.lt c.params.tolerance Scalar.one = true) := by
  constructor <;> decide +kernel

end Nrf
