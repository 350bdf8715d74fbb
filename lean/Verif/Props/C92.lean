import Verif.Proofs.RelError
import Verif.Proofs.Accuracy
import Verif.Props.C30
import Verif.Props.C87
import Mathlib.Data.Real.Basic

/-!
# C92: finite differences in binary64
-/

set_option linter.unusedSectionVars false

namespace Nrf
open Spec

/-- The relative error of an entry: three roundings, and the rounding of the perturbed variable, which a relative
perturbation `ρ` amplifies by `1 / ρ`. -/
def Spec.chordError (ρ : ℚ) : ℚ := (1 + 2 ^ (-53 : ℤ) * (1 + 1 / (ρ * (1 - 2 ^ (-53 : ℤ))))) * (1 + 2 ^ (-53 : ℤ)) ^ 2 - 1

theorem u_pos : (0 : ℚ) < 2 ^ (-53 : ℤ) := Binary64.two_zpow_pos _
theorem one_sub_u_pos : (0 : ℚ) < 1 - 2 ^ (-53 : ℤ) := by norm_num

/-- Arithmetic of the error analysis. -/
theorem chord_arith {u η d e p h J t : ℚ} (hu : 0 ≤ u) (hp : 0 < p) (hh : 0 < h) (hη : |h - p| ≤ η * p)
    (he : |e - d| ≤ |d| * u) (hJ : |J - e / p| ≤ |e / p| * u + t) :
    |J - d / h| ≤ |d / h| * ((1 + η) * (1 + u) ^ 2 - 1) + t := by
  have hη0 : 0 ≤ η := by
    have := (abs_nonneg _).trans hη
    by_contra h'
    nlinarith [not_le.1 h']
  set q := d / h with hq
  have hd : d = q * h := by rw [hq]; field_simp
  have h1 : |h / p - 1| ≤ η := by
    have : h / p - 1 = (h - p) / p := by field_simp
    rw [this, abs_div, abs_of_pos hp, div_le_iff₀ hp]
    exact hη
  have hhp : 0 < h / p := div_pos hh hp
  have h2 : h / p ≤ 1 + η := by linarith [(abs_le.1 h1).2]
  have h3 : |e / p - q| ≤ |q| * ((1 + η) * (1 + u) - 1) := by
    have e1 : e / p - q = (e - d) / p + q * (h / p - 1) := by
      rw [hd]
      field_simp
      ring
    have e2 : |(e - d) / p| ≤ |q| * (h / p) * u := by
      rw [abs_div, abs_of_pos hp]
      have : |d| / p = |q| * (h / p) := by
        rw [hd, abs_mul, abs_of_pos hh]
        field_simp
      rw [← this, div_mul_eq_mul_div]
      exact div_le_div_of_nonneg_right he hp.le
    have e3 : |q| * (h / p) * u ≤ |q| * (1 + η) * u :=
      mul_le_mul_of_nonneg_right (mul_le_mul_of_nonneg_left h2 (abs_nonneg _)) hu
    have e4 : |q * (h / p - 1)| ≤ |q| * η := by
      rw [abs_mul]
      exact mul_le_mul_of_nonneg_left h1 (abs_nonneg _)
    rw [e1]
    refine (abs_add_le _ _).trans ?_
    linarith
  have h4 : |e / p| ≤ |q| * ((1 + η) * (1 + u)) := by
    have : e / p = (e / p - q) + q := by ring
    rw [this]
    refine (abs_add_le _ _).trans ?_
    linarith
  have h5 : |J - q| ≤ |J - e / p| + |e / p - q| := by
    have : J - q = (J - e / p) + (e / p - q) := by ring
    rw [this]
    exact abs_add_le _ _
  have h6 := mul_le_mul_of_nonneg_right h4 hu
  nlinarith

/-- A difference quotient in binary64. -/
theorem fl_quotient {x p r1 r0 : F64} (hxp : (Fl.add x p).IsFinite) (hp : 0 < p.val)
    (hJ : (Fl.div (Fl.sub r1 r0) p).IsFinite) (hh : 0 < (Fl.add x p).val - x.val) {η : ℚ}
    (hη : 2 ^ (-53 : ℤ) * (|x.val| + p.val) ≤ η * p.val) :
    |(Fl.div (Fl.sub r1 r0) p).val - (r1.val - r0.val) / ((Fl.add x p).val - x.val)| ≤
      |(r1.val - r0.val) / ((Fl.add x p).val - x.val)| * ((1 + η) * (1 + 2 ^ (-53 : ℤ)) ^ 2 - 1) + 2 ^ (-1075 : ℤ) := by
  obtain ⟨hs, hq⟩ := Fl.val_div (Fl.finite_of_add hxp).2 hJ
  refine chord_arith u_pos.le hp hh ?_ (e := (Fl.sub r1 r0).val) ?_ ?_
  · rw [Fl.val_add hxp]
    have h := Binary64.rnd_add_error (Fl.val_fixed x) (Fl.val_fixed p)
    have e : Rounding.rnd (x.val + p.val) - x.val - p.val = Binary64.rnd (x.val + p.val) - (x.val + p.val) := by
      change Binary64.rnd (x.val + p.val) - x.val - p.val = _
      ring
    rw [e]
    refine h.trans (le_trans ?_ hη)
    rw [mul_comm]
    refine mul_le_mul_of_nonneg_left ?_ u_pos.le
    refine (abs_add_le _ _).trans ?_
    rw [abs_of_pos hp]
  · rw [Fl.val_sub hs]
    have h := Binary64.rnd_add_error (Fl.val_fixed r1) (y := -r0.val) (by
      rw [Binary64.rnd_neg]; exact congrArg _ (Fl.val_fixed r0))
    rw [← sub_eq_add_neg] at h
    exact h
  · rw [hq]
    rcases Binary64.rnd_error ((Fl.sub r1 r0).val / p.val) with h | ⟨-, h⟩
    · exact h.trans (le_add_of_nonneg_right (Binary64.two_zpow_pos _).le)
    · exact h.trans (le_add_of_nonneg_left (mul_nonneg (abs_nonneg _) u_pos.le))

/-- The perturbation against the variable. -/
theorem fl_perturbation (p : IterativeParamsFD F64)
    (hnew : ∃ a b lo hi dxa dxr m, IterativeParamsFD.new a b lo hi dxa dxr m = .ok p)
    (ha : p.dxAbs.IsFinite) (hb : p.dxRel.IsFinite) (hn : (2 : ℚ) ^ (-1022 : ℤ) ≤ p.dxAbs.val) (hr : 0 < p.dxRel.val)
    {x : F64} (hx : x.IsFinite) (hP : (p.computePerturbation x).IsFinite) :
    0 < (p.computePerturbation x).val ∧
      |x.val| * p.dxRel.val * (1 - 2 ^ (-53 : ℤ)) ≤ (p.computePerturbation x).val := by
  obtain ⟨-, hle, -⟩ := C23_float p hnew ha hb x hx.not_nan
  have ha0 : Fl.ltb (.zero false) p.dxAbs = true := by
    obtain ⟨a, b, lo, hi, dxa, dxr, m, hn⟩ := hnew
    obtain ⟨h1, -, q, -, rfl⟩ := paramsFd_new_eq_ok.1 hn
    exact (fl_le_false ha.not_nan (by simp)).1 h1
  change Fl.leb p.dxAbs (p.computePerturbation x) = true at hle
  rw [Fl.leb_finite ha hP] at hle
  have hpos : 0 < (p.computePerturbation x).val := lt_of_lt_of_le (Binary64.two_zpow_pos _) (hn.trans hle)
  refine ⟨hpos, ?_⟩
  set y := |x.val| * p.dxRel.val with hy
  have hy0 : 0 ≤ y := mul_nonneg (abs_nonneg _) hr.le
  rcases lt_or_ge y (2 ^ (-1022 : ℤ)) with h | h
  · have := u_pos
    nlinarith
  · have hxa : ∃ z, Fl.mul (Fl.abs x) p.dxRel = Fl.ofExact z y := by
      obtain ⟨z, hz⟩ := Fl.mul_finite (Fl.abs_finite hx) hb
      rw [Fl.val_abs] at hz
      exact ⟨z, hz⟩
    obtain ⟨z, hz⟩ := hxa
    have h1 := fl_rel_le p ha (fl_le_of_lt ha0) (x := x) (by rw [hz]; exact Fl.ofExact_not_nan _ _)
    have hfin : (Fl.mul (Fl.abs x) p.dxRel).IsFinite := by
      rcases Fl.finite_or (Fl.not_nan_of_leb_left h1) with h2 | ⟨s, h2⟩
      · exact h2
      · exfalso
        rw [h2] at h1
        cases s
        · generalize p.computePerturbation x = w at hP h1
          rcases w with _ | t | t | ⟨w, hw⟩ <;> first | exact hP.elim | cases h1
        · rw [hz] at h2
          have h3 := Fl.ofExact_mono false z hy0
          rw [h2, Fl.ofExact_zero] at h3
          cases h3
    rw [Fl.leb_finite hfin hP, hz, Fl.val_ofExact (by rw [← hz]; exact hfin)] at h1
    have h2 := Binary64.rnd_error_normal (x := y) (by rwa [abs_of_nonneg hy0])
    rw [abs_of_nonneg hy0] at h2
    have h3 := (abs_le.1 h2).1
    have h4 : Binary64.rnd y ≤ (p.computePerturbation x).val := h1
    linarith

section
variable {n : Nat} {EI EU S C : Type}

/-- Parameters of finite differences: accepted by the constructor, finite, with a normal `dx_abs` and a `dx_rel` of at least
`ρ`. -/
structure Spec.UsableParams (p : IterativeParamsFD F64) (ρ : ℚ) : Prop where
  accepted : ∃ a b lo hi dxa dxr m, IterativeParamsFD.new a b lo hi dxa dxr m = .ok p
  finiteAbs : p.dxAbs.IsFinite
  finiteRel : p.dxRel.IsFinite
  normal : (2 : ℚ) ^ (-1022 : ℤ) ≤ p.dxAbs.val
  relative : ρ ≤ p.dxRel.val

/-- The perturbed variable `x + dx` as it is rounded by the code. -/
def Spec.perturbed (p : IterativeParamsFD F64) (x : F64) : F64 := x +ᶠ p.computePerturbation x

/-- The update residuals computed when the model is moved to `x`. -/
def Spec.updateResidualsAt {F : Type} [Scalar F] (c : Config F n) (m : UserModel F n EI EU S) (s : S) (x : Vec F n) : Vec F n :=
  c.res.evaluateUpdate (residualsAt m s x)

/-- Binary64, every model obeying the memory contract, every residual method: an entry of a finite-difference Jacobian that is
finite, with a finite perturbed variable, is the slope of the chord between the two points at which the residual was computed,
up to a small relative error (and the rounding of subnormal numbers).  The slope is taken between the rounded points, although
the code divides by the perturbation before rounding. -/
theorem C92_chord (c : Config F64 n) (m : UserModel F64 n EI EU S) (ctx : S → C) (hm : Memory m ctx) (s s' : S)
    (hp : m.jacobianProvided s = false) (hlen : m.lenProblem s = n) (p : Fin n → IterativeParamsFD F64)
    (hq : ∀ i, c.iters i = (p i).toIterative) (ρ : ℚ) (hρ : (2 : ℚ) ^ (-52 : ℤ) ≤ ρ) (hu : ∀ i, UsableParams (p i) ρ)
    (j j' : JacobianMatrix F64 n) (h : computeJac c m j s = .ok (j', s', .ok ())) :
    ∃ J, j'.matrix = some J ∧ ∀ row col, (J row col).IsFinite →
      (perturbed (p col) (m.getIteratives s col)).IsFinite →
      let dx := (perturbed (p col) (m.getIteratives s col)).val - (m.getIteratives s col).val
      let r0 := c.res.evaluateUpdate (m.getResiduals s) row
      let r1 := updateResidualsAt c m s (fun l => if l = col then perturbed (p col) (m.getIteratives s col)
        else m.getIteratives s l) row
      0 < dx ∧ r0.IsFinite ∧ r1.IsFinite ∧
        |(J row col).val - (r1.val - r0.val) / dx| ≤ |(r1.val - r0.val) / dx| * chordError ρ + 2 ^ (-1075 : ℤ) := by
  obtain ⟨J, pert, hJ, hpe, hcol⟩ := C30_stored c m ctx hm s s' hp hlen j j' h
  refine ⟨J, hJ, fun row col hfin hx => ?_⟩
  have hk : pert col = (p col).computePerturbation (m.getIteratives s col) := by
    obtain ⟨f, h1, h2⟩ := hpe col
    rw [hq] at h1
    cases h1
    exact h2
  have hent := hcol row col
  rw [hk] at hent
  rw [hent] at hfin ⊢
  dsimp only
  unfold perturbed updateResidualsAt at *
  set x := m.getIteratives s col
  set P := (p col).computePerturbation x with hP
  generalize c.res.evaluateUpdate (residualsAt m s fun l => if l = col then Scalar.add x P else m.getIteratives s l) row = r1
    at hfin ⊢
  generalize c.res.evaluateUpdate (m.getResiduals s) row = r0 at hfin ⊢
  obtain ⟨fx, fP⟩ := Fl.finite_of_add hx
  have hρ0 : 0 < ρ := lt_of_lt_of_le (Binary64.two_zpow_pos _) hρ
  have uu := hu col
  obtain ⟨hP0, hPx⟩ := fl_perturbation (p col) uu.accepted uu.finiteAbs uu.finiteRel uu.normal
    (hρ0.trans_le uu.relative) fx fP
  have hmv := C87_moved (p col) uu.accepted uu.finiteAbs uu.finiteRel (hρ.trans uu.relative) x fx
  have hdx : 0 < (Fl.add x P).val - x.val := by
    rw [sub_pos]
    by_contra hle
    have := (Fl.leb_finite hx fx).2 (not_lt.1 hle)
    exact (Fl.ltb_iff fx.not_nan hx.not_nan).1 hmv this
  obtain ⟨hs, -⟩ := Fl.val_div fP hfin
  refine ⟨hdx, (Fl.finite_of_sub hs).2, (Fl.finite_of_sub hs).1, ?_⟩
  refine fl_quotient hx hP0 hfin hdx (η := 2 ^ (-53 : ℤ) * (1 + 1 / (ρ * (1 - 2 ^ (-53 : ℤ))))) ?_
  rw [mul_assoc]
  refine mul_le_mul_of_nonneg_left ?_ u_pos.le
  have hv : 0 < ρ * (1 - 2 ^ (-53 : ℤ)) := mul_pos hρ0 one_sub_u_pos
  have h1 : |x.val| ≤ 1 / (ρ * (1 - 2 ^ (-53 : ℤ))) * P.val := by
    rw [one_div, ← div_eq_inv_mul, le_div_iff₀ hv]
    refine le_trans ?_ hPx
    rw [mul_assoc]
    exact mul_le_mul_of_nonneg_left (mul_le_mul_of_nonneg_right uu.relative one_sub_u_pos.le) (abs_nonneg _)
  linarith

end

/-- The default parameters. -/
theorem usable_default : UsableParams (IterativeParamsFD.default : IterativeParamsFD F64) (4999999999 / 10 ^ 17) where
  accepted := ⟨.inf false, .inf false, .inf true, .inf false, Scalar.dec 5 8, Scalar.dec 5 8, .Max,
    paramsFd_new_eq_ok.2 ⟨by decide +kernel, by decide +kernel, _,
      params_new_eq_ok.2 ⟨by decide +kernel, by decide +kernel, by decide +kernel, rfl⟩, rfl⟩⟩
  finiteAbs := by decide +kernel
  finiteRel := by decide +kernel
  normal := by decide +kernel
  relative := by decide +kernel

theorem chordError_default : chordError (4999999999 / 10 ^ 17) ≤ 223 / 10 ^ 11 := by
  unfold chordError
  norm_num

theorem default_dx : (4999 / 10 ^ 11 : ℚ) ≤ (Scalar.dec 5 8 : F64).val ∧ (Scalar.dec 5 8 : F64).val ≤ 5001 / 10 ^ 11 ∧
    (Scalar.dec 5 8 : F64).IsFinite := by decide +kernel

theorem fl_max_cases {K : Type} [Field K] [LinearOrder K] [Rounding K] [IsStrictOrderedRing K] (a b : Fl K) :
    Fl.max a b = a ∨ Fl.max a b = b := by
  unfold Fl.max
  split
  · exact .inr rfl
  · exact .inl rfl
  · split_ifs
    · exact .inr rfl
    · exact .inl rfl

/-- The displacement with the default parameters is `5e-8` times the variable or one, within two percent. -/
theorem default_displacement {x : F64} (hx : (perturbed .default x).IsFinite) :
    49 / 10 ^ 9 * max 1 |x.val| ≤ (perturbed .default x).val - x.val ∧
    (perturbed .default x).val - x.val ≤ 51 / 10 ^ 9 * max 1 |x.val| := by
  obtain ⟨d1, d2, d3⟩ := default_dx
  unfold perturbed at *
  obtain ⟨fx, fP⟩ := Fl.finite_of_add hx
  have uu := usable_default
  have hrel : (IterativeParamsFD.default : IterativeParamsFD F64).dxRel = Scalar.dec 5 8 := rfl
  obtain ⟨hP0, hPx⟩ := fl_perturbation _ uu.accepted uu.finiteAbs uu.finiteRel uu.normal
    (lt_of_lt_of_le (by norm_num) uu.relative) fx fP
  obtain ⟨-, hle, -⟩ := C23_float _ uu.accepted uu.finiteAbs uu.finiteRel x fx.not_nan
  have hle : Fl.leb (Scalar.dec 5 8 : F64) (IterativeParamsFD.default.computePerturbation x) = true := hle
  rw [Fl.leb_finite d3 fP] at hle
  have hup : (IterativeParamsFD.default.computePerturbation x).val ≤ 502 / 10 ^ 10 * max 1 |x.val| := by
    have hm1 : 1 ≤ max 1 |x.val| := le_max_left _ _
    have hm2 : |x.val| ≤ max 1 |x.val| := le_max_right _ _
    have hd : IterativeParamsFD.default.computePerturbation x =
        Fl.max (Scalar.dec 5 8) (Fl.mul (Fl.abs x) (Scalar.dec 5 8)) := rfl
    rcases fl_max_cases (Scalar.dec 5 8 : F64) (Fl.mul (Fl.abs x) (Scalar.dec 5 8)) with h | h
    · rw [hd, h]
      linarith
    · rw [hd, h] at fP ⊢
      obtain ⟨-, -, hv⟩ := Fl.val_mul fP
      rw [hv, Fl.val_abs]
      have h0 := mul_nonneg (abs_nonneg x.val) (le_trans (by norm_num) d1)
      have h1 : |x.val| * (Scalar.dec 5 8 : F64).val ≤ 5001 / 10 ^ 11 * max 1 |x.val| := by
        nlinarith [abs_nonneg x.val]
      change Binary64.rnd (|x.val| * (Scalar.dec 5 8 : F64).val) ≤ _
      have h2 : |Binary64.rnd (|x.val| * (Scalar.dec 5 8 : F64).val) - |x.val| * (Scalar.dec 5 8 : F64).val| ≤
          |x.val| * (Scalar.dec 5 8 : F64).val * (1 / 10 ^ 10) + 1 / 10 ^ 20 := by
        rcases Binary64.rnd_error (|x.val| * (Scalar.dec 5 8 : F64).val) with h | ⟨-, h⟩
        · rw [abs_of_nonneg h0] at h
          refine h.trans ?_
          have : (2 : ℚ) ^ (-53 : ℤ) ≤ 1 / 10 ^ 10 := by norm_num
          nlinarith
        · refine h.trans ?_
          have : (2 : ℚ) ^ (-1075 : ℤ) ≤ 1 / 10 ^ 20 := by
            calc (2 : ℚ) ^ (-1075 : ℤ) ≤ 2 ^ (-70 : ℤ) := zpow_le_zpow_right₀ (by norm_num) (by norm_num)
              _ ≤ _ := by norm_num
          nlinarith
      have h3 := (abs_le.1 h2).2
      nlinarith
  have hlo : 498 / 10 ^ 10 * max 1 |x.val| ≤ (IterativeParamsFD.default.computePerturbation x).val := by
    rcases max_cases 1 |x.val| with ⟨h, -⟩ | ⟨h, -⟩
    · rw [h]; linarith
    · rw [h]
      refine le_trans ?_ hPx
      rw [mul_comm, mul_assoc]
      refine mul_le_mul_of_nonneg_left ?_ (abs_nonneg _)
      rw [hrel]
      have : (999 / 1000 : ℚ) ≤ 1 - 2 ^ (-53 : ℤ) := by norm_num
      nlinarith
  set P := IterativeParamsFD.default.computePerturbation x
  have herr : |(Fl.add x P).val - x.val - P.val| ≤ (|x.val| + P.val) * (1 / 10 ^ 12) := by
    rw [Fl.val_add hx]
    have h := Binary64.rnd_add_error (Fl.val_fixed x) (Fl.val_fixed P)
    have e : Rounding.rnd (x.val + P.val) - x.val - P.val = Binary64.rnd (x.val + P.val) - (x.val + P.val) := by
      change Binary64.rnd (x.val + P.val) - x.val - P.val = _
      ring
    rw [e]
    refine h.trans ?_
    have h1 : |x.val + P.val| ≤ |x.val| + P.val := by
      refine (abs_add_le _ _).trans ?_
      rw [abs_of_pos hP0]
    have h2 : (2 : ℚ) ^ (-53 : ℤ) ≤ 1 / 10 ^ 12 := by norm_num
    have := abs_nonneg x.val
    exact mul_le_mul h1 h2 (Binary64.two_zpow_pos _).le (by positivity)
  have hm2 : |x.val| ≤ max 1 |x.val| := le_max_right _ _
  have hm1 : 1 ≤ max 1 |x.val| := le_max_left _ _
  obtain ⟨e1, e2⟩ := abs_le.1 herr
  change _ ≤ (Fl.add x P).val - x.val ∧ (Fl.add x P).val - x.val ≤ _
  constructor <;> linarith

section
variable {n : Nat} {EI EU S C : Type}

/-- Binary64 with the default parameters, every model obeying the memory contract: the distance of an entry of a
finite-difference Jacobian from the derivative `G 0` of a function `φ` that the model computes with errors of at most `E` (in the
residual `row`, as a function of the displacement of the variable `col`).  The curvature `L` enters with the displacement, the
errors with its inverse, rounding with `2.23e-9` times the rest. -/
theorem C92_total (c : Config F64 n) (m : UserModel F64 n EI EU S) (ctx : S → C) (hm : Memory m ctx) (s s' : S)
    (hp : m.jacobianProvided s = false) (hlen : m.lenProblem s = n)
    (hq : ∀ i, c.iters i = (IterativeParamsFD.default : IterativeParamsFD F64).toIterative)
    (j j' : JacobianMatrix F64 n) (h : computeJac c m j s = .ok (j', s', .ok ())) :
    ∃ J, j'.matrix = some J ∧ ∀ row col, (J row col).IsFinite →
      (perturbed .default (m.getIteratives s col)).IsFinite → ∀ (φ G : ℝ → ℝ) (E L : ℝ), 0 ≤ E → 0 ≤ L →
      (let x := m.getIteratives s col
       let dx := (perturbed .default x).val - x.val
       let r0 := c.res.evaluateUpdate (m.getResiduals s) row
       let r1 := updateResidualsAt c m s (fun l => if l = col then perturbed .default x else m.getIteratives s l) row
       |(r0.val : ℝ) - φ 0| ≤ E → |(r1.val : ℝ) - φ dx| ≤ E →
       (∀ t, |t| ≤ (dx : ℝ) → HasDerivAt φ (G t) t) → (∀ t, |t| ≤ (dx : ℝ) → |G t - G 0| ≤ L * |t|) →
       |((J row col).val : ℝ) - G 0| ≤ (1 + 223 / 10 ^ 11) * (L * (51 / 10 ^ 9 * max 1 |(x.val : ℝ)|) / 2 +
         2 * E / (49 / 10 ^ 9 * max 1 |(x.val : ℝ)|)) + 223 / 10 ^ 11 * |G 0| + 2 ^ (-1075 : ℤ)) := by
  obtain ⟨J, hJ, H⟩ := C92_chord c m ctx hm s s' hp hlen (fun _ => .default) hq (4999999999 / 10 ^ 17) (by norm_num)
    (fun _ => usable_default) j j' h
  refine ⟨J, hJ, fun row col hfin hx φ G E L hE hL => ?_⟩
  have hc := H row col hfin hx
  dsimp only at hc ⊢
  obtain ⟨b1, b2⟩ := default_displacement hx
  obtain ⟨hdx, -, -, hc⟩ := hc
  set x := m.getIteratives s col
  set dx := (perturbed .default x).val - x.val
  generalize c.res.evaluateUpdate (m.getResiduals s) row = r0 at hc ⊢
  generalize updateResidualsAt c m s (fun l => if l = col then perturbed .default x else m.getIteratives s l) row = r1
    at hc ⊢
  intro h0 h1 hd hG
  have hc2 := hc.trans (add_le_add_left (mul_le_mul_of_nonneg_left chordError_default (abs_nonneg _)) _)
  have hdx' : (0 : ℝ) < (dx : ℝ) := by exact_mod_cast hdx
  have hq1 := quotient_error (φ := φ) (G := G) (p := (dx : ℝ)) (L := L) hdx'.ne'
    (fun t ht => hd t (by rwa [abs_of_pos hdx'] at ht)) (fun t ht => hG t (by rwa [abs_of_pos hdx'] at ht))
  rw [abs_of_pos hdx'] at hq1
  set q : ℝ := ((r1.val : ℝ) - r0.val) / dx with hqd
  have hc3 : |((J row col).val : ℝ) - q| ≤ |q| * (223 / 10 ^ 11) + 2 ^ (-1075 : ℤ) := by
    have h := (Rat.cast_le (K := ℝ)).2 hc2
    push_cast at h
    rw [hqd]
    exact h
  have hq2 : |q - (φ dx - φ 0) / dx| ≤ 2 * E / dx := by
    have e : q - (φ dx - φ 0) / dx = ((r1.val - φ dx) - (r0.val - φ 0)) / dx := by
      rw [hqd]
      field_simp
      ring
    rw [e, abs_div, abs_of_pos hdx']
    refine div_le_div_of_nonneg_right ?_ hdx'.le
    refine (abs_sub _ _).trans ?_
    linarith
  have hm0 : (1 : ℝ) ≤ max 1 |(x.val : ℝ)| := le_max_left _ _
  have b1' : 49 / 10 ^ 9 * max 1 |(x.val : ℝ)| ≤ (dx : ℝ) := by
    have h := (Rat.cast_le (K := ℝ)).2 b1
    push_cast at h
    exact h
  have b2' : (dx : ℝ) ≤ 51 / 10 ^ 9 * max 1 |(x.val : ℝ)| := by
    have h := (Rat.cast_le (K := ℝ)).2 b2
    push_cast at h
    exact h
  have g1 : L * dx / 2 ≤ L * (51 / 10 ^ 9 * max 1 |(x.val : ℝ)|) / 2 := by
    have := mul_le_mul_of_nonneg_left b2' hL
    linarith
  have g2 : 2 * E / dx ≤ 2 * E / (49 / 10 ^ 9 * max 1 |(x.val : ℝ)|) :=
    div_le_div_of_nonneg_left (by linarith) (by positivity) b1'
  have hqG : |q - G 0| ≤ L * (51 / 10 ^ 9 * max 1 |(x.val : ℝ)|) / 2 +
      2 * E / (49 / 10 ^ 9 * max 1 |(x.val : ℝ)|) := by
    have e : q - G 0 = (q - (φ dx - φ 0) / dx) + ((φ dx - φ 0) / dx - G 0) := by ring
    rw [e]
    refine (abs_add_le _ _).trans ?_
    linarith
  set B := L * (51 / 10 ^ 9 * max 1 |(x.val : ℝ)|) / 2 + 2 * E / (49 / 10 ^ 9 * max 1 |(x.val : ℝ)|)
  have hqa : |q| ≤ |G 0| + B := by
    have h := abs_add_le (q - G 0) (G 0)
    rw [sub_add_cancel] at h
    linarith
  have e : ((J row col).val : ℝ) - G 0 = (((J row col).val : ℝ) - q) + (q - G 0) := by ring
  rw [e]
  refine (abs_add_le _ _).trans ?_
  linarith

end

/-- The identity with the guess one: the model at the guess. -/
def Demo92.identity : UserModel F64 1 Empty Empty (AdapterState F64 1) := fromFunction fun x => x

def Demo92.atOne : AdapterState F64 1 := ⟨fun _ => Scalar.one, fun _ => Scalar.one, fun _ => Scalar.zero⟩

def Demo92.cfg : Config F64 1 where
  params := { problemSize := 1, tolerance := Scalar.dec 1 6, maxIter := 50, method := .NewtonRaphson, damping := false }
  guess := fun _ => Scalar.one
  iters := fun _ => IterativeParamsFD.default.toIterative
  res := ⟨fun _ => .Abs, fun _ => .Abs⟩
  la := nalgebraLinAlg F64 1

/-- The bound has the right order: with the default parameters the finite difference of the identity at one, which is computed
without error and has no curvature, differs from one by more than `1.6e-9`. -/
theorem C92_attained : ∃ (j' : JacobianMatrix F64 1) (s' : AdapterState F64 1) (J : Mat F64 1),
    computeJac Demo92.cfg Demo92.identity .new Demo92.atOne = .ok (j', s', .ok ()) ∧ j'.matrix = some J ∧
    (J 0 0).IsFinite ∧ 16 / 10 ^ 10 ≤ |(J 0 0).val - 1| := by
  have h : (match computeJac Demo92.cfg Demo92.identity .new Demo92.atOne with
    | .ok (⟨some J, _, _, _⟩, _, .ok ()) => decide ((J 0 0).IsFinite ∧ (16 / 10 ^ 10 : ℚ) ≤ |(J 0 0).val - 1|)
    | _ => false) = true := by decide +kernel
  split at h
  · rename_i J _ _ _ s' heq
    exact ⟨_, s', J, heq, rfl, (of_decide_eq_true h).1, (of_decide_eq_true h).2⟩
  · cases h

theorem Demo92.memory : Memory Demo92.identity fun s => s.right where
  residuals s s' x h := by
    change (⟨x, s.right⟩ : ResidualsValues F64 1) = ⟨x, s'.right⟩
    rw [show s.right = s'.right from h]
  restore s s0 x h := h

/-- Hypotheses of `C92_chord` and `C92_total`: the identity at one, with a finite entry and a finite perturbed variable. -/
example : ∃ J : Mat F64 1, (J 0 0).IsFinite ∧ |((J 0 0).val : ℝ) - 1| ≤ 223 / 10 ^ 11 + 2 ^ (-1075 : ℤ) := by
  obtain ⟨j', s', J, h1, h2, h3, -⟩ := C92_attained
  obtain ⟨J', e, H⟩ := C92_total Demo92.cfg Demo92.identity _ Demo92.memory Demo92.atOne s' rfl rfl (fun _ => rfl) .new j' h1
  rw [h2] at e
  cases e
  refine ⟨J, h3, ?_⟩
  have hx : (perturbed .default (Demo92.identity.getIteratives Demo92.atOne 0)).IsFinite := by decide +kernel
  have := H 0 0 h3 hx (fun t => 1 + t) (fun _ => 1) 0 0 le_rfl le_rfl ?_ ?_ (fun t _ => (hasDerivAt_id t).const_add 1)
    (fun t _ => by simp)
  · refine this.trans (le_of_eq ?_)
    simp
  · have h : (Demo92.cfg.res.evaluateUpdate (Demo92.identity.getResiduals Demo92.atOne) 0).val = 1 := by decide +kernel
    rw [h]
    simp
  · have h : (updateResidualsAt Demo92.cfg Demo92.identity Demo92.atOne
        (fun l => if l = 0 then perturbed .default (Demo92.identity.getIteratives Demo92.atOne 0)
          else Demo92.identity.getIteratives Demo92.atOne l) 0).val =
        (perturbed .default (Demo92.identity.getIteratives Demo92.atOne 0)).val := by decide +kernel
    have h1 : (Demo92.identity.getIteratives Demo92.atOne 0).val = 1 := by decide +kernel
    rw [h, h1]
    push_cast
    simp

end Nrf
