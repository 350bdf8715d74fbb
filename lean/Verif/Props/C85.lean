import Verif.Proofs.Kantorovich
import Verif.Props.C02
import Verif.Props.C78
import Verif.Props.C84
import Mathlib.Analysis.Calculus.Deriv.MeanValue

/-!
# C85: A success certifies a root nearby
-/

namespace Nrf
open Spec
open scoped Exact
open Matrix

variable {n : Nat}

/-- At `x` the equations are well conditioned for residuals up to `t`: the inverse of the Jacobian is bounded by `β`, the
Jacobian is Lipschitz with constant `γ` within `2 β t`, and `β² γ t < 1/2`. -/
structure Spec.WellConditioned (F : Vec ℝ n → Vec ℝ n) (jac : Vec ℝ n → Mat ℝ n) (x : Vec ℝ n) (β γ t : ℝ) : Prop where
  jacobian : ∀ y, ‖y - x‖ ≤ 2 * (β * t) → IsJacobian F (jac y) y
  invertible : (jac x).det ≠ 0
  inverse : ∀ v, ‖(jac x)⁻¹ *ᵥ v‖ ≤ β * ‖v‖
  lipschitz : ∀ y z, ‖y - x‖ ≤ 2 * (β * t) → ‖z - x‖ ≤ 2 * (β * t) → ∀ v, ‖(jac y - jac z) *ᵥ v‖ ≤ γ * ‖y - z‖ * ‖v‖
  nonneg : 0 ≤ β ∧ 0 ≤ γ
  small : β ^ 2 * γ * t < 1 / 2

theorem kantorovich_of_wellConditioned {F : Vec ℝ n → Vec ℝ n} {jac : Vec ℝ n → Mat ℝ n} {x : Vec ℝ n} {β γ t : ℝ}
    (h : WellConditioned F jac x β γ t) (ht : ‖F x‖ ≤ t) : Kantorovich F jac x (β * t) (β * γ) where
  jacobian := h.jacobian
  invertible := h.invertible
  first := (h.inverse _).trans (mul_le_mul_of_nonneg_left ht h.nonneg.1)
  lipschitz y z hy hz v := by
    refine (h.inverse _).trans ?_
    have := mul_le_mul_of_nonneg_left (h.lipschitz y z hy hz v) h.nonneg.1
    linarith
  nonneg := mul_nonneg h.nonneg.1 h.nonneg.2
  small := by have := h.small; nlinarith

/-- A small residual at a well conditioned point: there is exactly one root nearby. -/
theorem root_of_wellConditioned {F : Vec ℝ n → Vec ℝ n} {jac : Vec ℝ n → Mat ℝ n} {x : Vec ℝ n} {β γ t : ℝ}
    (h : WellConditioned F jac x β γ t) (ht0 : 0 ≤ t) (ht : ∀ i, |F x i| ≤ t) :
    ∃! root, F root = 0 ∧ ∀ i, |root i - x i| ≤ 2 * (β * t) := by
  have hK := kantorovich_of_wellConditioned h ((pi_norm_le_iff_of_nonneg ht0).2 ht)
  have hη := Kantorovich.eta_nonneg hK
  obtain ⟨r, hr, hr0⟩ := Kantorovich.root hK
  refine ⟨r, ⟨hr0, fun i => (norm_le_pi_norm (r - x) i).trans hr⟩, ?_⟩
  rintro r' ⟨hr'0, hr'⟩
  exact (Kantorovich.unique hK (by have := h.small; nlinarith) hr hr0
    ((pi_norm_le_iff_of_nonneg (by linarith)).2 hr') hr'0).symm

/-- Exact arithmetic, any model, method, configuration and history.  Where a solve with absolute criteria succeeds, a
well conditioned system has exactly one root within `2 β` times the tolerance. -/
theorem C85_exact {EI EU S : Type} (c : Config ℝ n) (m : UserModel ℝ n EI EU S) (st st' : Solver ℝ n) (s s' : S)
    (h : solve c m st s = .ok (st', s', .ok ())) (hstop : ∀ i, c.res.stop i = .Abs) (ht : 0 ≤ c.params.tolerance)
    (F : Vec ℝ n → Vec ℝ n) (jac : Vec ℝ n → Mat ℝ n) (β γ : ℝ)
    (hF : ∀ i, (m.getResiduals s').left i - (m.getResiduals s').right i = F (m.getIteratives s') i)
    (hW : WellConditioned F jac (m.getIteratives s') β γ c.params.tolerance) :
    ∃! root, F root = 0 ∧ ∀ i, |root i - m.getIteratives s' i| ≤ 2 * (β * c.params.tolerance) := by
  refine root_of_wellConditioned hW ht fun i => ?_
  have := C01_ok_means_solved c m st st' s s' h i
  rw [hstop] at this
  rw [← hF]
  exact this

theorem le_of_leb_abs {K : Type} [Field K] [LinearOrder K] [Rounding K] [IsStrictOrderedRing K] {y t : Fl K} (hy : y ≠ .nan)
    (ht : t.IsFinite) (h : Fl.leb (Fl.abs y) t = true) : |y.val| ≤ t.val := by
  rcases y with _ | b | b | ⟨y, hy'⟩
  · exact absurd rfl hy
  · rcases t with _ | c | c | ⟨t, ht'⟩
    · exact ht.elim
    · exact ht.elim
    · cases h
    · cases h
  · have := (Fl.leb_finite (show (Fl.abs (.zero b) : Fl K).IsFinite from trivial) ht).1 h
    change |(0 : K)| ≤ _
    rw [abs_zero]
    exact this
  · have e : (Fl.abs (.num y hy') : Fl K).IsFinite ∧ (Fl.abs (.num y hy') : Fl K).val = |y| := by
      change (if y < 0 then Fl.num (-y) (Fl.isFloat_neg hy') else Fl.num y hy').IsFinite ∧
        (if y < 0 then Fl.num (-y) (Fl.isFloat_neg hy') else Fl.num y hy').val = |y|
      split
      · rename_i h; exact ⟨trivial, (abs_of_neg h).symm⟩
      · rename_i h; exact ⟨trivial, (abs_of_nonneg (not_lt.1 h)).symm⟩
    have := (Fl.leb_finite e.1 ht).1 h
    rw [e.2] at this
    exact this

/-- The real number of a double. -/
noncomputable def real (x : F64) : ℝ := (x.val : ℝ)

/-- Binary64, any method, configuration and history.  `f` is the function as computed, `F` the function that was meant,
`δ` the rounding error of `f` where the solve ended.  The system that was meant has exactly one root within `2 β` times
tolerance plus `δ`. -/
theorem C85_float (f : Vec F64 n → Vec F64 n) (m : UserModel F64 n Empty Empty (AdapterState F64 n)) (hm : Adapter f m)
    (c : Config F64 n) (hstop : ∀ i, c.res.stop i = .Abs) (ht : c.params.tolerance.IsFinite)
    (ht0 : 0 ≤ real c.params.tolerance) (st st' : Solver F64 n) (hv : st.valid = true) (s s' : AdapterState F64 n)
    (hs : (m.getResiduals s).right = fun _ => Scalar.zero) (h : solve c m st s = .ok (st', s', .ok ()))
    (F : Vec ℝ n → Vec ℝ n) (jac : Vec ℝ n → Mat ℝ n) (β γ δ : ℝ) (hδ0 : 0 ≤ δ)
    (hnan : ∀ i, f (m.getIteratives s') i ≠ .nan)
    (hδ : ∀ i, |real (f (m.getIteratives s') i) - F (fun j => real (m.getIteratives s' j)) i| ≤ δ)
    (hW : WellConditioned F jac (fun j => real (m.getIteratives s' j)) β γ (real c.params.tolerance + δ)) :
    ∃! root, F root = 0 ∧
      ∀ i, |root i - real (m.getIteratives s' i)| ≤ 2 * (β * (real c.params.tolerance + δ)) := by
  refine root_of_wellConditioned hW (by linarith) fun i => ?_
  obtain ⟨h1, h2⟩ := adapter_sides hm hv hs h
  have hsub : ∀ x : F64, normalization x Scalar.zero .Abs = Fl.add x (.zero true) := fun _ => rfl
  have hsub' : ∀ x : F64, x ≠ .nan → Fl.add x (.zero true) ≠ .nan ∧
      ((Fl.add x (.zero true)).IsFinite → x.IsFinite) ∧ (Fl.add x (.zero true)).val = x.val := by
    intro x hx
    rcases x with _ | b | b | ⟨x, hx⟩
    · exact absurd rfl hx
    · exact ⟨nofun, id, rfl⟩
    · exact ⟨nofun, fun _ => trivial, rfl⟩
    · exact ⟨nofun, id, rfl⟩
  have hle := C02_partial c m ht.not_nan st st' s s' h (fun j => by
    rw [h1, h2, hstop, hsub]; exact (hsub' _ (hnan j)).1) i
  rw [h1, h2, hstop, hsub] at hle
  obtain ⟨g1, g2, g3⟩ := hsub' _ (hnan i)
  have habs : |(f (m.getIteratives s') i).val| ≤ c.params.tolerance.val := by
    rw [← g3]
    generalize Fl.add (f (m.getIteratives s') i) (.zero true) = y at hle g1
    exact le_of_leb_abs g1 ht hle
  have habs' : |real (f (m.getIteratives s') i)| ≤ real c.params.tolerance := by
    unfold real
    exact_mod_cast habs
  have := hδ i
  rw [abs_le] at *
  constructor <;> linarith

/-! ### The hypotheses can be met -/

namespace DemoReal

/-- `x² = 2` is well conditioned near the root, for residuals below 1. -/
theorem square_wellConditioned (x : Vec ℝ 1) (hx : 7 / 5 ≤ x 0) (t : ℝ) (ht : t < 1) :
    WellConditioned (fun x : Vec ℝ 1 => fun _ => x 0 ^ 2 - 2) (fun x => !![2 * x 0]) x (1 / 2) 2 t where
  jacobian y _ := by
    have h1 : HasFDerivAt (𝕜 := ℝ) (fun y : Vec ℝ 1 => y 0) (ContinuousLinearMap.proj (R := ℝ) (φ := fun _ => ℝ) (0 : Fin 1)) y :=
      (ContinuousLinearMap.proj (R := ℝ) (φ := fun _ : Fin 1 => ℝ) (0 : Fin 1)).hasFDerivAt
    have h2 := (h1.pow 2).sub_const 2
    refine hasFDerivAt_pi'.2 fun i => ?_
    convert h2 using 1
    ext v
    simp [dotProduct]
  invertible := by
    rw [Matrix.det_fin_one]
    have : (0 : ℝ) < 2 * x 0 := by linarith
    exact this.ne'
  inverse v := by
    have hpos : (0 : ℝ) < 2 * x 0 := by linarith
    have e : (!![2 * x 0] : Mat ℝ 1)⁻¹ = !![(2 * x 0)⁻¹] := by
      refine Matrix.inv_eq_right_inv ?_
      ext i k
      fin_cases i; fin_cases k
      simp [Matrix.mul_apply]
      field_simp
    rw [e]
    refine (pi_norm_le_iff_of_nonneg (by positivity)).2 fun i => ?_
    have hm : (!![(2 * x 0)⁻¹] *ᵥ v) i = (2 * x 0)⁻¹ * v 0 := by
      fin_cases i
      simp [Matrix.mulVec, dotProduct]
    rw [hm, Real.norm_eq_abs, abs_mul, abs_inv, abs_of_pos hpos]
    refine mul_le_mul ?_ (norm_le_pi_norm v 0) (abs_nonneg _) (by norm_num)
    rw [one_div]
    exact inv_anti₀ two_pos (by linarith)
  lipschitz y z _ _ v := by
    refine (pi_norm_le_iff_of_nonneg (by positivity)).2 fun i => ?_
    have hm : ((!![2 * y 0] - !![2 * z 0] : Mat ℝ 1) *ᵥ v) i = 2 * (y 0 - z 0) * v 0 := by
      fin_cases i
      simp [Matrix.mulVec, dotProduct]
      left; ring
    rw [hm, Real.norm_eq_abs, abs_mul, abs_mul, abs_two]
    have h1 := norm_le_pi_norm (y - z) 0
    have h2 := norm_le_pi_norm v 0
    exact mul_le_mul (mul_le_mul_of_nonneg_left h1 two_pos.le) h2 (abs_nonneg _) (by positivity)
  nonneg := by norm_num
  small := by linarith

noncomputable def squareCfg (tol : ℝ) (maxIter : Nat) : Config ℝ 1 where
  params := { problemSize := 1, tolerance := tol, maxIter, method := .NewtonRaphson, damping := false }
  guess := fun _ => 3 / 2
  iters := fun _ => (limits 1).toIterative
  res := ⟨fun _ => .Abs, fun _ => .Abs⟩
  la := exactLinAlg ℝ 1

/-- Newton-Raphson for `x² = 2` from 3/2: the result is within the tolerance of the only root in its neighbourhood. -/
example (tol : ℝ) (h0 : 0 < tol) (h1 : tol ≤ 1 / 50) : ∃ N, ∀ s : AdapterState ℝ 1, s.right = 0 → ∃ st' s',
    solve (squareCfg tol N) (fromFunctionAndJacobian (fun x : Vec ℝ 1 => fun _ => x 0 ^ 2 - 2) fun x => !![2 * x 0]) .new s =
      .ok (st', s', .ok ()) ∧
    ∃! root : Vec ℝ 1, (fun _ : Fin 1 => root 0 ^ 2 - 2) = 0 ∧ ∀ i, |root i - s'.inputs i| ≤ 2 * (1 / 2 * tol) := by
  have hK := kantorovich_of_wellConditioned (square_wellConditioned (fun _ => 3 / 2) (by norm_num) (1 / 4) (by norm_num))
    ((pi_norm_le_iff_of_nonneg (by norm_num)).2 fun i => by rw [Real.norm_eq_abs, abs_le]; norm_num)
  obtain ⟨N, hN⟩ := C84_converges _ _ _ _ _ hK tol h0
  refine ⟨N, fun s hs => ?_⟩
  have hlim : ∀ (i : Fin 1) v d, |v - 3 / 2| ≤ 2 * (1 / 2 * (1 / 4)) → |v + d - 3 / 2| ≤ 2 * (1 / 2 * (1 / 4)) →
      ((squareCfg tol N).iters i).stepLimitation v d = v + d := by
    intro i v d hv hd
    have h1 := abs_le.1 hv
    have h2 := abs_le.1 hd
    have hv0 : 0 < v := by linarith
    have hd4 : |d| ≤ 1 / 2 := abs_le.2 ⟨by linarith, by linarith⟩
    have hstep : |d| ≤ min 1 (1 / 2 * |v|) := by
      rw [abs_of_pos hv0]
      exact le_min (by linarith) (by linarith)
    change min (max (v + min (min 1 (1 / 2 * |v|)) |d| * (if 0 ≤ d then 1 else -1)) (-10)) 10 = v + d
    have hsd : |d| * (if 0 ≤ d then 1 else -1) = d := by
      split
      · rename_i h; rw [abs_of_nonneg h, mul_one]
      · rename_i h; rw [abs_of_neg (not_le.1 h)]; ring
    rw [min_eq_right hstep, hsd, max_eq_left (by linarith), min_eq_left (by linarith)]
  obtain ⟨st', s', r, g1, g2, -, g4, g5⟩ := hN (squareCfg tol N)
    ⟨exactLinAlg_isExact ℝ 1, rfl, rfl, fun _ => rfl, fun _ => rfl⟩ rfl rfl (le_refl _) hlim s hs
  have hpos : 0 < s'.inputs 0 := by
    have h3 := abs_le.1 (g4 0)
    have h4 := abs_le.1 (g5 0)
    have h5 : 2 * (1 / 2 * (1 / 4 : ℝ)) / 2 ^ st'.iter ≤ 2 * (1 / 2 * (1 / 4)) :=
      div_le_self (by norm_num) (one_le_pow₀ (by norm_num))
    linarith
  have hlow : 7 / 5 ≤ s'.inputs 0 := by
    have := (abs_le.1 (g2 0)).1
    by_contra hlt
    nlinarith
  refine ⟨st', s', g1, C85_exact (squareCfg tol N) _ .new st' s s' g1 (fun _ => rfl) h0.le _ _ _ _ (fun i => ?_)
    (square_wellConditioned s'.inputs hlow tol (by linarith))⟩
  obtain ⟨e1, e2⟩ := adapter_sides (C53_function_and_jacobian _ _).1 rfl (show (_ : Vec ℝ 1) = 0 from hs) g1
  rw [e1, e2]
  exact sub_zero _

end DemoReal

open Demo64 in
/-- The binary64 solve of `x² = 2` within 0.001 (C02): the returned double is within 0.002 of the only root in its
neighbourhood. -/
example : ∃ st' s', solve (Demo64.cfg 3) Demo64.sqrt2 .new .new = .ok (st', s', .ok ()) ∧
    ∃! root : Vec ℝ 1, (fun _ : Fin 1 => root 0 ^ 2 - 2) = 0 ∧
      ∀ i, |root i - real (s'.inputs i)| ≤ 2 * (1 / 2 * (real (Demo64.cfg 3).params.tolerance + 1 / 10 ^ 15)) := by
  have hk : ∃ st' s', solve (Demo64.cfg 3) Demo64.sqrt2 .new .new = .ok (st', s', .ok ()) ∧
      (s'.inputs 0).val ≥ 7 / 5 ∧
      |(Fl.sub (Fl.mul (s'.inputs 0) (s'.inputs 0)) Scalar.two : F64).val - ((s'.inputs 0).val ^ 2 - 2)| ≤ 1 / 10 ^ 15 ∧
      (Fl.sub (Fl.mul (s'.inputs 0) (s'.inputs 0)) Scalar.two : F64) ≠ .nan := by
    have hd : (match solve (Demo64.cfg 3) Demo64.sqrt2 .new .new with
      | .ok (_, s', .ok ()) => decide ((s'.inputs 0).val ≥ 7 / 5 ∧
        |(Fl.sub (Fl.mul (s'.inputs 0) (s'.inputs 0)) Scalar.two : F64).val - ((s'.inputs 0).val ^ 2 - 2)| ≤ 1 / 10 ^ 15 ∧
        (Fl.sub (Fl.mul (s'.inputs 0) (s'.inputs 0)) Scalar.two : F64) ≠ .nan)
      | _ => false) = true := by decide +kernel
    split at hd
    · rename_i st' s' heq
      exact ⟨st', s', heq, of_decide_eq_true hd⟩
    · cases hd
  obtain ⟨st', s', h1, h2, h3, h4⟩ := hk
  refine ⟨st', s', h1, ?_⟩
  have htol : (Demo64.cfg 3).params.tolerance.IsFinite ∧ 0 ≤ (Demo64.cfg 3).params.tolerance.val ∧
      (Demo64.cfg 3).params.tolerance.val ≤ 1 / 600 := by
    have : (match (Demo64.cfg 3).params.tolerance with
      | .num t _ => decide (0 ≤ t ∧ t ≤ 1 / 600)
      | _ => false) = true := by decide +kernel
    generalize (Demo64.cfg 3).params.tolerance = t at *
    rcases t with _ | b | b | ⟨t, ht⟩
    · cases this
    · cases this
    · cases this
    · exact ⟨trivial, of_decide_eq_true this⟩
  have h5 : (real (Demo64.cfg 3).params.tolerance) ≤ 1 / 600 := by
    have : (((Demo64.cfg 3).params.tolerance.val : ℚ) : ℝ) ≤ ((1 / 600 : ℚ) : ℝ) := by exact_mod_cast htol.2.2
    unfold real
    push_cast at this
    linarith
  refine C85_float _ _ (C53_function_and_jacobian _ _).1 _ (fun _ => rfl) htol.1 ?_ .new st' rfl .new s' rfl h1 _ _
    (1 / 2) 2 _ (by norm_num) (fun _ => h4) (fun _ => ?_) (DemoReal.square_wellConditioned _ ?_ _ ?_)
  · unfold real; exact_mod_cast htol.2.1
  · unfold real
    have := (Rat.cast_le (K := ℝ)).2 h3
    push_cast at this
    exact this
  · unfold real
    have := (Rat.cast_le (K := ℝ)).2 h2
    push_cast at this
    exact this
  · linarith

end Nrf
