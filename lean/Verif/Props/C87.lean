import Verif.Proofs.Spacing
import Verif.Props.C78
import Verif.Props.C23
import Verif.Props.C80
import Verif.Model.Lu

/-!
# C87: a perturbation is not lost to rounding
-/

set_option linter.unusedSectionVars false

namespace Nrf

open Spec

section General
variable {K : Type} [Field K] [LinearOrder K] [Rounding K] [IsStrictOrderedRing K]

/-- A perturbation of at least `q` moves a number that `q` moves. -/
theorem fl_moved {x q : K} (hx : IsFloat x) (hq : 0 < q) (hlt : x < Rounding.rnd (x + q)) (hqf : IsFloat q) {p : Fl K}
    (hp : Fl.leb (.num q hqf) p = true) : Fl.ltb (.num x hx) (Fl.add (.num x hx) p) = true := by
  have h1 := Fl.add_mono_right (v := .num x hx) trivial hp
  have h2 : Fl.ltb (.num x hx) (Fl.add (.num x hx) (.num q hqf)) = true := by
    change Fl.ltb (.num x hx) (Fl.ofExact false (x + q)) = true
    unfold Fl.ofExact
    split_ifs with a b c
    · simp only [Fl.ltb, decide_eq_true_eq]; linarith
    · simp only [Fl.ltb, decide_eq_true_eq]; rwa [b] at hlt
    · simpa only [Fl.ltb, decide_eq_true_eq] using hlt
    · by_cases hneg : x + q < 0
      · exfalso
        have h3 : Rounding.rnd (x + q) ≤ 0 := Fl.rnd_nonpos hneg.le
        apply c
        rw [abs_of_nonpos h3]
        have h4 := hx.2.2
        rw [abs_of_neg (by linarith)] at h4
        linarith
      · simp [Fl.ltb, hneg]
  have hn : Fl.add (.num x hx) p ≠ .nan := Fl.not_nan_of_leb_right h1
  rw [Fl.ltb_iff (by simp) hn]
  intro h3
  rw [Fl.ltb_iff (by simp) (Fl.not_nan_of_leb_left h1)] at h2
  exact h2 (Fl.leb_trans h1 h3)

/-- The perturbation is at least the relative part. -/
theorem fl_rel_le (p : IterativeParamsFD (Fl K)) (ha : p.dxAbs.IsFinite) (h0 : Fl.leb (.zero false) p.dxAbs = true)
    {x : Fl K} (hp : Fl.mul (Fl.abs x) p.dxRel ≠ .nan) :
    Fl.leb (Fl.mul (Fl.abs x) p.dxRel) (p.computePerturbation x) = true := by
  obtain ⟨q, m, dxa, dxr⟩ := p
  cases m
  · exact Fl.leb_max_right hp
  · change Fl.leb _ (Fl.add dxa (Fl.mul (Fl.abs x) dxr)) = true
    rcases Fl.finite_or hp with hf | ⟨s, hs⟩
    · rw [Fl.add_comm']
      exact Fl.leb_add_of_nonneg hf h0
    · change Fl.mul (Fl.abs x) dxr = .inf s at hs
      rw [hs, Fl.add_inf ha]
      exact Fl.leb_refl (by simp)

/-- Numbers whose difference quotient is zero. -/
theorem fl_flat {a : Fl K} (ha : a.IsFinite) (z : Bool) {d : K} (hd : IsFloat d) (hd0 : 0 < d) :
    Fl.div (Fl.sub (Fl.sub a (.zero z)) (Fl.sub a (.zero z))) (.num d hd) = .zero false := by
  have h1 : (Fl.sub a (.zero z)).IsFinite := by
    rcases a with _ | s | s | ⟨x, hx⟩
    · exact ha.elim
    · exact ha.elim
    · cases s <;> cases z <;> trivial
    · trivial
  have h2 : Fl.sub (Fl.sub a (.zero z)) (Fl.sub a (.zero z)) = .zero false := by
    generalize Fl.sub a (.zero z) = b at h1
    rcases b with _ | s | s | ⟨x, hx⟩
    · exact h1.elim
    · exact h1.elim
    · cases s <;> rfl
    · change Fl.ofExact false (x + -x) = _
      rw [add_neg_cancel, Fl.ofExact_zero]
  rw [h2]
  change Fl.zero (false ^^ decide (d < 0)) = _
  rw [decide_eq_false (not_lt.2 hd0.le)]
  rfl

end General

/-- Binary64, every accepted parameter set with finite parameters and `dx_rel ≥ 2⁻⁵²` (the machine epsilon), both
methods: the perturbed variable is strictly larger than the variable, for every finite value including subnormal numbers. -/
theorem C87_moved (p : IterativeParamsFD F64)
    (hnew : ∃ a b lo hi dxa dxr m, IterativeParamsFD.new a b lo hi dxa dxr m = .ok p)
    (ha : p.dxAbs.IsFinite) (hb : p.dxRel.IsFinite) (hr : (2 : ℚ) ^ (-52 : ℤ) ≤ p.dxRel.val)
    (x : F64) (hfin : x.IsFinite) :
    Scalar.lt x (x +ᶠ p.computePerturbation x) = true := by
  obtain ⟨-, hle, hpos⟩ := C23_float p hnew ha hb x hfin.not_nan
  have ha0 : Fl.ltb (.zero false) p.dxAbs = true := by
    obtain ⟨a, b, lo, hi, dxa, dxr, m, hn⟩ := hnew
    obtain ⟨h1, -, q, -, rfl⟩ := paramsFd_new_eq_ok.1 hn
    exact (fl_le_false ha.not_nan (by simp)).1 h1
  change Fl.leb p.dxAbs (p.computePerturbation x) = true at hle
  change Fl.ltb (.zero false) (p.computePerturbation x) = true at hpos
  change Fl.ltb x (Fl.add x (p.computePerturbation x)) = true
  rcases x with _ | s | s | ⟨x, hx⟩
  · exact hfin.elim
  · exact hfin.elim
  · generalize p.computePerturbation (.zero s) = d at hpos ⊢
    rcases d with _ | t | t | ⟨y, hy⟩
    · cases hpos
    · exact hpos
    · cases hpos
    · exact hpos
  · set e := Binary64.ulpExp x
    have hq : (0 : ℚ) < 2 ^ e := Binary64.two_zpow_pos e
    have hge := Binary64.ulpExp_ge x
    have hbig : (2 : ℚ) ^ e < 2 ^ 1024 := by
      by_cases he : e = -1074
      · rw [he]
        calc (2 : ℚ) ^ (-1074 : ℤ) < 2 ^ (1024 : ℤ) := zpow_lt_zpow_right₀ (by norm_num) (by norm_num)
          _ = _ := by norm_num
      · have h1 := Binary64.le_of_ulpExp hx.1 he
        have h2 : (2 : ℚ) ^ e ≤ 2 ^ (e + 52) := zpow_le_zpow_right₀ (by norm_num) (by omega)
        exact lt_of_le_of_lt (h2.trans h1) hx.2.2
    have hqf : IsFloat ((2 : ℚ) ^ e) := ⟨hq.ne', Binary64.rnd_zpow hge, by rw [abs_of_pos hq]; exact hbig⟩
    refine fl_moved hx hq (Binary64.lt_rnd_add hx.2.1 le_rfl) hqf ?_
    rcases Binary64.ulp_le hx.1 with h | h
    · have hrv : ∃ r hr', p.dxRel = .num r hr' := by
        rcases hd : p.dxRel with _ | s | s | ⟨r, hr'⟩
        · rw [hd] at hb; exact hb.elim
        · rw [hd] at hb; exact hb.elim
        · rw [hd] at hr
          exact absurd hr (not_le.2 (Binary64.two_zpow_pos _))
        · exact ⟨r, hr', rfl⟩
      obtain ⟨r, hr', hreq⟩ := hrv
      have hr0 : (2 : ℚ) ^ (-52 : ℤ) ≤ r := by rw [hreq] at hr; exact hr
      have hxa : ∃ h', Fl.abs (.num x hx : F64) = .num |x| h' := by
        change ∃ h', (if x < 0 then Fl.num (-x) _ else .num x hx) = .num |x| h'
        split_ifs with hneg
        · simp only [abs_of_neg hneg]; exact ⟨Fl.isFloat_neg hx, trivial⟩
        · simp only [abs_of_nonneg (not_lt.1 hneg)]; exact ⟨hx, trivial⟩
      obtain ⟨h', hxa⟩ := hxa
      have hprod : Fl.mul (Fl.abs (.num x hx : F64)) p.dxRel = Fl.ofExact false (|x| * r) := by
        rw [hxa, hreq]; rfl
      refine Fl.leb_trans ?_ (fl_rel_le p ha (fl_le_of_lt ha0) (by rw [hprod]; exact Fl.ofExact_not_nan _ _))
      rw [hprod, ← Fl.ofExact_self false hqf]
      exact Fl.ofExact_mono _ _ (h.trans (mul_le_mul_of_nonneg_left hr0 (abs_nonneg x)))
    · refine Fl.leb_trans ?_ hle
      rcases hd : p.dxAbs with _ | s | s | ⟨r, hr'⟩
      · rw [hd] at ha0; cases ha0
      · rw [hd] at ha; exact ha.elim
      · rw [hd] at ha0; cases ha0
      · rw [hd] at ha0
        simp only [Fl.ltb, decide_eq_true_eq] at ha0
        have h3 := Binary64.smallest ha0 hr'.2.1
        rw [← h] at h3
        simpa only [Fl.leb, decide_eq_true_eq] using h3

namespace Demo64

/-- An accepted parameter set: `dx_abs` and `dx_rel` are `2⁻⁶⁰`. -/
def tiny : IterativeParamsFD F64 := ⟨⟨Fl.one, Fl.one, .inf true, .inf false⟩, .Max, ofRat (1 / 2 ^ 60), ofRat (1 / 2 ^ 60)⟩

end Demo64

/-- Without the bound on `dx_rel` the property fails, and with it every function: there is an accepted parameter set with
which, from the guess `1`, the finite differences of every function of one unknown are zero.  Whatever the function
and the other settings, the solve returns at the guess, or with the error of a Jacobian that is not invertible. -/
theorem C87_refuted : ∃ p : IterativeParamsFD F64,
    (∃ a b lo hi dxa dxr m, IterativeParamsFD.new a b lo hi dxa dxr m = .ok p) ∧
    Fl.one +ᶠ p.computePerturbation Fl.one = Fl.one ∧
    ∀ (f : Vec F64 1 → Vec F64 1) (c : Config F64 1) (s : AdapterState F64 1),
      s.right = (fun _ => .zero false) → c.la = nalgebraLinAlg F64 1 → c.guess = (fun _ => Fl.one) →
      (f c.guess 0).IsFinite → c.res.upd 0 = .Abs → (c.iters 0).computePerturbation = some p.computePerturbation →
      ∃ st' s' r, solve c (fromFunction f) .new s = .ok (st', s', r) ∧
        (st'.iter = 0 ∧ s'.inputs = c.guess ∨ r = .error (.jacobian .invalidJacobianInverse)) := by
  refine ⟨Demo64.tiny, ⟨_, _, _, _, _, _, _,
    paramsFd_new_eq_ok.2 ⟨?_, ?_, _, params_new_eq_ok.2 ⟨?_, ?_, ?_, rfl⟩, rfl⟩⟩, ?_, ?_⟩
  case refine_7 =>
    intro f c s hs hla hg hfin hu hp
    have hcomp := fromFunction_computes f (fun _ => (.zero false : F64))
    have hund := fromFunction_underived f (fun _ => (.zero false : F64))
    have hpert : computePerturbations c.iters c.guess = some (fun _ => Demo64.ofRat (1 / 2 ^ 60)) := by
      have hsome : ∀ i, ((c.iters i).computePerturbation).isSome := by
        intro i; rw [Subsingleton.elim i 0, hp]; rfl
      rw [computePerturbations, dif_pos hsome]
      congr 1
      funext i
      rw [Subsingleton.elim i 0, Option.get_of_eq_some _ hp, hg]
      decide +kernel
    have hmv : ∀ i, moved c.guess i (Demo64.ofRat (1 / 2 ^ 60)) = c.guess := by
      intro i
      rw [hg]
      funext l
      have : Fl.one +ᶠ Demo64.ofRat (1 / 2 ^ 60) = Fl.one := by decide +kernel
      simp only [moved, this, ite_self]
    have hdiff : differencesAt c (fun x => ⟨f x, fun _ => .zero false⟩) (fun _ => Demo64.ofRat (1 / 2 ^ 60)) c.guess =
        fun _ _ => .zero false := by
      funext i j
      rw [Subsingleton.elim i 0]
      simp only [differencesAt, hmv]
      have e : updateAt c (fun x => ⟨f x, fun _ => .zero false⟩) c.guess 0 = Fl.sub (f c.guess 0) (.zero false) := by
        change normalization _ _ (c.res.upd 0) = _
        rw [hu]; rfl
      rw [e]
      obtain ⟨d, hd, hde, hd0⟩ : ∃ d hd, Demo64.ofRat (1 / 2 ^ 60) = .num d hd ∧ 0 < d :=
        ⟨1 / 2 ^ 60, by unfold IsFloat; decide +kernel, by decide +kernel, by norm_num⟩
      rw [hde]
      exact fl_flat hfin false hd hd0
    have hinv : c.la.inv (differencesAt c (fun x => ⟨f x, fun _ => .zero false⟩)
        (fun _ => Demo64.ofRat (1 / 2 ^ 60)) c.guess) = none := by
      rw [hdiff, hla]
      decide +kernel
    rcases solve_follow_or (c := c) hcomp
      (fun k st s => k = 0 ∧ st = .new ∧ At _ (fun s => s.right = fun _ => .zero false)
        (fun x => ⟨f x, fun _ => .zero false⟩) s c.guess)
      (fun k st s e => e = .jacobian .invalidJacobianInverse)
      (by
        rintro k st s ⟨rfl, rfl, hat⟩ -
        right
        obtain ⟨j', s', h1, h2⟩ := computeJac_fd_singular hcomp hund hat hpert (fun _ => trivial)
          ({ (Solver.new : Solver F64 1) with iter := 1 }).jac hinv
        have := computeStep_singular (c := c) (m := fromFunction f)
          (st := { (Solver.new : Solver F64 1) with iter := 1 }) rfl (.inr rfl) h2
        exact ⟨_, s', _, iterate_singular this, rfl⟩)
      hs trivial (fun s0 h => ⟨rfl, rfl, h⟩) with ⟨k, st', s', h1, ⟨rfl, rfl, hat⟩, -, -⟩ | ⟨k, st', s', e, h1, rfl⟩
    · exact ⟨_, s', _, h1, .inl ⟨rfl, hat.iteratives⟩⟩
    · exact ⟨_, s', _, h1, .inr rfl⟩
  all_goals decide +kernel

/-- Hypotheses of `C87_moved`: parameters `1e-8`, and the number `1e16`, whose neighbours are at a distance of 2. -/
example :
    (let p : IterativeParamsFD F64 := ⟨⟨Fl.one, Fl.one, .inf true, .inf false⟩, .Sum,
      Demo64.ofRat (1 / 10 ^ 8), Demo64.ofRat (1 / 10 ^ 8)⟩
    (∃ a b lo hi dxa dxr m, IterativeParamsFD.new a b lo hi dxa dxr m = .ok p) ∧ p.dxAbs.IsFinite ∧ p.dxRel.IsFinite ∧
    (2 : ℚ) ^ (-52 : ℤ) ≤ p.dxRel.val ∧ (Demo64.ofRat (10 ^ 16)).IsFinite) := by
  refine ⟨⟨_, _, _, _, _, _, _, paramsFd_new_eq_ok.2 ⟨?_, ?_, _, params_new_eq_ok.2 ⟨?_, ?_, ?_, rfl⟩, rfl⟩⟩, ?_, ?_, ?_, ?_⟩ <;>
    decide +kernel

/-- Hypotheses of the refutation: `x² - 2` from the guess `1`; the solve fails although Newton's method with the derivative
converges in a few steps. -/
example : Demo.kind (solve { Demo64.cfg 20 with
      guess := fun _ => Fl.one,
      la := nalgebraLinAlg F64 1,
      iters := fun _ => Demo64.tiny.toIterative }
    (fromFunction fun x _ => Scalar.sub (Scalar.mul (x 0) (x 0)) Scalar.two) .new .new) = .jacobian ∧
    Demo.kind (solve { Demo64.cfg 20 with guess := fun _ => Fl.one, la := nalgebraLinAlg F64 1 }
      Demo64.sqrt2 .new .new) = .ok := by constructor <;> decide +kernel

end Nrf
