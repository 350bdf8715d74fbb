import Verif.Proofs.Float

/-!
# Arithmetic facts about the float model
-/

set_option linter.unusedSectionVars false

namespace Nrf.Fl
variable {K : Type} [Field K] [LinearOrder K] [Rounding K] [IsStrictOrderedRing K]

/-- Zeros and finite numbers. -/
def IsFinite : Fl K → Prop
  | .nan => False
  | .inf _ => False
  | .zero _ => True
  | .num _ _ => True

/-- The number represented (0 for the others). -/
def val : Fl K → K
  | .num x _ => x
  | _ => 0

theorem IsFinite.not_nan {a : Fl K} (h : a.IsFinite) : a ≠ .nan := by
  rintro rfl; exact h

theorem rnd_zero : (Rounding.rnd (0 : K)) = 0 := by
  have h := Rounding.odd (0 : K)
  rw [neg_zero] at h
  linarith

theorem rnd_nonneg {x : K} (h : 0 ≤ x) : 0 ≤ Rounding.rnd x := by
  have := Rounding.mono _ _ h
  rwa [rnd_zero] at this

theorem rnd_nonpos {x : K} (h : x ≤ 0) : Rounding.rnd x ≤ 0 := by
  have := Rounding.mono _ _ h
  rwa [rnd_zero] at this

theorem ofExact_zero (z : Bool) : (ofExact z 0 : Fl K) = .zero z := by simp [ofExact]

theorem ofExact_self (z : Bool) {x : K} (h : IsFloat x) : ofExact z x = .num x h := by
  have h2 : |Rounding.rnd x| < Rounding.big := by rw [h.2.1]; exact h.2.2
  unfold ofExact
  rw [dif_neg h.1, dif_neg (by rw [h.2.1]; exact h.1), dif_pos h2]
  congr 1
  exact h.2.1

theorem ofExact_not_nan (z : Bool) (x : K) : ofExact z x ≠ .nan := by
  unfold ofExact
  split_ifs <;> simp

theorem ofExact_val {a : Fl K} (h : a.IsFinite) : ∃ z, a = ofExact z a.val := by
  cases a with
  | nan => exact h.elim
  | inf => exact h.elim
  | zero s => exact ⟨s, (ofExact_zero s).symm⟩
  | num x hx => exact ⟨false, (ofExact_self false hx).symm⟩

/-- Rounding preserves the order. -/
theorem ofExact_mono (z z' : Bool) {x y : K} (h : x ≤ y) :
    leb (ofExact z x) (ofExact z' y) = true := by
  have hr := Rounding.mono _ _ h
  unfold ofExact
  by_cases hx0 : x = 0
  · rw [dif_pos hx0]
    by_cases hy0 : y = 0
    · rw [dif_pos hy0]; rfl
    · have hyp : 0 < y := lt_of_le_of_ne (hx0 ▸ h) (Ne.symm hy0)
      rw [dif_neg hy0]
      by_cases h1 : Rounding.rnd y = 0
      · rw [dif_pos h1]; rfl
      · rw [dif_neg h1]
        split_ifs
        · simpa [leb] using lt_of_le_of_ne (rnd_nonneg hyp.le) (Ne.symm h1)
        · simp [leb, not_lt.2 hyp.le]
  · rw [dif_neg hx0]
    by_cases hy0 : y = 0
    · have hxn : x < 0 := lt_of_le_of_ne (hy0 ▸ h) hx0
      rw [dif_pos hy0]
      by_cases h1 : Rounding.rnd x = 0
      · rw [dif_pos h1]; rfl
      · rw [dif_neg h1]
        split_ifs
        · simpa [leb] using lt_of_le_of_ne (rnd_nonpos hxn.le) h1
        · simp [leb, hxn]
    · rw [dif_neg hy0]
      by_cases h1 : Rounding.rnd x = 0 <;> by_cases h2 : Rounding.rnd y = 0
      · rw [dif_pos h1, dif_pos h2]; rfl
      · rw [dif_pos h1, dif_neg h2]
        have hy : 0 < Rounding.rnd y := lt_of_le_of_ne (h1 ▸ hr) (Ne.symm h2)
        have hyp : ¬ y < 0 := fun hy' => absurd (rnd_nonpos hy'.le) (not_le.2 hy)
        split_ifs
        · simpa [leb] using hy
        · simp [leb, hyp]
      · rw [dif_neg h1, dif_pos h2]
        have hx : Rounding.rnd x < 0 := lt_of_le_of_ne (h2 ▸ hr) h1
        have hxp : x < 0 := by
          by_contra hx'
          exact absurd (rnd_nonneg (not_lt.1 hx')) (not_le.2 hx)
        split_ifs
        · simpa [leb] using hx
        · simp [leb, hxp]
      · rw [dif_neg h1, dif_neg h2]
        by_cases h3 : |Rounding.rnd x| < Rounding.big <;> by_cases h4 : |Rounding.rnd y| < Rounding.big
        · rw [dif_pos h3, dif_pos h4]; simpa [leb] using hr
        · rw [dif_pos h3, dif_neg h4]
          have : ¬ y < 0 := by
            intro hy
            have hy' := rnd_nonpos hy.le
            rw [abs_of_nonpos hy'] at h4
            rw [abs_of_nonpos (hr.trans hy')] at h3
            linarith
          simp [leb, this]
        · rw [dif_neg h3, dif_pos h4]
          have : x < 0 := by
            by_contra hx
            have hx' := rnd_nonneg (not_lt.1 hx)
            rw [abs_of_nonneg hx'] at h3
            rw [abs_of_nonneg (hx'.trans hr)] at h4
            linarith
          simp [leb, this]
        · rw [dif_neg h3, dif_neg h4]
          by_cases hy : y < 0
          · simp [leb, lt_of_le_of_lt h hy]
          · simp [leb, hy]

theorem leb_finite {a b : Fl K} (ha : a.IsFinite) (hb : b.IsFinite) :
    leb a b = true ↔ a.val ≤ b.val := by
  rcases a with _ | s | s | ⟨x, hx⟩ <;> rcases b with _ | t | t | ⟨y, hy⟩ <;>
    first
      | exact ha.elim
      | exact hb.elim
      | skip
  · simp [leb, val]
  · simp only [leb, val, decide_eq_true_eq]
    exact ⟨le_of_lt, fun h => lt_of_le_of_ne h (Ne.symm hy.1)⟩
  · simp only [leb, val, decide_eq_true_eq]
    exact ⟨le_of_lt, fun h => lt_of_le_of_ne h hx.1⟩
  · simp [leb, val]

theorem add_finite {a b : Fl K} (ha : a.IsFinite) (hb : b.IsFinite) :
    ∃ z, add a b = ofExact z (a.val + b.val) := by
  rcases a with _ | s | s | ⟨x, hx⟩ <;> rcases b with _ | t | t | ⟨y, hy⟩ <;>
    first
      | exact ha.elim
      | exact hb.elim
      | skip
  · exact ⟨s && t, by simp [add, val, ofExact_zero]⟩
  · exact ⟨false, by simp [add, val, ofExact_self false hy]⟩
  · exact ⟨false, by simp [add, val, ofExact_self false hx]⟩
  · exact ⟨false, rfl⟩

theorem add_inf {a : Fl K} (ha : a.IsFinite) (s : Bool) : add a (.inf s) = .inf s := by
  rcases a with _ | s | s | ⟨x, hx⟩ <;> first | exact ha.elim | rfl

theorem leb_inf_false {a : Fl K} (ha : a ≠ .nan) : leb a (.inf false) = true := by
  rcases a with _ | s | s | ⟨x, hx⟩ <;> simp_all [leb]

theorem inf_true_leb {a : Fl K} (ha : a ≠ .nan) : leb (.inf true) a = true := by
  rcases a with _ | s | s | ⟨x, hx⟩ <;> simp_all [leb]

theorem finite_or {a : Fl K} (ha : a ≠ .nan) : a.IsFinite ∨ ∃ s, a = .inf s := by
  rcases a with _ | s | s | ⟨x, hx⟩
  · exact absurd rfl ha
  · exact .inr ⟨s, rfl⟩
  · exact .inl trivial
  · exact .inl trivial

theorem add_not_nan {v a : Fl K} (hv : v.IsFinite) (ha : a ≠ .nan) : add v a ≠ .nan := by
  rcases finite_or ha with h | ⟨s, rfl⟩
  · obtain ⟨z, hz⟩ := add_finite hv h
    rw [hz]; exact ofExact_not_nan _ _
  · rw [add_inf hv]; simp

/-- Adding to a finite number preserves the order. -/
theorem add_mono_right {v a b : Fl K} (hv : v.IsFinite) (h : leb a b = true) :
    leb (add v a) (add v b) = true := by
  have ha := not_nan_of_leb_left h
  have hb := not_nan_of_leb_right h
  rcases finite_or ha with fa | ⟨s, rfl⟩
  · rcases finite_or hb with fb | ⟨t, rfl⟩
    · obtain ⟨z, hz⟩ := add_finite hv fa
      obtain ⟨z', hz'⟩ := add_finite hv fb
      rw [hz, hz']
      exact ofExact_mono _ _ (by linarith [(leb_finite fa fb).1 h])
    · rw [add_inf hv]
      cases t
      · exact leb_inf_false (add_not_nan hv ha)
      · rcases a with _ | s | s | ⟨x, hx⟩ <;> first | exact fa.elim | cases h
  · rw [add_inf hv]
    cases s
    · rcases b with _ | s | s | ⟨x, hx⟩
      · cases h
      · cases s
        · rw [add_inf hv]; rfl
        · cases h
      · cases h
      · cases h
    · exact inf_true_leb (add_not_nan hv hb)

theorem add_zero_equiv {v : Fl K} (hv : v.IsFinite) :
    leb v (add v (.zero false)) = true ∧ leb (add v (.zero false)) v = true := by
  rcases v with _ | s | s | ⟨x, hx⟩ <;> first | exact hv.elim | simp [add, leb]

/-- A finite number lies between itself plus a negative and itself plus a
positive quantity. -/
theorem leb_add_of_nonneg {v a : Fl K} (hv : v.IsFinite) (h : leb (.zero false) a = true) :
    leb v (add v a) = true := by
  refine leb_trans ?_ (add_mono_right hv h)
  exact (add_zero_equiv hv).1

theorem add_leb_of_nonpos {v a : Fl K} (hv : v.IsFinite) (h : leb a (.zero false) = true) :
    leb (add v a) v = true := by
  refine leb_trans (add_mono_right hv h) ?_
  exact (add_zero_equiv hv).2

theorem neg_leb_neg {a b : Fl K} : leb (neg a) (neg b) = leb b a := by
  rcases a with _ | s | s | ⟨x, hx⟩ <;> rcases b with _ | t | t | ⟨y, hy⟩ <;>
    simp [leb, neg, Bool.or_comm]

theorem neg_neg (a : Fl K) : neg (neg a) = a := by
  rcases a with _ | s | s | ⟨x, hx⟩ <;> simp [neg]

theorem neg_not_nan {a : Fl K} (h : a ≠ .nan) : neg a ≠ .nan := by
  rcases a with _ | s | s | ⟨x, hx⟩ <;> simp_all [neg]

theorem abs_not_nan {a : Fl K} (h : a ≠ .nan) : abs a ≠ .nan := by
  rcases a with _ | s | s | ⟨x, hx⟩ <;> simp_all [abs]
  split <;> simp

theorem abs_nonneg {a : Fl K} (h : a ≠ .nan) : leb (.zero false) (abs a) = true := by
  rcases a with _ | s | s | ⟨x, hx⟩
  · exact absurd rfl h
  · rfl
  · rfl
  · by_cases hx' : x < 0
    · simpa [abs, hx', leb] using hx'
    · simpa [abs, hx', leb] using lt_of_le_of_ne (not_lt.1 hx') (Ne.symm hx.1)

theorem abs_neg (a : Fl K) : abs (neg a) = abs a := by
  rcases a with _ | s | s | ⟨x, hx⟩ <;> simp [abs, neg]
  rcases lt_or_gt_of_ne hx.1 with h | h
  · simp [h, not_lt.2 h.le]
  · simp [h, not_lt.2 h.le]

theorem abs_abs (a : Fl K) : abs (abs a) = abs a := by
  rcases a with _ | s | s | ⟨x, hx⟩
  · rfl
  · rfl
  · rfl
  · by_cases h : x < 0
    · have h2 : ¬ -x < 0 := not_lt.2 (neg_pos.2 h).le
      simp [abs, h, h2]
    · simp [abs, h]

theorem mul_one {a : Fl K} : mul a one = a := by
  rcases a with _ | s | s | ⟨x, hx⟩
  · rfl
  · simp [mul, one, sign, not_lt.2 (zero_le_one' K)]
  · simp [mul, one, sign, not_lt.2 (zero_le_one' K)]
  · simp [mul, one, ofExact_self false hx]

theorem mul_neg_one {a : Fl K} : mul a (neg one) = neg a := by
  rcases a with _ | s | s | ⟨x, hx⟩
  · rfl
  · simp [mul, one, sign, neg]
  · simp [mul, one, sign, neg]
  · simp [mul, one, neg, ofExact_self false (isFloat_neg hx)]

theorem mul_signum {a t : Fl K} (ha : a ≠ .nan) :
    mul t (signum a) = if a.sign then neg t else t := by
  have : signum a = if a.sign then neg one else one := by
    cases a <;> first | exact absurd rfl ha | rfl
  rw [this]
  split
  · exact mul_neg_one
  · exact mul_one

/-- `a.abs() * a.signum()` is `a`, signed zeros and infinities included. -/
theorem abs_mul_signum {a : Fl K} (ha : a ≠ .nan) : mul (abs a) (signum a) = a := by
  rw [mul_signum ha]
  rcases a with _ | s | s | ⟨x, hx⟩
  · exact absurd rfl ha
  · cases s <;> simp [sign, abs, neg]
  · cases s <;> simp [sign, abs, neg]
  · by_cases h : x < 0 <;> simp [sign, abs, neg, h]

/-- A product of non-negative values is non-negative, unless it is NaN. -/
theorem mul_nonneg {a b : Fl K} (ha : leb (.zero false) a = true) (hb : leb (.zero false) b = true)
    (hn : mul a b ≠ .nan) : leb (.zero false) (mul a b) = true := by
  rcases a with _ | s | s | ⟨x, hx⟩ <;> rcases b with _ | t | t | ⟨y, hy⟩ <;>
    simp_all [leb, mul, sign]
  · exact hb.le
  · exact ha.le
  · have := ofExact_mono (K := K) false false (mul_pos ha hb).le
    rw [ofExact_zero] at this
    simpa [leb] using this

theorem add_comm' (a b : Fl K) : add a b = add b a := by
  rcases a with _ | s | s | ⟨x, hx⟩ <;> rcases b with _ | t | t | ⟨y, hy⟩ <;>
    simp [add, Bool.and_comm, _root_.add_comm]
  by_cases h : s = t
  · simp [h]
  · simp [h, Ne.symm h]

theorem abs_ofExact_neg (z z' : Bool) (x : K) : abs (ofExact z (-x)) = abs (ofExact z' x) := by
  unfold ofExact
  by_cases h0 : x = 0
  · simp [h0, abs]
  · by_cases h1 : Rounding.rnd x = 0
    · have h1' : Rounding.rnd (-x) = 0 := by rw [Rounding.odd, h1, neg_zero]
      simp [h0, h1, h1', abs]
    · have h1' : Rounding.rnd (-x) ≠ 0 := by rw [Rounding.odd]; simpa using h1
      by_cases h2 : |Rounding.rnd x| < Rounding.big
      · have h2' : |Rounding.rnd (-x)| < Rounding.big := by rw [Rounding.odd, _root_.abs_neg]; exact h2
        have e := Rounding.odd x
        simp only [neg_eq_zero, h0, h1, h1', h2, h2', dite_true, dite_false, abs]
        rcases lt_or_gt_of_ne h1 with h | h
        · simp [h, e, not_lt.2 h.le]
        · simp [not_lt.2 h.le, not_le.2 h, e]
      · have h2' : ¬ |Rounding.rnd (-x)| < Rounding.big := by rw [Rounding.odd, _root_.abs_neg]; exact h2
        simp [h0, h1, h1', h2, h2', abs]

/-- The magnitude of a difference does not depend on the order. -/
theorem abs_sub_comm' (a b : Fl K) : abs (sub a b) = abs (sub b a) := by
  unfold sub
  rcases a with _ | s | s | ⟨x, hx⟩ <;> rcases b with _ | t | t | ⟨y, hy⟩ <;>
    first
      | rfl
      | (cases s <;> cases t <;> rfl)
      | (cases s <;> rfl)
      | (cases t <;> rfl)
      | skip
  · exact Fl.abs_neg (.num y hy)
  · exact (Fl.abs_neg (.num x hx)).symm
  · change abs (ofExact false (x + -y)) = abs (ofExact false (y + -x))
    rw [show y + -x = -(x + -y) by rw [neg_add, _root_.neg_neg, _root_.add_comm]]
    exact (abs_ofExact_neg _ _ _).symm

/-- The magnitude of a quotient depends on the magnitude of the numerator only. -/
theorem abs_div_abs (a b : Fl K) : abs (div (abs a) b) = abs (div a b) := by
  rcases a with _ | s | s | ⟨x, hx⟩
  · rfl
  · cases b <;> rfl
  · cases b <;> rfl
  · by_cases h : x < 0
    · simp only [abs, h, if_true]
      rcases b with _ | t | t | ⟨y, hy⟩
      · rfl
      · rfl
      · rfl
      · change abs (ofExact false (-x / y)) = abs (ofExact false (x / y))
        rw [neg_div]; exact abs_ofExact_neg _ _ _
    · simp only [abs, h, if_false]

theorem abs_div_congr {a b : Fl K} (h : abs a = abs b) (c : Fl K) : abs (div a c) = abs (div b c) := by
  rw [← abs_div_abs a, ← abs_div_abs b, h]

end Nrf.Fl
