import Verif.Proofs.F64Text
import Verif.Spec.FloatText

/-!
# What `parseF64` accepts
-/

namespace Nrf
open Binary64 Spec

theorem parseExponent_iff {e : List Char} {k : ℤ} : parseExponent e = some k ↔ Exponent e k := by
  have mapSome : ∀ {ds : List Char} {g : ℕ → ℤ}, (parseDigits ds 0).map g = some k ↔
      Digits ds ∧ k = g (Nat.ofDigitChars 10 ds 0) := by
    intro ds g
    rw [Option.map_eq_some_iff]
    constructor
    · rintro ⟨a, h, rfl⟩
      obtain ⟨h1, rfl⟩ := parseDigits_some.1 h
      exact ⟨h1, rfl⟩
    · rintro ⟨h, rfl⟩
      exact ⟨_, parseDigits_some.2 ⟨h, rfl⟩, rfl⟩
  cases e with
  | nil =>
    constructor
    · intro h
      exact .inl ⟨rfl, (Option.some.inj h).symm⟩
    · rintro (⟨-, rfl⟩ | ⟨c, s, ds, -, h, -⟩)
      · rfl
      · cases h
  | cons c t =>
    unfold parseExponent
    simp only
    by_cases hc : c = 'e' ∨ c = 'E'
    · rw [if_pos hc]
      cases t with
      | nil =>
        constructor
        · intro h; cases h
        · rintro (⟨h, -⟩ | ⟨c', s, ds, -, h, h1, -⟩)
          · cases h
          · simp only [List.cons.injEq] at h
            have := (List.append_eq_nil_iff.1 h.2.symm).2
            exact absurd this h1
      | cons s ds =>
        simp only
        by_cases hm : s = '-'
        · subst hm
          rw [if_pos rfl]
          constructor
          · intro h
            split_ifs at h with hds
            obtain ⟨h1, h2⟩ := mapSome.1 h
            exact .inr ⟨c, ['-'], ds, hc, rfl, hds, h1, .inr ⟨rfl, h2⟩⟩
          · rintro (⟨h, -⟩ | ⟨c', s, ds', -, h, h1, h2, h3⟩)
            · cases h
            · simp only [List.cons.injEq] at h
              obtain ⟨-, h⟩ := h
              rcases h3 with ⟨rfl | rfl, h4⟩ | ⟨rfl, h4⟩
              · rw [List.nil_append] at h
                exact absurd (h2 '-' (h ▸ List.mem_cons_self)) (by decide)
              · simp at h
              · simp only [List.singleton_append, List.cons.injEq, true_and] at h
                subst h
                rw [if_neg h1]
                exact mapSome.2 ⟨h2, h4⟩
        · rw [if_neg hm]
          by_cases hp : s = '+'
          · subst hp
            rw [if_pos rfl]
            constructor
            · intro h
              split_ifs at h with hds
              obtain ⟨h1, h2⟩ := mapSome.1 h
              exact .inr ⟨c, ['+'], ds, hc, rfl, hds, h1, .inl ⟨.inr rfl, h2⟩⟩
            · rintro (⟨h, -⟩ | ⟨c', s, ds', -, h, h1, h2, h3⟩)
              · cases h
              · simp only [List.cons.injEq] at h
                obtain ⟨-, h⟩ := h
                rcases h3 with ⟨rfl | rfl, h4⟩ | ⟨rfl, h4⟩
                · rw [List.nil_append] at h
                  exact absurd (h2 '+' (h ▸ List.mem_cons_self)) (by decide)
                · simp only [List.singleton_append, List.cons.injEq, true_and] at h
                  subst h
                  rw [if_neg h1]
                  exact mapSome.2 ⟨h2, h4⟩
                · simp at h
          · rw [if_neg hp]
            constructor
            · intro h
              obtain ⟨h1, h2⟩ := mapSome.1 h
              exact .inr ⟨c, [], s :: ds, hc, rfl, by simp, h1, .inl ⟨.inl rfl, h2⟩⟩
            · rintro (⟨h, -⟩ | ⟨c', s', ds', -, h, h1, h2, h3⟩)
              · cases h
              · simp only [List.cons.injEq] at h
                obtain ⟨-, h⟩ := h
                rcases h3 with ⟨rfl | rfl, h4⟩ | ⟨rfl, h4⟩
                · rw [List.nil_append] at h
                  subst h
                  exact mapSome.2 ⟨h2, h4⟩
                · simp only [List.singleton_append, List.cons.injEq] at h
                  exact absurd h.1 hp
                · simp only [List.singleton_append, List.cons.injEq] at h
                  exact absurd h.1 hm
    · rw [if_neg hc]
      constructor
      · intro h; cases h
      · rintro (⟨h, -⟩ | ⟨c', s, ds, h', h, -⟩)
        · cases h
        · simp only [List.cons.injEq] at h
          exact absurd (h.1 ▸ h') hc

theorem exponent_head {e : List Char} {k : ℤ} (h : Exponent e k) : e.head?.all (fun c => !c.isDigit) ∧ e.head? ≠ some '.' := by
  rcases h with ⟨rfl, -⟩ | ⟨c, s, ds, rfl | rfl, rfl, -⟩
  · exact ⟨rfl, by simp⟩
  · exact ⟨by simp, by simp⟩
  · exact ⟨by simp, by simp⟩

theorem digits_nil : Digits [] := fun c hc => by cases hc

theorem mem_takeWhile_digit {t : List Char} {c : Char} (h : c ∈ t.takeWhile Char.isDigit) : c.isDigit = true := by
  induction t with
  | nil => simp at h
  | cons d t ih =>
    rw [List.takeWhile_cons] at h
    split_ifs at h with hd
    · rcases List.mem_cons.1 h with rfl | h
      · exact hd
      · exact ih h
    · cases h

theorem parseNumber_iff {t : List Char} {v : ℚ} : parseNumber t = some v ↔ Number t v := by
  constructor
  · intro h
    unfold parseNumber at h
    simp only at h
    split_ifs at h with h0
    have ht := List.takeWhile_append_dropWhile (p := Char.isDigit) (l := t)
    have ha : Digits (t.takeWhile Char.isDigit) := fun c hc => mem_takeWhile_digit hc
    revert h h0 ht ha
    generalize t.takeWhile Char.isDigit = a
    generalize t.dropWhile Char.isDigit = r
    intro h0 h ht ha
    have hr : ∃ b e, parseDecimals r = (b, e) ∧ Digits b ∧ (r = '.' :: (b ++ e) ∨ b = [] ∧ r = e) := by
      unfold parseDecimals
      split
      · exact ⟨[], [], rfl, digits_nil, .inr ⟨rfl, rfl⟩⟩
      · rename_i c u
        split_ifs with hc
        · subst hc
          exact ⟨_, _, rfl, fun c hc => mem_takeWhile_digit hc,
            .inl (by rw [List.takeWhile_append_dropWhile])⟩
        · exact ⟨[], c :: u, rfl, digits_nil, .inr ⟨rfl, rfl⟩⟩
    obtain ⟨b, e, hbe, hb, hr⟩ := hr
    rw [hbe] at h h0
    simp only at h h0
    split at h
    · rename_i k x hk hx
      obtain ⟨-, rfl⟩ := parseDigits_some.1 hk
      refine ⟨a, b, e, x, ha, hb, ?_, parseExponent_iff.1 hx, ?_, (Option.some.inj h).symm⟩
      · by_contra hn
        rw [not_or, not_not, not_not] at hn
        exact h0 hn
      · rcases hr with hr | ⟨h1, h2⟩
        · exact .inl (by rw [← ht, hr])
        · exact .inr ⟨h1, by rw [← ht, h2]⟩
    · cases h
  · rintro ⟨a, b, e, k, ha, hb, hne, he, ht, rfl⟩
    obtain ⟨e1, e2⟩ := exponent_head he
    have hab : parseDigits (a ++ b) 0 = some (Nat.ofDigitChars 10 (a ++ b) 0) :=
      parseDigits_some.2 ⟨fun c hc => (List.mem_append.1 hc).elim (ha c) (hb c), rfl⟩
    have hcond : ¬ (a = [] ∧ b = []) := by
      rintro ⟨h1, h2⟩
      exact hne.elim (fun h => h h1) fun h => h h2
    have hk := parseExponent_iff.2 he
    unfold parseNumber
    rcases ht with rfl | ⟨rfl, rfl⟩
    · have h1 := takeWhile_digits (b := '.' :: (b ++ e)) ha (by simp)
      have h2 := takeWhile_digits hb e1
      simp only [h1, parseDecimals, if_true, h2, if_neg hcond, hab, hk]
    · have h1 := takeWhile_digits ha e1
      have h2 : parseDecimals e = ([], e) := by
        cases e with
        | nil => rfl
        | cons c u =>
          change (if c = '.' then (u.takeWhile Char.isDigit, u.dropWhile Char.isDigit) else ([], c :: u)) = _
          rw [if_neg]
          rintro rfl
          exact e2 rfl
      simp only [h1, h2, hab, hk]
      rw [if_neg (fun h => hcond ⟨h.1, rfl⟩)]

theorem number_nonneg {t : List Char} {v : ℚ} (h : Number t v) : 0 ≤ v := by
  obtain ⟨a, b, e, k, -, -, -, -, -, rfl⟩ := h
  exact mul_nonneg (by positivity) (ten_zpow_pos _).le

/-! ## Rounding -/

theorem finiteValue_fixed {z : F64} {s : ℚ} (h : finiteValue z = some s) : rnd s = s := by
  cases z with
  | nan => cases h
  | inf _ => cases h
  | zero _ => cases h; simp [rnd]
  | num x hx => cases h; exact hx.2.1

set_option maxRecDepth 100000 in
theorem rnd_huge : rnd (2 ^ 1024 - 2 ^ 970) = 2 ^ 1024 := by decide +kernel

set_option maxRecDepth 100000 in
theorem rnd_largest : rnd (2 ^ 1024 - 2 ^ 971) = 2 ^ 1024 - 2 ^ 971 := by decide +kernel

theorem overflow_pos {v : ℚ} (hv : 0 ≤ v) : 2 ^ 1024 ≤ rnd v ↔ 2 ^ 1024 - 2 ^ 970 ≤ v := by
  constructor
  · intro h
    by_contra hn
    rw [not_le] at hn
    have h1 := rnd_nearest (x := v) rnd_largest
    have h2 : (2 : ℚ) ^ 971 = 2 ^ 970 * 2 := pow_succ _ _
    have h3 : (0 : ℚ) < 2 ^ 970 := by positivity
    revert h hn h1 h2 h3
    generalize (2 : ℚ) ^ 1024 = A
    generalize (2 : ℚ) ^ 971 = B
    generalize (2 : ℚ) ^ 970 = C
    intro h hn h1 h2 h3
    rw [abs_of_nonneg (by linarith), le_abs] at h1
    rcases h1 with h1 | h1 <;> linarith
  · intro h
    have := rnd_mono _ _ h
    rwa [rnd_huge] at this

theorem overflow_iff (v : ℚ) : 2 ^ 1024 ≤ |rnd v| ↔ 2 ^ 1024 - 2 ^ 970 ≤ |v| := by
  have : |rnd v| = rnd |v| := by
    rcases le_total 0 v with h | h
    · rw [abs_of_nonneg h, abs_of_nonneg (rnd_nonneg h)]
    · rw [abs_of_nonpos h, rnd_neg, abs_of_nonpos]
      have := rnd_nonneg (x := -v) (by linarith)
      rw [rnd_neg] at this
      linarith
  rw [this]
  exact overflow_pos (abs_nonneg v)

theorem ofExact_rounded {neg : Bool} {v : ℚ} (hv : 0 ≤ v) :
    RoundedTo neg (signedValue neg v) (Fl.ofExact neg (signedValue neg v)) := by
  set w := signedValue neg v with hw
  have hsgn : w ≠ 0 → decide (w < 0) = neg := by
    intro h0
    unfold signedValue at hw
    cases neg with
    | true =>
      simp only [if_true] at hw
      rw [decide_eq_true]
      rw [hw] at h0 ⊢
      exact lt_of_le_of_ne (by linarith) h0
    | false =>
      simp only [Bool.false_eq_true, if_false] at hw
      rw [decide_eq_false]
      rw [hw]
      exact not_lt.2 hv
  have hzero : rnd 0 = 0 := by simp [rnd]
  have hbig := overflow_iff w
  unfold Fl.ofExact
  split_ifs with h0 h1 h2
  · refine ⟨by simp, rfl, ?_, ?_⟩
    · intro r hr z s hs
      cases hr
      rw [h0, sub_zero, abs_zero]
      exact abs_nonneg _
    · rw [← hbig, h0, hzero, abs_zero]
      refine iff_of_false (by simp) (not_le.2 (by positivity))
  · refine ⟨by simp, hsgn h0, ?_, ?_⟩
    · intro r hr z s hs
      cases hr
      have h1' : rnd w = 0 := h1
      have := rnd_nearest (x := w) (finiteValue_fixed hs)
      rwa [h1'] at this
    · have h1' : rnd w = 0 := h1
      rw [← hbig, h1', abs_zero]
      refine iff_of_false (by simp) (not_le.2 (by positivity))
  · refine ⟨by simp, ?_, ?_, ?_⟩
    · change decide (rnd w < 0) = neg
      rw [← hsgn h0]
      congr 1
      apply propext
      constructor
      · intro h
        by_contra hn
        exact absurd (rnd_nonneg (not_lt.1 hn)) (not_le.2 h)
      · intro h
        have := rnd_nonneg (x := -w) (by linarith)
        rw [rnd_neg] at this
        exact lt_of_le_of_ne (by linarith) h1
    · intro r hr z s hs
      cases hr
      exact rnd_nearest (finiteValue_fixed hs)
    · rw [← hbig]
      refine iff_of_false (by simp) (not_le.2 h2)
  · refine ⟨by simp, hsgn h0, (fun r hr => nomatch hr), ?_⟩
    rw [← hbig]
    exact iff_of_true ⟨_, rfl⟩ (not_lt.1 h2)

end Nrf
