import Verif.Proofs.DebugText

/-!
# `Debug` of `f64` is read back exactly
-/

namespace Nrf

open Binary64

theorem natText_ne (k : Nat) : natText k ≠ [] := by
  obtain ⟨d, t, h, _⟩ := natText_cons k
  rw [h]; simp

theorem natText_value (k : Nat) : Nat.ofDigitChars 10 (natText k) 0 = k := by
  simp [natText, Nat.ofDigitChars_ten_toDigits]

theorem parseExponent_int (e : ℤ) : parseExponent ('e' :: intText e) = some e := by
  have hp : ∀ k, parseDigits (natText k) 0 = some k := fun k =>
    (parseDigits_some.2 ⟨fun c hc => natText_digit hc, rfl⟩).trans (by rw [natText_value])
  unfold intText
  split_ifs with h
  · rw [show lit "-" = ['-'] from rfl, List.singleton_append]
    change (if natText (-e).toNat = [] then none else (parseDigits (natText (-e).toNat) 0).map fun (k : ℕ) => -(k : ℤ)) = _
    rw [if_neg (natText_ne _), hp, Option.map_some]
    congr 1
    omega
  · obtain ⟨d, t, h1, hd⟩ := natText_cons e.toNat
    have h2 := hp e.toNat
    rw [h1] at h2 ⊢
    change (if d = '-' then (if t = [] then none else (parseDigits t 0).map fun (k : ℕ) => -(k : ℤ))
      else if d = '+' then (if t = [] then none else (parseDigits t 0).map fun (k : ℕ) => (k : ℤ))
      else (parseDigits (d :: t) 0).map fun (k : ℕ) => (k : ℤ)) = _
    rw [if_neg (by rintro rfl; exact absurd hd (by decide)), if_neg (by rintro rfl; exact absurd hd (by decide)), h2,
      Option.map_some]
    congr 1
    omega

/-- Digits, possibly a point and more digits, and an exponent. -/
theorem parseNumber_exponent {a b : List Char} (ha : ∀ c ∈ a, c.isDigit = true) (hb : ∀ c ∈ b, c.isDigit = true)
    (hne : a ≠ []) (dot : Bool) (hd : dot = false → b = []) (e : ℤ) :
    parseNumber (a ++ ((if dot then '.' :: b else []) ++ 'e' :: intText e)) =
      some (Nat.ofDigitChars 10 (a ++ b) 0 * (10 : ℚ) ^ (e - (b.length : ℤ))) := by
  have hab : parseDigits (a ++ b) 0 = some (Nat.ofDigitChars 10 (a ++ b) 0) :=
    parseDigits_some.2 ⟨fun c hc => (List.mem_append.1 hc).elim (ha c) (hb c), rfl⟩
  unfold parseNumber
  cases dot with
  | false =>
    have hb' := hd rfl
    subst hb'
    have := takeWhile_digits (b := 'e' :: intText e) ha (by simp)
    have hdec : parseDecimals ('e' :: intText e) = ([], 'e' :: intText e) := rfl
    simp only [Bool.false_eq_true, if_false, List.nil_append, this, hdec, hne, false_and, hab, parseExponent_int]
  | true =>
    have h1 := takeWhile_digits (b := '.' :: (b ++ 'e' :: intText e)) ha (by simp)
    have h2 := takeWhile_digits (b := 'e' :: intText e) hb (by simp)
    simp only [if_true, List.cons_append, h1, parseDecimals, h2, hne, false_and, if_false, hab, parseExponent_int]

theorem takeWhile_mem {p : Char → Bool} {c : Char} : ∀ {l : List Char}, c ∈ l.takeWhile p → p c = true
  | [], h => by simp at h
  | d :: l, h => by
    rw [List.takeWhile_cons] at h
    split at h
    · rcases List.mem_cons.1 h with rfl | h
      · assumption
      · exact takeWhile_mem h
    · cases h

theorem stripZeros_spec (ds : List Char) : ∃ z, ds = stripZeros ds ++ List.replicate z '0' := by
  refine ⟨(ds.reverse.takeWhile (· = '0')).length, ?_⟩
  have h := List.takeWhile_append_dropWhile (p := fun c => decide (c = '0')) (l := ds.reverse)
  have h2 : ds.reverse.takeWhile (fun c => decide (c = '0')) =
      List.replicate (ds.reverse.takeWhile (fun c => decide (c = '0'))).length '0' := by
    rw [List.eq_replicate_iff]
    exact ⟨rfl, fun c hc => by simpa using takeWhile_mem hc⟩
  have h3 := congrArg List.reverse h
  rw [List.reverse_append, List.reverse_reverse] at h3
  rw [← List.reverse_replicate, ← h2]
  exact h3.symm

theorem parseNumber_exponentText {m : ℕ} (hm : 0 < m) (f : ℤ) :
    parseNumber (exponentText m f) = some (decimalValue m f) := by
  obtain ⟨z, hz⟩ := stripZeros_spec (natText m)
  have hval := natText_value m
  have hdig : ∀ c ∈ stripZeros (natText m), c.isDigit = true := fun c hc =>
    natText_digit (k := m) (by rw [hz]; exact List.mem_append_left _ hc)
  have hne : stripZeros (natText m) ≠ [] := by
    intro h
    rw [hz, h, List.nil_append, Nat.ofDigitChars_replicate_zero, mul_zero] at hval
    omega
  have hlen : (natText m).length = (stripZeros (natText m)).length + z := by
    conv_lhs => rw [hz]
    simp
  have hmul : m = Nat.ofDigitChars 10 (stripZeros (natText m)) 0 * 10 ^ z := by
    conv_lhs => rw [← hval, hz]
    rw [Nat.ofDigitChars_append, Nat.ofDigitChars_replicate_zero]
    ring
  have key : ∀ k l : ℕ, m = k * 10 ^ z → (natText m).length = 1 + l + z →
      some ((k : ℚ) * (10 : ℚ) ^ ((((natText m).length : ℤ) - 1 - f) - (l : ℤ))) = some (decimalValue m f) := by
    intro k l h1 h2
    rw [h2]
    unfold decimalValue
    congr 1
    rw [show (((1 + l + z : ℕ) : ℤ) - 1 - f - (l : ℤ)) = (z : ℤ) - f by push_cast; ring, zpow_sub₀ (by norm_num),
      zpow_natCast]
    conv_rhs => rw [h1]
    push_cast
    ring
  unfold exponentText
  rw [show lit "e" = ['e'] from rfl, List.singleton_append]
  match hs : stripZeros (natText m), hne with
  | [d], _ =>
    have := parseNumber_exponent (a := [d]) (b := []) (by rw [← hs]; exact hdig) (by simp) (by simp) false
      (fun _ => rfl) (((natText m).length : ℤ) - 1 - f)
    simp only [Bool.false_eq_true, if_false, List.nil_append, List.append_nil] at this
    dsimp only
    rw [this]
    refine key _ 0 (by rw [← hs]; exact hmul) (by rw [hlen, hs]; rfl)
  | d :: x :: ds, _ =>
    have := parseNumber_exponent (a := [d]) (b := x :: ds) (fun c hc => hdig c (by rw [hs, List.mem_singleton.1 hc]; simp))
      (fun c hc => hdig c (by rw [hs]; exact List.mem_cons_of_mem _ hc)) (by simp) true
      (fun h => by cases h) (((natText m).length : ℤ) - 1 - f)
    simp only [if_true, List.cons_append, List.nil_append] at this
    dsimp only [List.cons_append]
    rw [this]
    refine key _ (x :: ds).length (by rw [← hs]; exact hmul) (by rw [hlen, hs, List.length_cons]; omega)

theorem parseNumber_point {m : ℕ} {f : ℤ} (hf : f ≤ 0) :
    parseNumber (decimalText m f ++ lit ".0") = some (decimalValue m f) := by
  have hz : ∀ k, ∀ c ∈ List.replicate k '0', c.isDigit = true := fun k c hc => by
    rw [List.eq_of_mem_replicate hc]; decide
  have hd : ∀ c ∈ natText m ++ List.replicate (-f).toNat '0', c.isDigit = true := fun c hc =>
    (List.mem_append.1 hc).elim natText_digit (hz _ c)
  have h0 := parseNumber_plain (b := []) hd (fun c hc => by cases hc) (by simp [natText_ne]) false (fun _ => rfl)
  have h1 := parseNumber_plain (b := ['0']) hd (by decide) (by simp [natText_ne]) true (fun h => by cases h)
  have h2 := parseNumber_decimalText m f
  unfold decimalText at h2 ⊢
  rw [if_pos hf] at h2 ⊢
  simp only [Bool.false_eq_true, if_false, List.append_nil] at h0
  rw [h0] at h2
  simp only [if_true] at h1
  rw [show lit ".0" = '.' :: ['0'] from rfl, h1, ← h2, Nat.ofDigitChars_append,
    show Nat.ofDigitChars 10 ['0'] = fun k => Nat.ofDigitChars 10 (List.replicate 1 '0') k from rfl]
  simp only [Nat.ofDigitChars_replicate_zero]
  congr 1
  push_cast
  norm_num
  ring

theorem positiveDebug_spec {x : ℚ} (hx : 0 < x) (hf : rnd x = x) : ∃ v, parseNumber (positiveDebug x) = some v ∧
    rnd v = x := by
  obtain ⟨m, f, h⟩ := shortest_some hx hf
  obtain ⟨h1, h2, -⟩ := shortest_spec hx h
  have e : ((m.toNat : ℕ) : ℤ) = m := Int.toNat_of_nonneg h2.le
  refine ⟨decimalValue m f, ?_, h1⟩
  unfold positiveDebug
  rw [h]
  dsimp only
  rw [← e]
  split_ifs with c1 c2
  · exact parseNumber_exponentText (by omega) f
  · exact parseNumber_point c2
  · exact parseNumber_decimalText _ _

theorem exponentText_chars {m : ℕ} {f : ℤ} {c : Char} (h : c ∈ exponentText m f) :
    c.isDigit = true ∨ c ∈ ['.', 'e', '-'] := by
  obtain ⟨z, hz⟩ := stripZeros_spec (natText m)
  have hdig : ∀ d ∈ stripZeros (natText m), d.isDigit = true := fun d hd =>
    natText_digit (k := m) (by rw [hz]; exact List.mem_append_left _ hd)
  unfold exponentText intText at h
  rw [List.mem_append] at h
  rcases h with h | h
  · split at h
    · exact .inl (List.mem_singleton.1 h ▸ by decide)
    · rename_i d hs
      exact .inl (hdig c (by rw [hs]; exact h))
    · rename_i d ds _ hs
      rcases List.mem_cons.1 h with rfl | h
      · exact .inl (hdig _ (by rw [hs]; simp))
      · rcases List.mem_cons.1 h with rfl | h
        · exact .inr (by decide)
        · exact .inl (hdig _ (by rw [hs]; exact List.mem_cons_of_mem _ h))
  · rcases List.mem_append.1 h with h | h
    · exact .inr (List.mem_singleton.1 h ▸ by decide)
    · split_ifs at h
      · rcases List.mem_append.1 h with h | h
        · exact .inr (List.mem_singleton.1 h ▸ by decide)
        · exact .inl (natText_digit h)
      · exact .inl (natText_digit h)

/-- The first character is a digit. -/
theorem exponentText_digit {m : ℕ} (f : ℤ) : ∃ c t, exponentText m f = c :: t ∧ c.isDigit = true := by
  obtain ⟨z, hz⟩ := stripZeros_spec (natText m)
  have hdig : ∀ d ∈ stripZeros (natText m), d.isDigit = true := fun d hd =>
    natText_digit (k := m) (by rw [hz]; exact List.mem_append_left _ hd)
  unfold exponentText
  match hs : stripZeros (natText m) with
  | [] => exact ⟨'0', _, rfl, by decide⟩
  | [d] => exact ⟨d, _, rfl, hdig d (by rw [hs]; simp)⟩
  | d :: x :: ds => exact ⟨d, _, rfl, hdig d (by rw [hs]; simp)⟩

theorem positiveDebug_digit {x : ℚ} (hx : 0 < x) (hf : rnd x = x) :
    ∃ c t, positiveDebug x = c :: t ∧ c.isDigit = true := by
  obtain ⟨m, f, h⟩ := shortest_some hx hf
  unfold positiveDebug
  rw [h]
  dsimp only
  split_ifs
  · exact exponentText_digit f
  · obtain ⟨c, t, h, hc⟩ := decimalText_digit m.toNat f
    exact ⟨c, t ++ lit ".0", by rw [h]; rfl, hc⟩
  · exact decimalText_digit _ _

theorem parse_f64Debug (x : F64) : parseF64Chars (f64Debug x) = some x := by
  match x with
  | .nan => decide +kernel
  | .inf true => decide +kernel
  | .inf false => decide +kernel
  | .zero true => decide +kernel
  | .zero false => decide +kernel
  | .num x h =>
    change parseF64Chars (if x < 0 then lit "-" ++ positiveDebug (-x) else positiveDebug x) = _
    by_cases hx : x < 0
    · rw [if_pos hx]
      obtain ⟨v, h1, h2⟩ := positiveDebug_spec (x := -x) (by linarith) (by rw [rnd_neg]; exact congrArg _ h.2.1)
      rw [show lit "-" = ['-'] from rfl, List.singleton_append]
      change parseUnsigned true (positiveDebug (-x)) = _
      unfold parseUnsigned
      rw [h1]
      simp only [if_true]
      rw [ofExact_rnd h (by rw [rnd_neg, h2, neg_neg])]
    · rw [if_neg hx]
      have hx' : 0 < x := lt_of_le_of_ne (not_lt.1 hx) (Ne.symm h.1)
      obtain ⟨v, h1, h2⟩ := positiveDebug_spec hx' h.2.1
      obtain ⟨c, t, h3, hc⟩ := positiveDebug_digit hx' h.2.1
      have e : parseF64Chars (positiveDebug x) = parseUnsigned false (positiveDebug x) := by
        rw [h3]
        change (if c = '-' then parseUnsigned true t else if c = '+' then parseUnsigned false t
          else parseUnsigned false (c :: t)) = _
        rw [if_neg (by rintro rfl; exact absurd hc (by decide)), if_neg (by rintro rfl; exact absurd hc (by decide))]
      rw [e]
      unfold parseUnsigned
      rw [h1]
      simp only [Bool.false_eq_true, if_false]
      rw [ofExact_rnd h h2]

theorem f64Debug_chars {x : F64} {c : Char} (h : c ∈ f64Debug x) :
    c.isDigit = true ∨ c ∈ ['.', '-', 'e', 'i', 'n', 'f', 'N', 'a', '?'] := by
  have hp : ∀ q, c ∈ positiveDebug q → c.isDigit = true ∨ c ∈ ['.', '-', 'e', 'i', 'n', 'f', 'N', 'a', '?'] := by
    intro q hq
    unfold positiveDebug at hq
    split at hq
    · split_ifs at hq
      · rcases exponentText_chars hq with h | h
        · exact .inl h
        · simp only [List.mem_cons, List.not_mem_nil, or_false] at h
          exact .inr (by rcases h with rfl | rfl | rfl <;> decide)
      · rcases List.mem_append.1 hq with h | h
        · rcases decimalText_chars h with h | rfl
          · exact .inl h
          · exact .inr (by decide)
        · have : ∀ d ∈ lit ".0", d.isDigit = true ∨ d ∈ ['.', '-', 'e', 'i', 'n', 'f', 'N', 'a', '?'] := by decide
          exact this c h
      · rcases decimalText_chars hq with h | rfl
        · exact .inl h
        · exact .inr (by decide)
    · rw [show lit "?" = ['?'] from rfl, List.mem_singleton] at hq
      subst hq
      exact .inr (by decide)
  have hl : ∀ l : List Char, (∀ d ∈ l, d.isDigit = true ∨ d ∈ ['.', '-', 'e', 'i', 'n', 'f', 'N', 'a', '?']) → c ∈ l →
      c.isDigit = true ∨ c ∈ ['.', '-', 'e', 'i', 'n', 'f', 'N', 'a', '?'] := fun l h hc => h c hc
  unfold f64Debug at h
  split at h
  · exact hl _ (by decide) h
  · exact hl _ (by decide) h
  · exact hl _ (by decide) h
  · exact hl _ (by decide) h
  · exact hl _ (by decide) h
  · split_ifs at h
    · rcases List.mem_append.1 h with h | h
      · exact hl _ (by decide) h
      · exact hp _ h
    · exact hp _ h

theorem f64Debug_good : GoodNum f64Debug where
  nonempty x h := by
    have := parse_f64Debug x
    rw [h] at this
    cases this
  plain x c hc hs := by
    have := f64Debug_chars hc
    simp only [List.mem_cons, List.not_mem_nil, or_false] at hs
    rcases hs with rfl | rfl | rfl | rfl <;> exact absurd this (by decide)
  injective x y h := by
    have := parse_f64Debug x
    rw [h, parse_f64Debug] at this
    exact (Option.some.inj this).symm

end Nrf
