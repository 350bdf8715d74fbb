import Verif.Proofs.Nearest
import Verif.Proofs.Marks
import Verif.Proofs.XmlText
import Verif.Model.Display
import Verif.Model.ParseFloat

/-!
# Texts of numbers and what is read from them
-/

namespace Nrf
open Binary64

/-! ## Enough digits -/

theorem ten_zpow_pos (e : ℤ) : (0 : ℚ) < 10 ^ e := zpow_pos (by norm_num) e

/-- Seventeen digits are enough. -/
theorem seventeen {x : ℚ} (hx : 0 < x) (hf : rnd x = x) :
    rnd (decimalValue ⌊x * (10 : ℚ) ^ (16 - Int.log 10 x) + 1 / 2⌋ (16 - Int.log 10 x)) = x := by
  set f := 16 - Int.log 10 x with hfd
  set m := ⌊x * (10 : ℚ) ^ f + 1 / 2⌋ with hm
  have hp := ten_zpow_pos f
  have h1 := Int.floor_le (x * (10 : ℚ) ^ f + 1 / 2)
  have h2 := Int.lt_floor_add_one (x * (10 : ℚ) ^ f + 1 / 2)
  rw [← hm] at h1 h2
  have hlog := Int.zpow_log_le_self (b := 10) (r := x) (by norm_num) hx
  have hinv : (10 : ℚ) ^ (16 : ℕ) ≤ x * 10 ^ f := by
    have e : (10 : ℚ) ^ (16 : ℕ) = 10 ^ Int.log 10 x * 10 ^ f := by
      rw [← zpow_natCast, ← zpow_add₀ (by norm_num), hfd]
      congr 1
      push_cast
      ring
    rw [e]
    exact mul_le_mul_of_nonneg_right (by exact_mod_cast hlog) hp.le
  -- the error is at most half a unit, and the unit is small
  have up : decimalValue m f - x ≤ x / 10 ^ 16 / 2 := by
    unfold decimalValue
    rw [div_sub' hp.ne', div_le_iff₀ hp]
    have : 1 / 2 ≤ x / 10 ^ 16 / 2 * 10 ^ f := by
      have := mul_le_mul_of_nonneg_right hinv (by norm_num : (0 : ℚ) ≤ 1 / 10 ^ 16 / 2)
      norm_num at this ⊢
      linarith
    linarith
  have low : x - decimalValue m f ≤ x / 10 ^ 16 / 2 := by
    unfold decimalValue
    rw [sub_div' hp.ne', div_le_iff₀ hp]
    have : 1 / 2 ≤ x / 10 ^ 16 / 2 * 10 ^ f := by
      have := mul_le_mul_of_nonneg_right hinv (by norm_num : (0 : ℚ) ≤ 1 / 10 ^ 16 / 2)
      norm_num at this ⊢
      linarith
    linarith
  have he := two_zpow_pos (ulpExp x)
  have hlt := lt_of_ulpExp (x := x)
  rw [abs_of_pos hx, zpow_add₀ (by norm_num)] at hlt
  have hlt' : x < 2 ^ ulpExp x * 9007199254740992 := by
    have : (2 : ℚ) ^ (53 : ℤ) = 9007199254740992 := by norm_num
    rwa [this] at hlt
  apply rnd_of_close hx hf
  · norm_num at up
    linarith
  · norm_num at low
    linarith
  · intro hx2
    have : x = 2 ^ ulpExp x * 4503599627370496 := by
      have h52 : (2 : ℚ) ^ (52 : ℤ) = 4503599627370496 := by norm_num
      rw [zpow_add₀ (by norm_num), h52] at hx2
      exact hx2
    norm_num at low
    linarith

theorem mem_near {x : ℚ} {m f : ℤ} (h : m ∈ decimalsNear x f) : ⌊x * (10 : ℚ) ^ f⌋ ≤ m ∧ m ≤ ⌊x * (10 : ℚ) ^ f⌋ + 1 := by
  simp only [decimalsNear, List.mem_cons, List.not_mem_nil, or_false] at h
  rcases h with rfl | rfl | rfl
  · refine ⟨Int.floor_mono (by linarith), ?_⟩
    rw [← Int.floor_add_one]
    exact Int.floor_mono (by linarith)
  · omega
  · omega

theorem shortest_some {x : ℚ} (hx : 0 < x) (hf : rnd x = x) : ∃ m f, shortestDecimal x = some (m, f) := by
  cases h : shortestDecimal x with
  | some d => exact ⟨d.1, d.2, rfl⟩
  | none =>
    exfalso
    unfold shortestDecimal at h
    rw [List.find?_eq_none] at h
    refine h (⌊x * (10 : ℚ) ^ (16 - Int.log 10 x) + 1 / 2⌋, 16 - Int.log 10 x) ?_ (decide_eq_true (seventeen hx hf))
    refine List.mem_flatMap.2 ⟨17, by simp, ?_⟩
    have e : ((17 : ℕ) : ℤ) - 1 - Int.log 10 x = 16 - Int.log 10 x := by push_cast; ring
    simp only [e]
    exact List.mem_map.2 ⟨_, by simp [decimalsNear], rfl⟩

theorem shortest_spec {x : ℚ} (hx : 0 < x) {m f : ℤ} (h : shortestDecimal x = some (m, f)) :
    rnd (decimalValue m f) = x ∧ 0 < m ∧ m ∈ decimalsNear x f ∧
      ∃ k : ℕ, k < 18 ∧ f = (k : ℤ) - 1 - Int.log 10 x := by
  unfold shortestDecimal at h
  have h1 : rnd (decimalValue m f) = x := by simpa using List.find?_some h
  obtain ⟨k, hk, hm⟩ := List.mem_flatMap.1 (List.mem_of_find?_eq_some h)
  obtain ⟨m', hm', he⟩ := List.mem_map.1 hm
  cases he
  refine ⟨h1, ?_, hm', k, List.mem_range.1 hk, rfl⟩
  by_contra h0
  have : (m : ℚ) ≤ 0 := by exact_mod_cast (by omega : m ≤ 0)
  have h2 : decimalValue m ((k : ℤ) - 1 - Int.log 10 x) ≤ 0 := div_nonpos_of_nonpos_of_nonneg this (ten_zpow_pos _).le
  have h3 := rnd_mono _ _ h2
  rw [h1, show rnd 0 = 0 from by simp [rnd]] at h3
  linarith

/-- What precedes the first hit in the list of lists. -/
theorem find_flatMap_range {α : Type} {p : α → Bool} {g : ℕ → List α} {N : ℕ} {a : α}
    (h : ((List.range N).flatMap g).find? p = some a) : ∃ k < N, a ∈ g k ∧ ∀ j < k, ∀ b ∈ g j, p b = false := by
  induction N with
  | zero => simp at h
  | succ N ih =>
    rw [List.range_succ, List.flatMap_append, List.find?_append] at h
    cases h1 : ((List.range N).flatMap g).find? p with
    | some b =>
      rw [h1, Option.some_or] at h
      cases h
      obtain ⟨k, hk, h2, h3⟩ := ih h1
      exact ⟨k, Nat.lt_succ_of_lt hk, h2, h3⟩
    | none =>
      rw [h1, Option.none_or] at h
      refine ⟨N, Nat.lt_succ_self _, ?_, ?_⟩
      · simpa using List.mem_of_find?_eq_some h
      · intro j hj b hb
        have := List.find?_eq_none.1 h1 b (List.mem_flatMap.2 ⟨j, List.mem_range.2 hj, hb⟩)
        simpa using this

/-- No decimal number with fewer decimals is read back as `x`. -/
theorem shortest_minimal {x : ℚ} (hx : 0 < x) (hf : rnd x = x) {m f : ℤ} (h : shortestDecimal x = some (m, f))
    {m' f' : ℤ} (hlt : f' < f) : rnd (decimalValue m' f') ≠ x := by
  intro hr
  unfold shortestDecimal at h
  obtain ⟨k, hk, hm, hmin⟩ := find_flatMap_range h
  obtain ⟨m'', _, he⟩ := List.mem_map.1 hm
  cases he
  have hp := ten_zpow_pos f'
  set L := Int.log 10 x with hL
  -- above or below, a neighbour of `x` with `f'` decimals is at least as close
  have hclose : ∀ a : ℤ, a = ⌊x * (10 : ℚ) ^ f'⌋ ∨ a = ⌊x * (10 : ℚ) ^ f'⌋ + 1 → rnd (decimalValue a f') = x →
      -1 - L ≤ f' → False := by
    intro a ha hra hf'
    have hj : (f' + 1 + L).toNat < k := by omega
    have e : (((f' + 1 + L).toNat : ℕ) : ℤ) - 1 - L = f' := by omega
    have := hmin _ hj (a, f') (by
      simp only [e]
      refine List.mem_map.2 ⟨a, ?_, rfl⟩
      simp only [decimalsNear, List.mem_cons, List.not_mem_nil, or_false]
      exact .inr ha)
    simp [hra] at this
  have fl := Int.floor_le (x * (10 : ℚ) ^ f')
  have fl' := Int.lt_floor_add_one (x * (10 : ℚ) ^ f')
  rcases lt_or_ge f' (-1 - L) with hf' | hf'
  · -- the unit is more than ten times `x`
    rcases le_or_gt m' 0 with h0 | h0
    · have : (m' : ℚ) ≤ 0 := by exact_mod_cast h0
      have h2 : decimalValue m' f' ≤ 0 := div_nonpos_of_nonpos_of_nonneg this hp.le
      have h3 := rnd_mono _ _ h2
      rw [hr, show rnd 0 = 0 from by simp [rnd]] at h3
      linarith
    · have hm1 : (1 : ℚ) ≤ m' := by exact_mod_cast h0
      have hlog := Int.lt_zpow_succ_log_self (b := 10) (by norm_num) x
      rw [← hL] at hlog
      have h10 : (10 : ℚ) ^ (L + 1) * 10 ≤ decimalValue m' f' := by
        unfold decimalValue
        rw [le_div_iff₀ hp, mul_assoc, ← zpow_one_add₀ (by norm_num), ← zpow_add₀ (by norm_num)]
        refine le_trans ?_ hm1
        rw [← zpow_zero (10 : ℚ)]
        exact zpow_le_zpow_right₀ (by norm_num) (by omega)
      have h2 : 2 * x ≤ decimalValue m' f' := by
        have : x < 10 ^ (L + 1) := by exact_mod_cast hlog
        linarith
      have h3 := rnd_mono _ _ h2
      rw [hr, rnd_two_mul hf] at h3
      linarith
  · rcases le_or_gt m' ⌊x * (10 : ℚ) ^ f'⌋ with hle | hgt
    · refine hclose _ (.inl rfl) (le_antisymm ?_ ?_) hf'
      · have : decimalValue ⌊x * (10 : ℚ) ^ f'⌋ f' ≤ x := by
          unfold decimalValue
          rw [div_le_iff₀ hp]
          exact fl
        have := rnd_mono _ _ this
        rwa [hf] at this
      · have : decimalValue m' f' ≤ decimalValue ⌊x * (10 : ℚ) ^ f'⌋ f' :=
          div_le_div_of_nonneg_right (by exact_mod_cast hle) hp.le
        have := rnd_mono _ _ this
        rwa [hr] at this
    · refine hclose _ (.inr rfl) (le_antisymm ?_ ?_) hf'
      · have : decimalValue (⌊x * (10 : ℚ) ^ f'⌋ + 1) f' ≤ decimalValue m' f' :=
          div_le_div_of_nonneg_right (by exact_mod_cast (by omega : ⌊x * (10 : ℚ) ^ f'⌋ + 1 ≤ m')) hp.le
        have := rnd_mono _ _ this
        rwa [hr] at this
      · have : x ≤ decimalValue (⌊x * (10 : ℚ) ^ f'⌋ + 1) f' := by
          unfold decimalValue
          rw [le_div_iff₀ hp]
          push_cast
          exact fl'.le
        have := rnd_mono _ _ this
        rwa [hf] at this

/-! ## Decimal notation is read exactly -/

theorem takeWhile_digits {a b : List Char} (ha : ∀ c ∈ a, c.isDigit = true) (hb : b.head?.all (fun c => !c.isDigit)) :
    (a ++ b).takeWhile Char.isDigit = a ∧ (a ++ b).dropWhile Char.isDigit = b := by
  induction a with
  | nil =>
    cases b with
    | nil => simp
    | cons c b => simp only [List.head?_cons, Option.all_some] at hb; simp [List.takeWhile_cons, List.dropWhile_cons, Bool.not_eq_true' .. ▸ hb]
  | cons c a ih =>
    have hc := ha c (by simp)
    have := ih fun d hd => ha d (List.mem_cons_of_mem _ hd)
    simp [List.takeWhile_cons, List.dropWhile_cons, hc, this]

/-- Digits, and possibly a point and more digits, and no exponent. -/
theorem parseNumber_plain {a b : List Char} (ha : ∀ c ∈ a, c.isDigit = true) (hb : ∀ c ∈ b, c.isDigit = true)
    (hne : a ≠ []) (dot : Bool) (hd : dot = false → b = []) :
    parseNumber (a ++ if dot then '.' :: b else []) =
      some (Nat.ofDigitChars 10 (a ++ b) 0 * (10 : ℚ) ^ (-(b.length : ℤ))) := by
  have hab : parseDigits (a ++ b) 0 = some (Nat.ofDigitChars 10 (a ++ b) 0) :=
    parseDigits_some.2 ⟨fun c hc => (List.mem_append.1 hc).elim (ha c) (hb c), rfl⟩
  unfold parseNumber
  cases dot with
  | false =>
    have hb' := hd rfl
    subst hb'
    have := takeWhile_digits (b := []) ha rfl
    simp only [Bool.false_eq_true, if_false, this, parseDecimals, hne, false_and, hab, parseExponent]
    simp
  | true =>
    have h1 := takeWhile_digits (b := '.' :: b) ha (by simp)
    have h2 := takeWhile_digits (b := []) hb rfl
    rw [List.append_nil] at h2
    simp only [if_true, h1, parseDecimals, h2, hne, false_and, if_false, hab, parseExponent]
    simp

theorem parseNumber_decimalText (m : ℕ) (f : ℤ) : parseNumber (decimalText m f) = some (decimalValue m f) := by
  have hnat : ∀ k, ∀ c ∈ natText k, c.isDigit = true := fun k c hc => natText_digit hc
  have hz : ∀ k, ∀ c ∈ List.replicate k '0', c.isDigit = true := fun k c hc => by
    rw [List.eq_of_mem_replicate hc]; decide
  have hne : ∀ k, natText k ≠ [] := fun k => by
    obtain ⟨d, t, h, _⟩ := natText_cons k
    rw [h]; simp
  have hval : ∀ k, Nat.ofDigitChars 10 (natText k) 0 = k := fun k => by
    simp [natText, Nat.ofDigitChars_ten_toDigits]
  unfold decimalText decimalValue
  split_ifs with hf
  · have := parseNumber_plain (a := natText m ++ List.replicate (-f).toNat '0') (b := [])
      (fun c hc => (List.mem_append.1 hc).elim (hnat _ c) (hz _ c)) (fun c hc => by cases hc)
      (by simp [hne]) false (fun _ => rfl)
    simp only [Bool.false_eq_true, if_false, List.append_nil] at this
    rw [this, Nat.ofDigitChars_append, Nat.ofDigitChars_replicate_zero, hval]
    congr 1
    have e : (10 : ℚ) ^ f = ((10 : ℚ) ^ (-f).toNat)⁻¹ := by
      rw [← zpow_natCast, ← zpow_neg]
      congr 1
      omega
    rw [e]
    push_cast
    simp
    ring
  · have hpos : 0 < f.toNat := by omega
    set d := f.toNat with hd
    set r := m % 10 ^ d with hr
    have hrl : (natText r).length ≤ d := (natText_length hpos).2 (Nat.mod_lt _ (by positivity))
    have := parseNumber_plain (a := natText (m / 10 ^ d)) (b := List.replicate (d - (natText r).length) '0' ++ natText r)
      (hnat _) (fun c hc => (List.mem_append.1 hc).elim (hz _ c) (hnat _ c)) (hne _) true (fun h => by cases h)
    simp only [if_true] at this
    rw [show lit "." = ['.'] from rfl, List.append_assoc, List.singleton_append, this]
    rw [Nat.ofDigitChars_append, Nat.ofDigitChars_append, Nat.ofDigitChars_replicate_zero, hval]
    rw [Nat.ofDigitChars_eq_ofDigitChars_zero, hval]
    have hlen : (List.replicate (d - (natText r).length) '0' ++ natText r).length = d := by
      rw [List.length_append, List.length_replicate]
      omega
    rw [hlen]
    have hsum : 10 ^ (natText r).length * (10 ^ (d - (natText r).length) * (m / 10 ^ d)) + r = m := by
      rw [← mul_assoc, ← pow_add, show (natText r).length + (d - (natText r).length) = d by omega, hr]
      exact Nat.div_add_mod m (10 ^ d)
    rw [hsum, zpow_neg, show ((d : ℕ) : ℤ) = f by omega]
    congr 1

/-! ## The round trip -/

theorem decimalText_digit (m : ℕ) (f : ℤ) : ∃ c t, decimalText m f = c :: t ∧ c.isDigit = true := by
  unfold decimalText
  split_ifs
  · obtain ⟨c, t, h, hc⟩ := natText_cons m
    exact ⟨c, _, by rw [h]; rfl, hc⟩
  · obtain ⟨c, t, h, hc⟩ := natText_cons (m / 10 ^ f.toNat)
    exact ⟨c, _, by rw [h]; rfl, hc⟩

theorem positiveText_spec {x : ℚ} (hx : 0 < x) (hf : rnd x = x) : ∃ (m : ℕ) (f : ℤ), 0 < m ∧
    positiveText x = decimalText m f ∧ rnd (decimalValue m f) = x := by
  obtain ⟨m, f, h⟩ := shortest_some hx hf
  obtain ⟨h1, h2, -⟩ := shortest_spec hx h
  refine ⟨m.toNat, f, by omega, ?_, ?_⟩
  · unfold positiveText
    rw [h]
  · rw [Int.toNat_of_nonneg h2.le]
    exact h1

theorem ofExact_rnd {z : Bool} {v x : ℚ} (h : IsFloat x) (hv : rnd v = x) :
    Fl.ofExact z v = (Fl.num x h : F64) := by
  have hv0 : v ≠ 0 := by
    rintro rfl
    exact h.1 (by rw [← hv]; simp [rnd])
  have hv' : Rounding.rnd v = x := hv
  unfold Fl.ofExact
  rw [dif_neg hv0, dif_neg (by rw [hv']; exact h.1), dif_pos (by rw [hv']; exact h.2.2)]
  congr 1

theorem parse_f64Text (x : F64) : parseF64Chars (f64Text x) = some x := by
  match x with
  | .nan => decide +kernel
  | .inf true => decide +kernel
  | .inf false => decide +kernel
  | .zero true => decide +kernel
  | .zero false => decide +kernel
  | .num x h =>
    change parseF64Chars (if x < 0 then lit "-" ++ positiveText (-x) else positiveText x) = _
    by_cases hx : x < 0
    · rw [if_pos hx]
      obtain ⟨m, f, -, h1, h2⟩ := positiveText_spec (x := -x) (by linarith) (by rw [rnd_neg]; exact congrArg _ h.2.1)
      rw [h1, show lit "-" = ['-'] from rfl, List.singleton_append]
      change parseUnsigned true (decimalText m f) = _
      unfold parseUnsigned
      rw [parseNumber_decimalText]
      simp only [if_true]
      rw [ofExact_rnd h (by rw [rnd_neg, h2, neg_neg])]
    · rw [if_neg hx]
      have hx' : 0 < x := lt_of_le_of_ne (not_lt.1 hx) (Ne.symm h.1)
      obtain ⟨m, f, -, h1, h2⟩ := positiveText_spec hx' h.2.1
      rw [h1]
      obtain ⟨c, t, h3, hc⟩ := decimalText_digit m f
      have e : parseF64Chars (decimalText m f) = parseUnsigned false (decimalText m f) := by
        rw [h3]
        change (if c = '-' then parseUnsigned true t else if c = '+' then parseUnsigned false t
          else parseUnsigned false (c :: t)) = _
        rw [if_neg (by rintro rfl; exact absurd hc (by decide)), if_neg (by rintro rfl; exact absurd hc (by decide))]
      rw [e]
      unfold parseUnsigned
      rw [parseNumber_decimalText]
      simp only [Bool.false_eq_true, if_false]
      rw [ofExact_rnd h h2]

/-! ## The characters -/

theorem decimalText_chars {m : ℕ} {f : ℤ} {c : Char} (h : c ∈ decimalText m f) : c.isDigit = true ∨ c = '.' := by
  have hz : ∀ k, c ∈ List.replicate k '0' → c.isDigit = true := fun k hc => by
    rw [List.eq_of_mem_replicate hc]; decide
  unfold decimalText at h
  split_ifs at h
  · exact .inl ((List.mem_append.1 h).elim natText_digit (hz _))
  · rw [List.mem_append, List.mem_append, List.mem_append] at h
    rcases h with (h | h) | h | h
    · exact .inl (natText_digit h)
    · exact .inr (List.mem_singleton.1 h)
    · exact .inl (hz _ h)
    · exact .inl (natText_digit h)

theorem f64Text_chars {x : F64} {c : Char} (h : c ∈ f64Text x) :
    c.isDigit = true ∨ c ∈ ['.', '-', 'i', 'n', 'f', 'N', 'a', '?'] := by
  have hp : ∀ q, c ∈ positiveText q → c.isDigit = true ∨ c ∈ ['.', '-', 'i', 'n', 'f', 'N', 'a', '?'] := by
    intro q hq
    unfold positiveText at hq
    split at hq
    · rcases decimalText_chars hq with h | rfl
      · exact .inl h
      · exact .inr (by decide)
    · rw [show lit "?" = ['?'] from rfl, List.mem_singleton] at hq
      subst hq
      exact .inr (by decide)
  have hl : ∀ l : List Char, (∀ d ∈ l, d.isDigit = true ∨ d ∈ ['.', '-', 'i', 'n', 'f', 'N', 'a', '?']) → c ∈ l →
      c.isDigit = true ∨ c ∈ ['.', '-', 'i', 'n', 'f', 'N', 'a', '?'] := fun l h hc => h c hc
  unfold f64Text at h
  split at h
  · exact hl _ (by decide) h
  · exact hl _ (by decide) h
  · exact hl _ (by decide) h
  · exact hl _ (by decide) h
  · exact hl _ (by decide) h
  · split_ifs at h
    · rcases List.mem_append.1 h with h | h
      · exact hl _ (by decide) h
      · exact hp _ h
    · exact hp _ h

theorem f64Text_plain : PlainNum f64Text := fun x => by
  refine ⟨fun h => ?_, fun h => ?_, fun h => ?_, fun h => ?_⟩ <;>
    exact absurd (f64Text_chars h) (by decide)

theorem f64Text_injective : Function.Injective f64Text := fun x y h => by
  have := parse_f64Text x
  rw [h, parse_f64Text] at this
  exact (Option.some.inj this).symm

end Nrf
