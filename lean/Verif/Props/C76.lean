import Verif.Proofs.ParseFloat
import Verif.Proofs.MatrixText
import Verif.Props.C65

/-!
# C76: numbers survive being written and read
-/

namespace Nrf
open Binary64 Spec

/-- Reading what `f64::to_string` writes gives the number back, for every `f64` including infinities, NaN and the
two zeros. -/
theorem C76_round_trip (x : F64) : parseF64Chars (f64Text x) = some x := parse_f64Text x

/-- The text is as short as possible: it is a decimal number with at most 17 digits (or the power of ten above them),
and no decimal number with fewer decimals would be read back as the same number. -/
theorem C76_shortest (x : ℚ) (h : IsFloat x) (hx : 0 < x) : ∃ m f : ℤ, 0 < m ∧ m ≤ 10 ^ 17 ∧
    Number (f64Text (.num x h)) (m / (10 : ℚ) ^ f) ∧ ∀ m' f' : ℤ, f' < f → rnd (m' / (10 : ℚ) ^ f') ≠ x := by
  obtain ⟨m, f, hs⟩ := shortest_some hx h.2.1
  obtain ⟨h1, h2, h3, k, hk, rfl⟩ := shortest_spec hx hs
  refine ⟨m, _, h2, ?_, ?_, fun m' f' hlt => shortest_minimal hx h.2.1 hs hlt⟩
  · have hm := (mem_near h3).2
    have hlog := Int.lt_zpow_succ_log_self (b := 10) (by norm_num) x
    have hp := ten_zpow_pos ((k : ℤ) - 1 - Int.log 10 x)
    have : x * (10 : ℚ) ^ ((k : ℤ) - 1 - Int.log 10 x) < 10 ^ (17 : ℕ) := by
      calc x * (10 : ℚ) ^ ((k : ℤ) - 1 - Int.log 10 x)
          < 10 ^ (Int.log 10 x + 1) * (10 : ℚ) ^ ((k : ℤ) - 1 - Int.log 10 x) :=
            mul_lt_mul_of_pos_right (by exact_mod_cast hlog) hp
        _ = 10 ^ (k : ℤ) := by
            rw [← zpow_add₀ (by norm_num)]
            congr 1
            ring
        _ ≤ 10 ^ ((17 : ℕ) : ℤ) := zpow_le_zpow_right₀ (by norm_num) (by exact_mod_cast (by omega : k ≤ 17))
        _ = _ := zpow_natCast _ _
    have : ⌊x * (10 : ℚ) ^ ((k : ℤ) - 1 - Int.log 10 x)⌋ < 10 ^ 17 := by
      rw [Int.floor_lt]
      push_cast
      exact this
    omega
  · have e : f64Text (.num x h) = decimalText m.toNat ((k : ℤ) - 1 - Int.log 10 x) := by
      change (if x < 0 then _ else positiveText x) = _
      rw [if_neg (not_lt.2 hx.le)]
      unfold positiveText
      rw [hs]
    rw [e, ← parseNumber_iff, parseNumber_decimalText, Int.toNat_of_nonneg h2.le]
    rfl

/-- Which texts are read, and as what: exactly those of the grammar, decimal numbers being rounded to nearest. -/
theorem C76_reads (t : List Char) (x : F64) : parseF64Chars t = some x ↔ ∃ neg u, Signed t neg u ∧
    ((∃ v, Number u v ∧ x = Fl.ofExact neg (signedValue neg v)) ∨
      (u.map Char.toLower ∈ ["inf".toList, "infinity".toList] ∧ x = .inf neg) ∨
      (u.map Char.toLower = "nan".toList ∧ x = .nan)) := by
  have word : ∀ u : List Char, (∃ v, Number u v) → ∀ w : List Char, w.head? ∈ [some 'i', some 'n'] →
      u.map Char.toLower ≠ w := by
    rintro u ⟨v, hv⟩ w hw he
    obtain ⟨a, b, e, k, ha, hb, hne, hex, ht, -⟩ := hv
    have : ∃ c r, u = c :: r ∧ (c.isDigit = true ∨ c = '.') := by
      cases a with
      | nil =>
        rcases ht with rfl | ⟨rfl, -⟩
        · exact ⟨'.', _, rfl, .inr rfl⟩
        · exact absurd hne (by simp)
      | cons c a =>
        rcases ht with rfl | ⟨-, rfl⟩
        · exact ⟨c, _, rfl, .inl (ha c (by simp))⟩
        · exact ⟨c, _, rfl, .inl (ha c (by simp))⟩
    obtain ⟨c, r, rfl, hc⟩ := this
    have hlow : c.toLower = c := by
      rcases hc with hc | rfl
      · unfold Char.toLower
        rw [dif_neg]
        simp only [Char.isDigit, Bool.and_eq_true, decide_eq_true_eq] at hc
        intro h
        have h1 : (65 : UInt32) ≤ c.val := h.1
        have h2 : c.val ≤ (57 : UInt32) := hc.2
        rw [UInt32.le_iff_toNat_le] at h1 h2
        have e1 : (65 : UInt32).toNat = 65 := rfl
        have e2 : (57 : UInt32).toNat = 57 := rfl
        omega
      · decide
    rw [← he, List.map_cons, List.head?_cons, hlow] at hw
    rcases hc with hc | rfl
    · simp only [List.mem_cons, Option.some.injEq, List.not_mem_nil, or_false] at hw
      rcases hw with rfl | rfl <;> exact absurd hc (by decide)
    · revert hw; decide
  have key : ∀ neg u, parseUnsigned neg u = some x ↔
      ((∃ v, Number u v ∧ x = Fl.ofExact neg (signedValue neg v)) ∨
      (u.map Char.toLower ∈ ["inf".toList, "infinity".toList] ∧ x = .inf neg) ∨
      (u.map Char.toLower = "nan".toList ∧ x = .nan)) := by
    intro neg u
    unfold parseUnsigned
    cases hp : parseNumber u with
    | some v =>
      have hv := parseNumber_iff.1 hp
      simp only
      constructor
      · intro h
        exact .inl ⟨v, hv, (Option.some.inj h).symm⟩
      · rintro (⟨w, hw, rfl⟩ | ⟨h, -⟩ | ⟨h, -⟩)
        · rw [← parseNumber_iff, hp] at hw
          cases hw
          rfl
        · exfalso
          rcases List.mem_cons.1 h with h | h
          · exact word u ⟨v, hv⟩ _ (by decide) h
          · exact word u ⟨v, hv⟩ _ (by decide) (List.mem_singleton.1 h)
        · exact absurd h (word u ⟨v, hv⟩ _ (by decide))
    | none =>
      have hno : ∀ v, ¬ Number u v := fun v hv => by
        rw [← parseNumber_iff, hp] at hv
        cases hv
      simp only
      rw [show (['i', 'n', 'f'] : List Char) = "inf".toList from rfl,
        show (['i', 'n', 'f', 'i', 'n', 'i', 't', 'y'] : List Char) = "infinity".toList from rfl,
        show (['n', 'a', 'n'] : List Char) = "nan".toList from rfl]
      constructor
      · intro h
        split_ifs at h with h1 h2
        · exact .inr (.inl ⟨by simpa using h1, (Option.some.inj h).symm⟩)
        · exact .inr (.inr ⟨h2, (Option.some.inj h).symm⟩)
      · rintro (⟨v, hv, -⟩ | ⟨h, rfl⟩ | ⟨h, rfl⟩)
        · exact absurd hv (hno v)
        · rw [if_pos (by simpa using h)]
        · rw [h, if_neg (by decide), if_pos rfl]
  have nonempty : ∀ neg u, parseUnsigned neg u = some x → u ≠ [] := by
    rintro neg u h rfl
    revert h
    cases neg <;> · intro h; revert h; exact fun h => nomatch h
  cases t with
  | nil =>
    constructor
    · intro h; cases h
    · rintro ⟨neg, u, hs, h⟩
      have hu := nonempty neg u ((key neg u).2 h)
      rcases hs with ⟨h, -⟩ | ⟨-, h | ⟨h, -⟩⟩
      · cases h
      · cases h
      · exact absurd h.symm hu
  | cons c t =>
    change (if c = '-' then parseUnsigned true t else if c = '+' then parseUnsigned false t
      else parseUnsigned false (c :: t)) = some x ↔ _
    constructor
    · intro h
      split_ifs at h with h1 h2
      · subst h1
        exact ⟨true, t, .inl ⟨rfl, rfl⟩, (key _ _).1 h⟩
      · subst h2
        exact ⟨false, t, .inr ⟨rfl, .inl rfl⟩, (key _ _).1 h⟩
      · exact ⟨false, c :: t, .inr ⟨rfl, .inr ⟨rfl, by simpa using h1, by simpa using h2⟩⟩, (key _ _).1 h⟩
    · rintro ⟨neg, u, hs, h⟩
      have h := (key neg u).2 h
      rcases hs with ⟨he, rfl⟩ | ⟨rfl, he | ⟨he, h1, h2⟩⟩
      · cases he
        rw [if_pos rfl]
        exact h
      · cases he
        rw [if_neg (by decide), if_pos rfl]
        exact h
      · subst he
        rw [if_neg (by simpa using h1), if_neg (by simpa using h2)]
        exact h

/-- The rounding of a decimal number that is read: the sign is kept, finite results are nearest to what is written,
infinite results are given exactly to what exceeds the largest number by half a unit. -/
theorem C76_nearest (u : List Char) (v : ℚ) (h : Number u v) (neg : Bool) :
    RoundedTo neg (signedValue neg v) (Fl.ofExact neg (signedValue neg v)) :=
  ofExact_rounded (number_nonneg h)

theorem f64Text_entry : EntryTexts f64Text := fun x => by
  refine ⟨(f64Text_plain x).1, (f64Text_plain x).2.2.2, fun h => ?_, fun h => ?_⟩
  · exact absurd (f64Text_chars h) (by decide)
  · have := parse_f64Text x
    rw [h] at this
    cases this

/-- The matrices of the log are read back exactly. -/
theorem C76_matrix {n : Nat} (A : Mat F64 n) :
    (readMatrix (matrixText f64Text A)).map (List.map parseF64Chars) =
      (List.finRange n).map fun i => (List.finRange n).map fun j => some (A i j) := by
  rw [readMatrix_text f64Text_entry]
  simp [List.map_map, Function.comp_def, parse_f64Text]

/-- With the texts of `f64` and of nalgebra the log can be read back (C65): two logs with the same file contents have
recorded the same iterations, dampings and refusals, with the same numbers to the last bit. -/
theorem C76_log {n : Nat} (hn : n ≠ 0) (c c' : Config F64 n) (fd fd' : Bool) (its its' : List (List Char))
    (hits : ∀ t ∈ its, '\n' ∉ t) (hits' : ∀ t ∈ its', '\n' ∉ t) (l l' : List (LogEntry F64 n))
    (h : logText f64Text (matrixText f64Text) c fd its l = logText f64Text (matrixText f64Text) c' fd' its' l') :
    l.filter Spec.telling = l'.filter Spec.telling :=
  C65_determines f64Text_plain (matrixText_matrixLines f64Text_entry hn) f64Text_injective c c' fd fd' hits hits' l l' h

/-- Two neighbours need all their digits. -/
example : parseF64Chars "0.1".toList = parseF64Chars "0.10000000000000001".toList ∧
    parseF64Chars "0.1".toList ≠ parseF64Chars "0.10000000000000002".toList := by decide +kernel

example : (parseF64Chars "0.10000000000000002".toList).map f64Text = some "0.10000000000000002".toList := by
  decide +kernel

/-- The number of the documentation of `solve`. -/
example : (parseF64Chars "1.4142135623747443".toList).map f64Text = some "1.4142135623747443".toList := by
  decide +kernel

/-- A text of the grammar that uses all its parts. -/
example : Number "12.5e-1".toList (5 / 4) :=
  ⟨"12".toList, "5".toList, "e-1".toList, -1, by unfold Digits; decide, by unfold Digits; decide, by decide,
    .inr ⟨'e', "-".toList, "1".toList, .inl rfl, rfl, by decide, by unfold Digits; decide, .inr ⟨rfl, by decide⟩⟩, .inl rfl, by
      rw [show Nat.ofDigitChars 10 ("12".toList ++ "5".toList) 0 = 125 from by decide,
        show "5".toList.length = 1 from rfl]
      norm_num⟩

/-- A power of two, where the nearest number with 16 digits is not read back but another one is. -/
example : (parseF64Chars "5.684341886080802e-14".toList).map f64Text = some "0.00000000000005684341886080802".toList ∧
    parseF64Chars "5.684341886080801e-14".toList ≠ parseF64Chars "5.684341886080802e-14".toList := by
  decide +kernel

end Nrf
