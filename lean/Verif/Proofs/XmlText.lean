import Verif.Proofs.Xml

/-!
# Integers, attribute lists and the text of a configuration
-/

namespace Nrf

theorem digitValue_some {c : Char} {d : Nat} :
    digitValue c = some d ↔ c.isDigit = true ∧ d = c.toNat - '0'.toNat := by
  unfold digitValue
  have : ('0' ≤ c ∧ c ≤ '9') ↔ c.isDigit = true := by
    simp only [Char.isDigit, Bool.and_eq_true, decide_eq_true_eq]
    exact Iff.rfl
  by_cases h : c.isDigit = true
  · rw [if_pos (this.2 h)]
    simp [h, eq_comm]
  · rw [if_neg (fun hc => h (this.1 hc))]
    simp [h]

theorem parseDigits_some {v : Nat} : ∀ {cs : List Char} {acc : Nat},
    parseDigits cs acc = some v ↔
      (∀ c ∈ cs, c.isDigit = true) ∧ v = Nat.ofDigitChars 10 cs acc
  | [], acc => by
    rw [parseDigits, Nat.ofDigitChars_nil, Option.some.injEq]
    exact ⟨fun h => ⟨fun _ hc => (by cases hc), h.symm⟩, fun h => h.2.symm⟩
  | c :: cs, acc => by
    rw [parseDigits, Nat.ofDigitChars_cons]
    cases h : digitValue c with
    | none =>
      have : ¬ c.isDigit = true := fun hc => by
        rw [digitValue_some.2 ⟨hc, rfl⟩] at h
        cases h
      simp [this]
    | some d =>
      obtain ⟨h1, rfl⟩ := digitValue_some.1 h
      dsimp only
      rw [parseDigits_some, Nat.mul_comm acc 10]
      simp [h1]

/-- `parseUsize` reads the decimal numbers below `2^64`, with an optional `+`. -/
theorem parseUsize_some {s : String} {v : Nat} :
    parseUsize s = some v ↔ ∃ ds : List Char, (s.toList = ds ∨ s.toList = '+' :: ds) ∧ ds ≠ [] ∧
      (∀ c ∈ ds, c.isDigit = true) ∧ v = Nat.ofDigitChars 10 ds 0 ∧ v < 2 ^ 64 := by
  have key : ∀ ds : List Char, (match ds with
      | [] => none
      | cs => match parseDigits cs 0 with
        | some v => if v < 2 ^ 64 then some v else none
        | none => none) = some v ↔ ds ≠ [] ∧
      (∀ c ∈ ds, c.isDigit = true) ∧ v = Nat.ofDigitChars 10 ds 0 ∧ v < 2 ^ 64 := by
    intro ds
    cases ds with
    | nil => simp
    | cons c cs =>
      dsimp only
      cases h : parseDigits (c :: cs) 0 with
      | none =>
        refine ⟨fun h => (by cases h), ?_⟩
        rintro ⟨_, h1, h2, _⟩
        rw [parseDigits_some.2 ⟨h1, h2⟩] at h
        cases h
      | some w =>
        obtain ⟨h1, h2⟩ := parseDigits_some.1 h
        dsimp only
        constructor
        · intro h
          split at h
          · cases h
            exact ⟨by simp, h1, h2, by assumption⟩
          · cases h
        · rintro ⟨-, -, h3, h4⟩
          rw [h2, ← h3, if_pos h4]
  have hplus : ('+' : Char).isDigit = false := by decide
  obtain ⟨ds, hds, hcase⟩ : ∃ ds : List Char, stripPlus s.toList = ds ∧
      (s.toList = '+' :: ds ∨ s.toList = ds ∧ ∀ t, s.toList ≠ '+' :: t) := by
    refine ⟨_, rfl, ?_⟩
    unfold stripPlus
    split
    · rename_i cs h
      exact .inl h
    · rename_i h
      exact .inr ⟨rfl, h⟩
  unfold parseUsize
  rw [hds]
  refine (key ds).trans ?_
  constructor
  · intro h
    rcases hcase with h1 | ⟨h1, -⟩
    · exact ⟨ds, .inr h1, h⟩
    · exact ⟨ds, .inl h1, h⟩
  · rintro ⟨ds', h1 | h1, h2⟩
    · rcases hcase with g | ⟨g, -⟩
      · rw [h1] at g
        subst g
        have := h2.2.1 '+' (by simp)
        rw [hplus] at this
        cases this
      · rw [h1] at g
        exact g ▸ h2
    · rcases hcase with g | ⟨-, g⟩
      · rw [h1] at g
        cases g
        exact h2
      · exact absurd h1 (g ds')

/-- The decimal text of a `usize` is read back. -/
theorem parseUsize_toString {k : Nat} (h : k < 2 ^ 64) : parseUsize (toString k) = some k := by
  rw [parseUsize_some]
  refine ⟨Nat.toDigits 10 k, .inl ?_, Nat.toDigits_ne_nil, fun c hc =>
    Nat.isDigit_of_mem_toDigits (by decide) (by decide) hc, ?_, h⟩
  · rw [Nat.toString_eq_ofList_toDigits]; simp
  · rw [Nat.ofDigitChars_ten_toDigits]

end Nrf
