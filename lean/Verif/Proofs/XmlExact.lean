import Verif.Proofs.XmlLayout

/-!
# Whatever the parser reads is a layout
-/

namespace Nrf
namespace XmlText
open Spec

/-- The rest of the text is read, with result `e`. -/
def Acc (e : Element) (s : State) (cs : List Char) : Prop := (run s cs).bind result = some e

variable {e : Element} {st : List Frame} {r : Option Element}

theorem acc_nil {s : State} (h : Acc e s []) : result s = some e := h

theorem acc_cons {s : State} {c : Char} {cs : List Char} (h : Acc e s (c :: cs)) :
    ∃ s', step s c = some s' ∧ Acc e s' cs := by
  rw [Acc, run_cons] at h
  cases hs : step s c with
  | none => rw [hs] at h; cases h
  | some s' => rw [hs] at h; exact ⟨s', rfl, h⟩

theorem space_mem {c : Char} (h : isSpace c = true) : c ∈ [' ', '\t', '\n', '\r'] := by
  simp only [isSpace, Bool.or_eq_true, beq_iff_eq] at h
  simp only [List.mem_cons, List.not_mem_nil, or_false]
  tauto

theorem nameChar_mem {c : Char} (h : isNameChar c = true) : c.isAlphanum ∨ c ∈ ['_', '-', '.'] := by
  simp only [isNameChar, Bool.or_eq_true, beq_iff_eq] at h
  simp only [List.mem_cons, List.not_mem_nil, or_false]
  tauto

theorem nameStart_mem {c : Char} (h : isNameStart c = true) : c.isAlpha ∨ c = '_' := by
  simpa only [isNameStart, Bool.or_eq_true, beq_iff_eq] using h

theorem blank_cons {c : Char} {s : List Char} (hc : isSpace c = true) (h : Blank s) : Blank (c :: s) := by
  intro d hd
  rcases List.mem_cons.1 hd with rfl | hd
  · exact space_mem hc
  · exact h d hd

/-! ### Comments and the declaration -/

/-- Bodies of comments: every dash is followed by something else. -/
inductive Body : List Char → Prop
  | nil : Body []
  | char {c b} (hc : c ≠ '-') (h : Body b) : Body (c :: b)
  | dash {c b} (hc : c ≠ '-') (h : Body b) : Body ('-' :: c :: b)

theorem Body.comment {b : List Char} (h : Body b) : Comment ("<!--".toList ++ b ++ "-->".toList) := by
  refine ⟨b, rfl, ?_⟩
  induction h with
  | nil => exact ⟨by simp, by simp⟩
  | @char c b hc h ih =>
    refine ⟨fun hi => ?_, fun hi => ?_⟩
    · rcases List.infix_cons_iff.1 hi with hp | hi
      · obtain ⟨t, ht⟩ := hp
        simp only [List.cons_append, List.cons.injEq] at ht
        exact hc ht.1.symm
      · exact ih.1 hi
    · rcases List.suffix_cons_iff.1 hi with hp | hi
      · simp only [List.cons.injEq] at hp
        exact hc hp.1.symm
      · exact ih.2 hi
  | @dash c b hc h ih =>
    refine ⟨fun hi => ?_, fun hi => ?_⟩
    · rcases List.infix_cons_iff.1 hi with hp | hi
      · obtain ⟨t, ht⟩ := hp
        simp only [List.cons_append, List.cons.injEq] at ht
        exact hc ht.2.1.symm
      · rcases List.infix_cons_iff.1 hi with hp | hi
        · obtain ⟨t, ht⟩ := hp
          simp only [List.cons_append, List.cons.injEq] at ht
          exact hc ht.1.symm
        · exact ih.1 hi
    · rcases List.suffix_cons_iff.1 hi with hp | hi
      · simp only [List.cons.injEq] at hp
        cases hp.2
      · rcases List.suffix_cons_iff.1 hi with hp | hi
        · simp only [List.cons.injEq] at hp
          exact hc hp.1.symm
        · exact ih.2 hi

theorem acc_comment : ∀ (cs : List Char),
    (Acc e ⟨.comment, st, r⟩ cs → ∃ b tail, Body b ∧ cs = b ++ ("-->".toList ++ tail) ∧ Acc e ⟨.text, st, r⟩ tail) ∧
    (Acc e ⟨.dash, st, r⟩ cs → (∃ tail, cs = '-' :: '>' :: tail ∧ Acc e ⟨.text, st, r⟩ tail) ∨
      ∃ c b tail, c ≠ '-' ∧ Body b ∧ cs = c :: b ++ ("-->".toList ++ tail) ∧ Acc e ⟨.text, st, r⟩ tail)
  | [] => ⟨fun h => (nomatch h), fun h => (nomatch h)⟩
  | c :: cs => by
    have ih := acc_comment cs
    constructor
    · intro h
      have hh := acc_cons h
      clear h
      obtain ⟨s', hs, h⟩ := hh
      simp only [step] at hs
      split at hs
      · rename_i hc
        obtain rfl : c = '-' := by simpa using hc
        cases hs
        rcases ih.2 h with ⟨tail, rfl, ht⟩ | ⟨c, b, tail, hc, hb, rfl, ht⟩
        · exact ⟨[], tail, .nil, rfl, ht⟩
        · exact ⟨'-' :: c :: b, tail, .dash hc hb, rfl, ht⟩
      · rename_i hc
        cases hs
        obtain ⟨b, tail, hb, rfl, ht⟩ := ih.1 h
        exact ⟨c :: b, tail, .char (by simpa using hc) hb, rfl, ht⟩
    · intro h
      have hh := acc_cons h
      clear h
      obtain ⟨s', hs, h⟩ := hh
      simp only [step] at hs
      split at hs
      · rename_i hc
        obtain rfl : c = '-' := by simpa using hc
        cases hs
        rcases cs with _ | ⟨d, ds⟩
        · exact nomatch h
        have hh := acc_cons h
        clear h
        obtain ⟨s', hs, h⟩ := hh
        simp only [step] at hs
        split at hs
        · rename_i hd
          obtain rfl : d = '>' := by simpa using hd
          cases hs
          exact .inl ⟨ds, rfl, h⟩
        · cases hs
      · rename_i hc
        cases hs
        obtain ⟨b, tail, hb, rfl, ht⟩ := ih.1 h
        exact .inr ⟨c, b, tail, by simpa using hc, hb, rfl, ht⟩

/-- After `<!`. -/
theorem acc_bang {cs : List Char} (h : Acc e ⟨.bang, st, r⟩ cs) :
    ∃ c tail, Comment c ∧ '<' :: '!' :: cs = c ++ tail ∧ Acc e ⟨.text, st, r⟩ tail := by
  rcases cs with _ | ⟨c, cs⟩
  · exact nomatch h
  have hh := acc_cons h
  clear h
  obtain ⟨s', hs, h⟩ := hh
  simp only [step] at hs
  split at hs
  · rename_i hc
    obtain rfl : c = '-' := by simpa using hc
    cases hs
    rcases cs with _ | ⟨c, cs⟩
    · exact nomatch h
    have hh := acc_cons h
    clear h
    obtain ⟨s', hs, h⟩ := hh
    simp only [step] at hs
    split at hs
    · rename_i hc
      obtain rfl : c = '-' := by simpa using hc
      cases hs
      obtain ⟨b, tail, hb, rfl, ht⟩ := (acc_comment cs).1 h
      exact ⟨_, tail, hb.comment, by simp, ht⟩
    · cases hs
  · cases hs

theorem acc_decl : ∀ (cs : List Char) (q : Bool), Acc e ⟨.decl q, st, r⟩ cs →
    (q = true ∧ ∃ tail, cs = '>' :: tail ∧ Acc e ⟨.text, st, r⟩ tail) ∨
    ∃ b tail, cs = b ++ ("?>".toList ++ tail) ∧ ¬ ['?', '>'] <:+: (if q then '?' :: b else b) ∧ Acc e ⟨.text, st, r⟩ tail
  | [], q, h => nomatch h
  | c :: cs, q, h => by
    have hh := acc_cons h
    clear h
    obtain ⟨s', hs, h⟩ := hh
    simp only [step] at hs
    split at hs
    · rename_i hc
      simp only [Bool.and_eq_true, beq_iff_eq] at hc
      obtain ⟨rfl, rfl⟩ := hc
      cases hs
      exact .inl ⟨rfl, cs, rfl, h⟩
    · rename_i hc
      cases hs
      right
      rcases acc_decl cs _ h with ⟨hq, tail, rfl, ht⟩ | ⟨b, tail, rfl, hb, ht⟩
      · obtain rfl : c = '?' := by simpa using hq
        refine ⟨[], tail, rfl, ?_, ht⟩
        split
        · intro hi
          rcases List.infix_cons_iff.1 hi with ⟨t, ht⟩ | hi
          · simp at ht
          · simp at hi
        · simp
      · refine ⟨c :: b, tail, rfl, ?_, ht⟩
        have h1 : ¬ ['?', '>'] <:+: c :: b := by
          intro hi
          by_cases hq : c = '?'
          · subst hq
            exact hb hi
          · rw [if_neg (by simpa using hq)] at hb
            rcases List.infix_cons_iff.1 hi with ⟨t, ht⟩ | hi
            · simp only [List.cons_append, List.cons.injEq] at ht
              exact hq ht.1.symm
            · exact hb hi
        split
        · rename_i hq
          intro hi
          rcases List.infix_cons_iff.1 hi with ⟨t, ht⟩ | hi
          · simp only [List.cons_append, List.cons.injEq] at ht
            exact hc (by rw [hq, ← ht.2.1]; rfl)
          · exact h1 hi
        · exact h1

/-! ### Names -/

/-- Modes which collect name characters: all that follow are collected. -/
theorem acc_nameChars (mode : List Char → Mode)
    (hmode : ∀ n c, isNameChar c = true → step ⟨mode n, st, r⟩ c = some ⟨mode (c :: n), st, r⟩) :
    ∀ (cs n : List Char), Acc e ⟨mode n, st, r⟩ cs → ∃ more tail, (∀ d ∈ more, d.isAlphanum ∨ d ∈ ['_', '-', '.']) ∧
      cs = more ++ tail ∧ Acc e ⟨mode (more.reverse ++ n), st, r⟩ tail ∧ ∀ c ∈ tail.head?, isNameChar c = false
  | [], n, h => ⟨[], [], by simp, rfl, h, by simp⟩
  | c :: cs, n, h => by
    by_cases hc : isNameChar c = true
    · obtain ⟨s', hs, h⟩ := acc_cons h
      rw [hmode n c hc] at hs
      cases hs
      obtain ⟨more, tail, h1, rfl, h2, h3⟩ := acc_nameChars mode hmode cs (c :: n) h
      refine ⟨c :: more, tail, fun d hd => ?_, rfl, by simpa using h2, h3⟩
      rcases List.mem_cons.1 hd with rfl | hd
      · exact nameChar_mem hc
      · exact h1 d hd
    · exact ⟨[], c :: cs, by simp, rfl, h, fun d hd => by
        obtain rfl : c = d := by simpa using hd
        simpa using hc⟩

theorem name_of {c : Char} {more : List Char} (hc : isNameStart c = true)
    (h : ∀ d ∈ more, d.isAlphanum ∨ d ∈ ['_', '-', '.']) : Name (textOf (more.reverse ++ [c])) ∧
      (textOf (more.reverse ++ [c])).toList = c :: more := by
  have : (textOf (more.reverse ++ [c])).toList = c :: more := by simp [textOf]
  exact ⟨⟨c, more, this, nameStart_mem hc, h⟩, this⟩

/-! ### Closing tags -/

theorem acc_closeSpace {n : List Char} : ∀ {cs : List Char}, Acc e ⟨.closeSpace n, st, r⟩ cs →
    ∃ s tail s', Blank s ∧ cs = s ++ '>' :: tail ∧ closeTag n st r = some s' ∧ Acc e s' tail
  | [], h => nomatch h
  | c :: cs, h => by
    have hh := acc_cons h
    clear h
    obtain ⟨s', hs, h⟩ := hh
    simp only [step] at hs
    split at hs
    · rename_i hc
      cases hs
      obtain ⟨s, tail, s', h1, rfl, h2, h3⟩ := acc_closeSpace h
      exact ⟨c :: s, tail, s', blank_cons hc h1, rfl, h2, h3⟩
    · split at hs
      · rename_i hc
        obtain rfl : c = '>' := by simpa using hc
        exact ⟨[], cs, s', fun _ h => (nomatch h), rfl, hs, h⟩
      · cases hs

/-- After `</`. -/
theorem acc_close {cs : List Char} (h : Acc e ⟨.close, st, r⟩ cs) :
    ∃ n s tail s', Blank s ∧ cs = (textOf n).toList ++ s ++ '>' :: tail ∧ closeTag n st r = some s' ∧ Acc e s' tail := by
  rcases cs with _ | ⟨c, cs⟩
  · exact nomatch h
  have hh := acc_cons h
  clear h
  obtain ⟨s', hs, h⟩ := hh
  simp only [step] at hs
  split at hs
  · rename_i hc
    cases hs
    obtain ⟨more, tail, h1, rfl, h2, h3⟩ := acc_nameChars Mode.closeName (fun n c h => by simp only [step, h, if_true])
      cs [c] h
    obtain ⟨-, hn⟩ := name_of hc h1
    have hend : ∃ s tail' s', Blank s ∧ tail = s ++ '>' :: tail' ∧ closeTag (more.reverse ++ [c]) st r = some s' ∧
        Acc e s' tail' := by
      rcases tail with _ | ⟨d, ds⟩
      · exact nomatch h2
      have hd := h3 d rfl
      have hh := acc_cons h2
      clear h2
      obtain ⟨s', hs, h4⟩ := hh
      simp only [step, hd, Bool.false_eq_true, if_false] at hs
      split at hs
      · rename_i hsp
        cases hs
        obtain ⟨s, tail, s', g1, rfl, g2, g3⟩ := acc_closeSpace h4
        exact ⟨d :: s, tail, s', blank_cons hsp g1, rfl, g2, g3⟩
      · split at hs
        · rename_i hc
          obtain rfl : d = '>' := by simpa using hc
          exact ⟨[], ds, s', fun _ h => (nomatch h), rfl, hs, h4⟩
        · cases hs
    obtain ⟨s, tail', s', g1, rfl, g2, g3⟩ := hend
    exact ⟨more.reverse ++ [c], s, tail', s', g1, by rw [hn]; simp, g2, g3⟩
  · cases hs

/-! ### Opening tags -/

section
variable {n : List Char} {a : Attrs}

theorem acc_value {k : List Char} {q : Char} : ∀ {cs v : List Char}, Acc e ⟨.value n a k q v, st, r⟩ cs →
    q ∉ v → (∀ c ∈ v, c ∉ ['<', '&', '\t', '\n', '\r']) →
    ∃ w tail a', cs = w ++ q :: tail ∧ q ∉ (textOf (w.reverse ++ v)).toList ∧
      (∀ c ∈ (textOf (w.reverse ++ v)).toList, c ∉ ['<', '&', '\t', '\n', '\r']) ∧
      addAttr a k (w.reverse ++ v) = some a' ∧ Acc e ⟨.valueEnd n a', st, r⟩ tail
  | [], v, h, _, _ => nomatch h
  | c :: cs, v, h, hq, hv => by
    have hh := acc_cons h
    clear h
    obtain ⟨s', hs, h⟩ := hh
    simp only [step] at hs
    split at hs
    · rename_i hc
      obtain rfl : c = q := by simpa using hc
      cases ha : addAttr a k v with
      | none => rw [ha] at hs; cases hs
      | some a' =>
        rw [ha] at hs
        cases hs
        refine ⟨[], cs, a', rfl, ?_, ?_, ha, h⟩
        · simpa [textOf] using hq
        · simpa [textOf] using hv
    · rename_i hc
      split at hs
      · cases hs
      · rename_i hb
        cases hs
        have hc' : c ≠ q := by simpa using hc
        obtain ⟨w, tail, a', rfl, g1, g2, g3, g4⟩ := acc_value h
          (by simp only [List.mem_cons, not_or]; exact ⟨fun h => hc' h.symm, hq⟩)
          (by
            intro d hd
            rcases List.mem_cons.1 hd with rfl | hd
            · simp only [Bool.or_eq_true, beq_iff_eq, not_or] at hb
              simp only [List.mem_cons, List.not_mem_nil, or_false, not_or]
              tauto
            · exact hv d hd)
        refine ⟨c :: w, tail, a', rfl, ?_, ?_, ?_, g4⟩
        · simpa using g1
        · simpa using g2
        · simpa using g3

theorem acc_equals {k : List Char} : ∀ {cs : List Char}, Acc e ⟨.equals n a k, st, r⟩ cs →
    ∃ s q tail, Blank s ∧ (q = '"' ∨ q = '\'') ∧ cs = s ++ q :: tail ∧ Acc e ⟨.value n a k q [], st, r⟩ tail
  | [], h => nomatch h
  | c :: cs, h => by
    have hh := acc_cons h
    clear h
    obtain ⟨s', hs, h⟩ := hh
    simp only [step] at hs
    split at hs
    · rename_i hc
      cases hs
      obtain ⟨s, q, tail, h1, h2, rfl, h3⟩ := acc_equals h
      exact ⟨c :: s, q, tail, blank_cons hc h1, h2, rfl, h3⟩
    · split at hs
      · rename_i hc
        cases hs
        exact ⟨[], c, cs, fun _ h => (nomatch h), by simpa using hc, rfl, h⟩
      · cases hs

theorem acc_keySpace {k : List Char} : ∀ {cs : List Char}, Acc e ⟨.keySpace n a k, st, r⟩ cs →
    ∃ s tail, Blank s ∧ cs = s ++ '=' :: tail ∧ Acc e ⟨.equals n a k, st, r⟩ tail
  | [], h => nomatch h
  | c :: cs, h => by
    have hh := acc_cons h
    clear h
    obtain ⟨s', hs, h⟩ := hh
    simp only [step] at hs
    split at hs
    · rename_i hc
      cases hs
      obtain ⟨s, tail, h1, rfl, h2⟩ := acc_keySpace h
      exact ⟨c :: s, tail, blank_cons hc h1, rfl, h2⟩
    · split at hs
      · rename_i hc
        obtain rfl : c = '=' := by simpa using hc
        cases hs
        exact ⟨[], cs, fun _ h => (nomatch h), rfl, h⟩
      · cases hs

/-- What an attribute adds. -/
structure Added (a a' : Attrs) (k v : String) : Prop where
  eq : a' = (k, v) :: a
  name : Name k
  notNs : k ≠ "xmlns"
  value : ∀ c ∈ v.toList, c ∉ ['<', '&', '\t', '\n', '\r']
  fresh : k ∉ a.map (·.1)

theorem addAttr_eq {k v : List Char} {a' : Attrs} (h : addAttr a k v = some a') :
    a' = (textOf k, textOf v) :: a ∧ textOf k ≠ "xmlns" ∧ textOf k ∉ a.map (·.1) := by
  unfold addAttr at h
  split at h
  · cases h
  · rename_i hc
    simp only [Bool.or_eq_true, not_or, beq_iff_eq, List.any_eq_true, not_exists, not_and] at hc
    refine ⟨(Option.some.inj h).symm, hc.2, ?_⟩
    rw [List.mem_map]
    rintro ⟨x, hx, e⟩
    exact hc.1 x hx e

/-- In the name of an attribute. -/
theorem acc_key {c : Char} (hc : isNameStart c = true) {cs : List Char} (h : Acc e ⟨.key n a [c], st, r⟩ cs) :
    ∃ k v t tail a', AttrText k v t ∧ c :: cs = t ++ tail ∧ Added a a' k v ∧ Acc e ⟨.valueEnd n a', st, r⟩ tail := by
  obtain ⟨more, tail, h1, rfl, h2, h3⟩ := acc_nameChars (Mode.key n a) (fun n c h => by simp only [step, h, if_true])
    cs [c] h
  obtain ⟨hname, hn⟩ := name_of hc h1
  have hend : ∃ s tail', Blank s ∧ tail = s ++ '=' :: tail' ∧ Acc e ⟨.equals n a (more.reverse ++ [c]), st, r⟩ tail' := by
    rcases tail with _ | ⟨d, ds⟩
    · exact nomatch h2
    have hd := h3 d rfl
    have hh := acc_cons h2
    clear h2
    obtain ⟨s', hs, h⟩ := hh
    simp only [step, hd, Bool.false_eq_true, if_false] at hs
    split at hs
    · rename_i hsp
      cases hs
      obtain ⟨s, tail, g1, rfl, g2⟩ := acc_keySpace h
      exact ⟨d :: s, tail, blank_cons hsp g1, rfl, g2⟩
    · split at hs
      · rename_i hc
        obtain rfl : d = '=' := by simpa using hc
        cases hs
        exact ⟨[], ds, fun _ h => (nomatch h), rfl, h⟩
      · cases hs
  obtain ⟨s, tail, g1, rfl, g2⟩ := hend
  obtain ⟨s2, q, tail, k1, k2, rfl, k3⟩ := acc_equals g2
  obtain ⟨w, tail, a', rfl, v1, v2, v3, v4⟩ := acc_value k3 (by simp) (by simp)
  obtain ⟨e1, e2, e3⟩ := addAttr_eq v3
  refine ⟨textOf (more.reverse ++ [c]), textOf (w.reverse ++ []), _, tail, a', ⟨s, s2, q, g1, k1, k2, v1, rfl⟩, ?_,
    ⟨e1, hname, e2, v2, e3⟩, v4⟩
  rw [hn]
  simp [textOf]

/-- After a space in an opening tag. -/
theorem acc_tag : ∀ {cs : List Char}, Acc e ⟨.tag n a, st, r⟩ cs → ∃ s, Blank s ∧
    ((∃ tail s', cs = s ++ "/>".toList ++ tail ∧ emptyTag n a st r = some s' ∧ Acc e s' tail) ∨
    (∃ tail s', cs = s ++ '>' :: tail ∧ openTag n a st r = some s' ∧ Acc e s' tail) ∨
    ∃ k v t tail a', AttrText k v t ∧ cs = s ++ t ++ tail ∧ Added a a' k v ∧ Acc e ⟨.valueEnd n a', st, r⟩ tail)
  | [], h => nomatch h
  | c :: cs, h => by
    have hh := acc_cons h
    clear h
    obtain ⟨s', hs, h⟩ := hh
    simp only [step] at hs
    split at hs
    · rename_i hc
      cases hs
      obtain ⟨s, h1, h2⟩ := acc_tag h
      refine ⟨c :: s, blank_cons hc h1, ?_⟩
      rcases h2 with ⟨tail, s', rfl, g⟩ | ⟨tail, s', rfl, g⟩ | ⟨k, v, t, tail, a', g1, rfl, g⟩
      · exact .inl ⟨tail, s', rfl, g⟩
      · exact .inr (.inl ⟨tail, s', rfl, g⟩)
      · exact .inr (.inr ⟨k, v, t, tail, a', g1, rfl, g⟩)
    · refine ⟨[], fun _ h => (nomatch h), ?_⟩
      split at hs
      · rename_i hc
        cases hs
        obtain ⟨k, v, t, tail, a', g1, g2, g⟩ := acc_key hc h
        exact .inr (.inr ⟨k, v, t, tail, a', g1, g2, g⟩)
      · split at hs
        · rename_i hc
          obtain rfl : c = '/' := by simpa using hc
          cases hs
          rcases cs with _ | ⟨d, ds⟩
          · exact nomatch h
          have hh := acc_cons h
          clear h
          obtain ⟨s', hs, h⟩ := hh
          simp only [step] at hs
          split at hs
          · rename_i hd
            obtain rfl : d = '>' := by simpa using hd
            exact .inl ⟨ds, s', rfl, hs, h⟩
          · cases hs
        · split at hs
          · rename_i hc
            obtain rfl : c = '>' := by simpa using hc
            exact .inr (.inl ⟨cs, s', rfl, hs, h⟩)
          · cases hs

/-- What is known of the attributes read. -/
structure Fine (a : Attrs) : Prop where
  keys : ∀ x ∈ a, Name x.1 ∧ x.1 ≠ "xmlns"
  values : ∀ x ∈ a, ∀ c ∈ x.2.toList, c ∉ ['<', '&', '\t', '\n', '\r']
  distinct : (a.map (·.1)).Nodup

theorem Added.fine {a a' : Attrs} {k v : String} (h : Added a a' k v) (hf : Fine a) : Fine a' := by
  rw [h.eq]
  refine ⟨fun x hx => ?_, fun x hx => ?_, ?_⟩
  · rcases List.mem_cons.1 hx with rfl | hx
    · exact ⟨h.name, h.notNs⟩
    · exact hf.keys x hx
  · rcases List.mem_cons.1 hx with rfl | hx
    · exact h.value
    · exact hf.values x hx
  · rw [List.map_cons, List.nodup_cons]
    exact ⟨h.fresh, hf.distinct⟩

/-- After a value; also after the name. -/
theorem acc_valueEnd : ∀ (N : Nat) {cs : List Char} {a : Attrs}, cs.length ≤ N → Fine a →
    Acc e ⟨.valueEnd n a, st, r⟩ cs → ∃ as t s tail s' b, AttrsText as t ∧ Blank s ∧ Fine b ∧ b.reverse = a.reverse ++ as ∧
      Acc e s' tail ∧ ((cs = t ++ s ++ "/>".toList ++ tail ∧ emptyTag n b st r = some s') ∨
        (cs = t ++ s ++ '>' :: tail ∧ openTag n b st r = some s'))
  | _, [], _, _, _, h => nomatch h
  | 0, _ :: _, _, hN, _, _ => absurd hN (by simp)
  | N + 1, c :: cs, a, hN, hf, h => by
    have hh := acc_cons h
    clear h
    obtain ⟨s', hs, h⟩ := hh
    simp only [step] at hs
    split at hs
    · rename_i hc
      cases hs
      obtain ⟨s, h1, h2⟩ := acc_tag h
      rcases h2 with ⟨tail, s', rfl, g1, g2⟩ | ⟨tail, s', rfl, g1, g2⟩ | ⟨k, v, t, tail, a', g1, rfl, g2, g3⟩
      · exact ⟨[], [], c :: s, tail, s', a, .nil, blank_cons hc h1, hf, by simp, g2, .inl ⟨by simp, g1⟩⟩
      · exact ⟨[], [], c :: s, tail, s', a, .nil, blank_cons hc h1, hf, by simp, g2, .inr ⟨by simp, g1⟩⟩
      · obtain ⟨as, t', s2, tail', s', b, k1, k2, k3, k4, k5, k6⟩ := acc_valueEnd N (by
          simp only [List.length_cons, List.length_append] at hN; omega) (g2.fine hf) g3
        refine ⟨(k, v) :: as, c :: s ++ t ++ t', s2, tail', s', b, .cons (blank_cons hc h1) (by simp) g1 k1, k2, k3, ?_, k5, ?_⟩
        · rw [k4, g2.eq]; simp
        · rcases k6 with ⟨rfl, k6⟩ | ⟨rfl, k6⟩
          · exact .inl ⟨by simp, k6⟩
          · exact .inr ⟨by simp, k6⟩
    · split at hs
      · rename_i hc
        obtain rfl : c = '/' := by simpa using hc
        cases hs
        rcases cs with _ | ⟨d, ds⟩
        · exact nomatch h
        have hh := acc_cons h
        clear h
        obtain ⟨s', hs, h⟩ := hh
        simp only [step] at hs
        split at hs
        · rename_i hd
          obtain rfl : d = '>' := by simpa using hd
          exact ⟨[], [], [], ds, s', a, .nil, fun _ h => (nomatch h), hf, by simp, h, .inl ⟨rfl, hs⟩⟩
        · cases hs
      · split at hs
        · rename_i hc
          obtain rfl : c = '>' := by simpa using hc
          exact ⟨[], [], [], cs, s', a, .nil, fun _ h => (nomatch h), hf, by simp, h, .inr ⟨rfl, hs⟩⟩
        · cases hs

end

/-- The beginning of an element: an empty element, or an opening tag. -/
theorem acc_name {c : Char} (hc : isNameStart c = true) {cs : List Char} (h : Acc e ⟨.name [c], st, r⟩ cs) :
    ∃ n as t s tail s', Plain n as ∧ AttrsText as t ∧ Blank s ∧ Acc e s' tail ∧
      ((c :: cs = n.toList ++ t ++ s ++ "/>".toList ++ tail ∧ finish (.mk n as []) st r = some s') ∨
      (c :: cs = n.toList ++ t ++ s ++ '>' :: tail ∧ (st.isEmpty && r.isSome) = false ∧ s' = ⟨.text, ⟨n, as, []⟩ :: st, r⟩)) := by
  obtain ⟨more, tail, h1, rfl, h2, h3⟩ := acc_nameChars Mode.name (fun n c h => by simp only [step, h, if_true]) cs [c] h
  obtain ⟨hname, hn⟩ := name_of hc h1
  have h2 : Acc e ⟨.valueEnd (more.reverse ++ [c]) [], st, r⟩ tail := by
    rcases tail with _ | ⟨d, ds⟩
    · exact nomatch h2
    have hd := h3 d rfl
    have : step ⟨.name (more.reverse ++ [c]), st, r⟩ d = step ⟨.valueEnd (more.reverse ++ [c]) [], st, r⟩ d := by
      simp only [step, hd, Bool.false_eq_true, if_false]
    rw [Acc, run_cons, this] at h2
    exact h2
  obtain ⟨as, t, s, tail', s', b, k1, k2, k3, k4, k5, k6⟩ := acc_valueEnd tail.length le_rfl
    (a := []) ⟨by simp, by simp, List.nodup_nil⟩ h2
  have hb : b.reverse = as := by simpa using k4
  have hp : Plain (textOf (more.reverse ++ [c])) as := by
    subst hb
    refine ⟨hname, fun x hx => k3.keys x (by simpa using hx), fun x hx => k3.values x (by simpa using hx), ?_⟩
    rw [List.map_reverse]
    exact List.pairwise_reverse.2 (k3.distinct.imp fun h => h.symm)
  refine ⟨textOf (more.reverse ++ [c]), as, t, s, tail', s', hp, k1, k2, k5, ?_⟩
  rw [hn]
  rcases k6 with ⟨rfl, k6⟩ | ⟨rfl, k6⟩
  · rw [emptyTag, hb] at k6
    exact .inl ⟨by simp, k6⟩
  · unfold openTag at k6
    split at k6
    · cases k6
    · rename_i ho
      rw [hb] at k6
      exact .inr ⟨by simp, by simpa using ho, (Option.some.inj k6).symm⟩

/-! ### Content -/

theorem content_cons {x : Char} (hx : x ≠ '<' ∧ x ≠ '&') {u : List Char} (h : Content u) : Content (x :: u) := by
  induction h with
  | text h =>
    refine .text fun c hc => ?_
    rcases List.mem_cons.1 hc with rfl | hc
    · exact hx
    · exact h c hc
  | comment hs hc ht ih => exact .comment ih hc ht

theorem content_comment {c u : List Char} (hc : Comment c) (h : Content u) : Content (c ++ u) := by
  induction h with
  | text h => exact Content.comment (s := []) (.text (by simp)) hc h
  | comment hs hc' ht ih => rw [← List.append_assoc, ← List.append_assoc]; exact .comment ih hc' ht

theorem layouts_cons {x : Char} (hx : x ≠ '<' ∧ x ≠ '&') {es : List Element} {u : List Char} (h : Layouts es u) :
    Layouts es (x :: u) := by
  cases h with
  | nil hu => exact .nil (content_cons hx hu)
  | cons hu he hv => exact .cons (content_cons hx hu) he hv

theorem layouts_comment {c : List Char} (hc : Comment c) {es : List Element} {u : List Char} (h : Layouts es u) :
    Layouts es (c ++ u) := by
  cases h with
  | nil hu => exact .nil (content_comment hc hu)
  | cons hu he hv =>
    rw [← List.append_assoc, ← List.append_assoc]
    exact .cons (content_comment hc hu) he hv

theorem misc_cons {x : Char} (hx : isSpace x = true) {u : List Char} (h : Misc u) : Misc (x :: u) := by
  induction h with
  | blank h => exact .blank (blank_cons hx h)
  | comment hs hc ht ih => exact .comment ih hc ht

theorem misc_comment {c u : List Char} (hc : Comment c) (h : Misc u) : Misc (c ++ u) := by
  induction h with
  | blank h => exact Misc.comment (s := []) (.blank (by simp [Blank])) hc h
  | comment hs hc' ht ih => rw [← List.append_assoc, ← List.append_assoc]; exact .comment ih hc' ht

/-- Inside an element, up to its closing tag. -/
theorem acc_inside : ∀ (N : Nat) {cs : List Char} {f : Frame} {fs : List Frame}, cs.length ≤ N →
    Acc e ⟨.text, f :: fs, r⟩ cs → ∃ es u s tail s', Layouts es u ∧ Blank s ∧
      cs = u ++ "</".toList ++ f.name.toList ++ s ++ '>' :: tail ∧
      finish (.mk f.name f.attrs (f.children.reverse ++ es)) fs r = some s' ∧ Acc e s' tail
  | _, [], _, _, _, h => nomatch h
  | 0, _ :: _, _, _, hN, _ => absurd hN (by simp)
  | N + 1, c :: cs, f, fs, hN, h => by
    have hN : cs.length ≤ N := by simpa using hN
    have hh := acc_cons h
    clear h
    obtain ⟨s', hs, h⟩ := hh
    simp only [step] at hs
    split at hs
    · rename_i hc
      obtain rfl : c = '<' := by simpa using hc
      cases hs
      rcases cs with _ | ⟨d, ds⟩
      · exact nomatch h
      have hN : ds.length + 1 ≤ N := by simpa using hN
      have hh := acc_cons h
      clear h
      obtain ⟨s', hs, h⟩ := hh
      simp only [step] at hs
      split at hs
      · rename_i hd
        obtain rfl : d = '/' := by simpa using hd
        cases hs
        obtain ⟨n, s, tail, s', h1, rfl, h2, h3⟩ := acc_close h
        simp only [closeTag] at h2
        split at h2
        · rename_i hn
          rw [beq_iff_eq] at hn
          refine ⟨[], [], s, tail, s', .nil (.text (by simp)), h1, by rw [hn]; simp, by simpa using h2, h3⟩
        · cases h2
      · split at hs
        · rename_i hd
          obtain rfl : d = '!' := by simpa using hd
          cases hs
          obtain ⟨cm, tail, h1, h2, h3⟩ := acc_bang h
          have hl := congrArg List.length h2
          obtain ⟨b, rfl, -⟩ := id h1
          simp only [List.length_cons, List.length_append] at hl
          have hlen : 7 ≤ "<!--".toList.length + "-->".toList.length := by decide
          obtain ⟨es, u, s, tail', s', g1, g2, rfl, g3, g4⟩ := acc_inside N (by omega) h3
          exact ⟨es, _, s, tail', s', layouts_comment h1 g1, g2, by rw [h2]; simp only [List.append_assoc], g3, g4⟩
        · split at hs
          · rename_i hd
            cases hs
            obtain ⟨n, as, t, s, tail, s', k1, k2, k3, k4, k5⟩ := acc_name hd h
            rcases k5 with ⟨k5, k6⟩ | ⟨k5, k6, rfl⟩
            · cases k6
              have hl := congrArg List.length k5
              simp only [List.length_cons, List.length_append] at hl
              obtain ⟨es, u, s2, tail', s', g1, g2, rfl, g3, g4⟩ := acc_inside N (by omega) k4
              refine ⟨_ :: es, _, s2, tail', s', .cons (u := []) (.text (by simp)) (.empty k1 k2 k3) g1, g2, ?_, by simpa using g3, g4⟩
              rw [k5]; simp
            · have hl := congrArg List.length k5
              simp only [List.length_cons, List.length_append] at hl
              obtain ⟨es, u, s2, tail', s', g1, g2, rfl, g3, g4⟩ := acc_inside N (by omega) k4
              simp only [List.length_cons, List.length_append] at hl
              cases g3
              obtain ⟨es2, u2, s3, tail2, s', j1, j2, rfl, j3, j4⟩ := acc_inside N (by omega) g4
              refine ⟨_ :: es2, _, s3, tail2, s', .cons (u := []) (.text (by simp)) (.full k1 k2 k3 g1 g2) j1, j2, ?_, by simpa using j3, j4⟩
              rw [k5]; simp
          · cases hs
    · rename_i hc
      split at hs
      · cases hs
      · rename_i hc2
        simp only [List.isEmpty_cons, Bool.false_and, Bool.false_eq_true, if_false] at hs
        cases hs
        obtain ⟨es, u, s, tail', s', g1, g2, rfl, g3, g4⟩ := acc_inside N hN h
        exact ⟨es, c :: u, s, tail', s', layouts_cons ⟨by simpa using hc, by simpa using hc2⟩ g1, g2, rfl, g3, g4⟩

/-! ### Documents -/

/-- After the root. -/
theorem acc_after {e' : Element} : ∀ (N : Nat) {cs : List Char}, cs.length ≤ N → Acc e ⟨.text, [], some e'⟩ cs →
    e' = e ∧ Misc cs
  | _, [], _, h => ⟨Option.some.inj h, .blank (by simp [Blank])⟩
  | 0, _ :: _, hN, _ => absurd hN (by simp)
  | N + 1, c :: cs, hN, h => by
    have hN : cs.length ≤ N := by simpa using hN
    have hh := acc_cons h
    clear h
    obtain ⟨s', hs, h⟩ := hh
    simp only [step] at hs
    split at hs
    · rename_i hc
      obtain rfl : c = '<' := by simpa using hc
      cases hs
      rcases cs with _ | ⟨d, ds⟩
      · exact nomatch h
      have hN : ds.length + 1 ≤ N := by simpa using hN
      have hh := acc_cons h
      clear h
      obtain ⟨s', hs, h⟩ := hh
      simp only [step] at hs
      split at hs
      · cases hs
        obtain ⟨n, s, tail, s', -, -, h2, -⟩ := acc_close h
        cases h2
      · split at hs
        · rename_i hd
          obtain rfl : d = '!' := by simpa using hd
          cases hs
          obtain ⟨cm, tail, h1, h2, h3⟩ := acc_bang h
          have hl := congrArg List.length h2
          obtain ⟨b, rfl, -⟩ := id h1
          simp only [List.length_cons, List.length_append] at hl
          have hlen : 7 ≤ "<!--".toList.length + "-->".toList.length := by decide
          obtain ⟨g1, g2⟩ := acc_after N (by omega) h3
          exact ⟨g1, h2 ▸ misc_comment h1 g2⟩
        · split at hs
          · rename_i hd
            cases hs
            obtain ⟨n, as, t, s, tail, s', k1, k2, k3, k4, k5⟩ := acc_name hd h
            rcases k5 with ⟨-, k6⟩ | ⟨-, k6, -⟩
            · cases k6
            · cases k6
          · cases hs
    · split at hs
      · cases hs
      · split at hs
        · cases hs
        · rename_i hc
          cases hs
          obtain ⟨g1, g2⟩ := acc_after N hN h
          exact ⟨g1, misc_cons (by simpa using hc) g2⟩

/-- The root element. -/
theorem acc_root {c : Char} (hc : isNameStart c = true) {cs : List Char} (h : Acc e ⟨.name [c], [], none⟩ cs) :
    ∃ t u, Layout e t ∧ Misc u ∧ '<' :: c :: cs = t ++ u := by
  obtain ⟨n, as, t, s, tail, s', k1, k2, k3, k4, k5⟩ := acc_name hc h
  rcases k5 with ⟨k5, k6⟩ | ⟨k5, -, rfl⟩
  · cases k6
    obtain ⟨rfl, g⟩ := acc_after tail.length le_rfl k4
    exact ⟨_, tail, .empty k1 k2 k3, g, by rw [k5]; simp⟩
  · obtain ⟨es, u, s2, tail', s', g1, g2, rfl, g3, g4⟩ := acc_inside tail.length le_rfl k4
    cases g3
    obtain ⟨rfl, g⟩ := acc_after tail'.length le_rfl g4
    exact ⟨_, tail', .full k1 k2 k3 g1 g2, g, by rw [k5]; simp⟩

/-- Before the root, after the first character or the declaration. -/
theorem acc_before : ∀ (N : Nat) {cs : List Char}, cs.length ≤ N → Acc e ⟨.text, [], none⟩ cs →
    ∃ s t u, Misc s ∧ Layout e t ∧ Misc u ∧ cs = s ++ t ++ u
  | _, [], _, h => nomatch h
  | 0, _ :: _, hN, _ => absurd hN (by simp)
  | N + 1, c :: cs, hN, h => by
    have hN : cs.length ≤ N := by simpa using hN
    have hh := acc_cons h
    clear h
    obtain ⟨s', hs, h⟩ := hh
    simp only [step] at hs
    split at hs
    · rename_i hc
      obtain rfl : c = '<' := by simpa using hc
      cases hs
      rcases cs with _ | ⟨d, ds⟩
      · exact nomatch h
      have hN : ds.length + 1 ≤ N := by simpa using hN
      have hh := acc_cons h
      clear h
      obtain ⟨s', hs, h⟩ := hh
      simp only [step] at hs
      split at hs
      · cases hs
        obtain ⟨n, s, tail, s', -, -, h2, -⟩ := acc_close h
        cases h2
      · split at hs
        · rename_i hd
          obtain rfl : d = '!' := by simpa using hd
          cases hs
          obtain ⟨cm, tail, h1, h2, h3⟩ := acc_bang h
          have hl := congrArg List.length h2
          obtain ⟨b, rfl, -⟩ := id h1
          simp only [List.length_cons, List.length_append] at hl
          have hlen : 7 ≤ "<!--".toList.length + "-->".toList.length := by decide
          obtain ⟨s, t, u, g1, g2, g3, rfl⟩ := acc_before N (by omega) h3
          exact ⟨_, t, u, misc_comment h1 g1, g2, g3, by rw [h2]; simp only [List.append_assoc]⟩
        · split at hs
          · rename_i hd
            cases hs
            obtain ⟨t, u, g1, g2, g3⟩ := acc_root hd h
            exact ⟨[], t, u, .blank (by simp [Blank]), g1, g2, g3⟩
          · cases hs
    · split at hs
      · cases hs
      · split at hs
        · cases hs
        · rename_i hc
          cases hs
          obtain ⟨s, t, u, g1, g2, g3, rfl⟩ := acc_before N hN h
          exact ⟨c :: s, t, u, misc_cons (by simpa using hc) g1, g2, g3, rfl⟩

theorem document_of_parse {t : List Char} (h : parseXml t = some e) : XmlDocument e t := by
  have h : Acc e ⟨.start, [], none⟩ t := h
  rcases t with _ | ⟨c, cs⟩
  · exact nomatch h
  have hh := acc_cons h
  clear h
  obtain ⟨s', hs, h⟩ := hh
  simp only [step] at hs
  split at hs
  · rename_i hc
    obtain rfl : c = '<' := by simpa using hc
    cases hs
    rcases cs with _ | ⟨d, ds⟩
    · exact nomatch h
    have hh := acc_cons h
    clear h
    obtain ⟨s', hs, h⟩ := hh
    simp only [step] at hs
    split at hs
    · rename_i hd
      obtain rfl : d = '?' := by simpa using hd
      cases hs
      rcases acc_decl ds false h with ⟨h, -⟩ | ⟨b, tail, rfl, h1, h2⟩
      · cases h
      obtain ⟨s, t, u, g1, g2, g3, rfl⟩ := acc_before tail.length le_rfl h2
      have := XmlDocument.declared ⟨b, rfl, h1⟩ g1 g2 g3
      simpa using this
    · split at hs
      · rename_i hd
        obtain rfl : d = '!' := by simpa using hd
        cases hs
        obtain ⟨cm, tail, h1, h2, h3⟩ := acc_bang h
        obtain ⟨s, t, u, g1, g2, g3, rfl⟩ := acc_before tail.length le_rfl h3
        have := XmlDocument.bare (misc_comment h1 g1) g2 g3
        rw [h2]
        simpa using this
      · split at hs
        · rename_i hd
          cases hs
          obtain ⟨t, u, g1, g2, g3⟩ := acc_root hd h
          have := XmlDocument.bare (s := []) (.blank (by simp [Blank])) g1 g2
          rw [g3]
          exact this
        · cases hs
  · split at hs
    · rename_i hc
      cases hs
      obtain ⟨s, t, u, g1, g2, g3, rfl⟩ := acc_before cs.length le_rfl h
      exact .bare (s := c :: s) (misc_cons hc g1) g2 g3
    · cases hs

end XmlText
end Nrf
