import Verif.Model.XmlText
import Verif.Spec.XmlLayout

/-!
# The parser reads every layout of an element tree
-/

namespace Nrf
namespace XmlText
open Spec

theorem run_append (a b : List Char) : ∀ s, run s (a ++ b) = (run s a).bind fun s => run s b := by
  induction a with
  | nil => intro s; rfl
  | cons c cs ih =>
    intro s
    simp only [List.cons_append, run]
    cases step s c with
    | none => rfl
    | some s' => exact ih s'

theorem run_cons (c : Char) (cs : List Char) (s : State) : run s (c :: cs) = (step s c).bind fun s => run s cs := rfl

theorem isSpace_of {c : Char} (h : c ∈ [' ', '\t', '\n', '\r']) : isSpace c = true := by
  simp only [List.mem_cons, List.not_mem_nil, or_false] at h
  rcases h with rfl | rfl | rfl | rfl <;> decide

theorem not_name {c : Char} (h : isSpace c = true) : isNameChar c = false ∧ isNameStart c = false := by
  simp only [isSpace, Bool.or_eq_true, beq_iff_eq] at h
  rcases h with ((rfl | rfl) | rfl) | rfl <;> exact ⟨by decide, by decide⟩

theorem space_ne {c d : Char} (h : isSpace c = true) (hd : isSpace d = false) : (c == d) = false := by
  rw [beq_eq_false_iff_ne]
  rintro rfl
  rw [h] at hd
  cases hd

theorem name_ne {c d : Char} (h : isNameStart c = true) (hd : isNameStart d = false) : (c == d) = false := by
  rw [beq_eq_false_iff_ne]
  rintro rfl
  rw [h] at hd
  cases hd

variable {st : List Frame} {r : Option Element}

/-! ### Between the tags -/

theorem run_blank {s : List Char} (h : Blank s) (rest : List Char) :
    run ⟨.text, st, r⟩ (s ++ rest) = run ⟨.text, st, r⟩ rest := by
  induction s with
  | nil => rfl
  | cons c cs ih =>
    have hc := isSpace_of (h c (by simp))
    rw [List.cons_append, run_cons]
    simp only [step, space_ne hc (by decide : isSpace '<' = false), space_ne hc (by decide : isSpace '&' = false), hc,
      Bool.not_true, Bool.and_false, Bool.false_eq_true, if_false, Option.bind_some]
    exact ih fun d hd => h d (by simp [hd])

theorem run_text {s : List Char} (h : ∀ c ∈ s, c ≠ '<' ∧ c ≠ '&') (hst : st ≠ []) (rest : List Char) :
    run ⟨.text, st, r⟩ (s ++ rest) = run ⟨.text, st, r⟩ rest := by
  obtain ⟨f, fs, rfl⟩ := List.exists_cons_of_ne_nil hst
  induction s with
  | nil => rfl
  | cons c cs ih =>
    obtain ⟨h1, h2⟩ := h c (by simp)
    rw [List.cons_append, run_cons]
    simp only [step, beq_eq_false_iff_ne.2 h1, beq_eq_false_iff_ne.2 h2, List.isEmpty_cons, Bool.false_and,
      Bool.false_eq_true, if_false, Option.bind_some]
    exact ih fun d hd => h d (by simp [hd])

theorem run_body (rest : List Char) : ∀ body : List Char, ¬ ['-', '-'] <:+: body → ¬ ['-'] <:+ body →
    run ⟨.comment, st, r⟩ (body ++ ("-->".toList ++ rest)) = run ⟨.text, st, r⟩ rest ∧
    (body.head?.all (· ≠ '-') = true → body ≠ [] →
      run ⟨.dash, st, r⟩ (body ++ ("-->".toList ++ rest)) = run ⟨.text, st, r⟩ rest)
  | [], _, _ => ⟨rfl, fun _ h => absurd rfl h⟩
  | c :: cs, h1, h2 => by
    have h1' : ¬ ['-', '-'] <:+: cs := fun h => h1 (h.trans (List.suffix_cons c cs).isInfix)
    have h2' : ¬ ['-'] <:+ cs := fun h => h2 (h.trans (List.suffix_cons c cs))
    obtain ⟨ih1, ih2⟩ := run_body rest cs h1' h2'
    constructor
    · rw [List.cons_append, run_cons]
      by_cases hc : c = '-'
      · subst hc
        refine ih2 ?_ ?_
        · rcases cs with _ | ⟨d, ds⟩
          · rfl
          · simp only [List.head?_cons, Option.all_some, decide_eq_true_eq]
            rintro rfl
            exact h1 ⟨[], ds, rfl⟩
        · rintro rfl
          exact h2 (List.suffix_refl _)
      · simp only [step, beq_eq_false_iff_ne.2 hc, Bool.false_eq_true, if_false, Option.bind_some]
        exact ih1
    · intro hh _
      have hc : c ≠ '-' := by simpa using hh
      rw [List.cons_append, run_cons]
      simp only [step, beq_eq_false_iff_ne.2 hc, Bool.false_eq_true, if_false, Option.bind_some]
      exact ih1

theorem run_comment {c : List Char} (h : Comment c) (rest : List Char) :
    run ⟨.text, st, r⟩ (c ++ rest) = run ⟨.text, st, r⟩ rest := by
  obtain ⟨body, rfl, h1, h2⟩ := h
  rw [List.append_assoc, List.append_assoc]
  exact (run_body rest body h1 h2).1

theorem run_misc {s : List Char} (h : Misc s) (rest : List Char) :
    run ⟨.text, st, r⟩ (s ++ rest) = run ⟨.text, st, r⟩ rest := by
  induction h generalizing rest with
  | blank h => exact run_blank h rest
  | comment hs hc ht ih => rw [List.append_assoc, List.append_assoc, ih, run_comment hc, run_blank ht]

theorem run_content {s : List Char} (h : Content s) (hst : st ≠ []) (rest : List Char) :
    run ⟨.text, st, r⟩ (s ++ rest) = run ⟨.text, st, r⟩ rest := by
  induction h generalizing rest with
  | text h => exact run_text h hst rest
  | comment hs hc ht ih => rw [List.append_assoc, List.append_assoc, ih, run_comment hc, run_text ht hst]

theorem run_declaration {d : List Char} (h : Declaration d) (rest : List Char) :
    run ⟨.start, [], none⟩ (d ++ rest) = run ⟨.text, [], none⟩ rest := by
  obtain ⟨body, rfl, h1⟩ := h
  have key : ∀ (body : List Char) (q : Bool), ¬ ['?', '>'] <:+: (if q then '?' :: body else body) →
      run ⟨.decl q, [], none⟩ (body ++ ("?>".toList ++ rest)) = run ⟨.text, [], none⟩ rest := by
    intro body
    induction body with
    | nil => rintro (_ | _) _ <;> rfl
    | cons c cs ih =>
      intro q hq
      have hgt : (q && c == '>') = false := by
        rcases q with _ | _
        · rfl
        · rw [Bool.true_and, beq_eq_false_iff_ne]
          rintro rfl
          exact hq ⟨[], cs, rfl⟩
      rw [List.cons_append, run_cons]
      simp only [step, hgt, Bool.false_eq_true, if_false, Option.bind_some]
      refine ih _ fun h => hq ?_
      have hs : (if (c == '?') = true then '?' :: cs else cs) <:+ (if q = true then '?' :: c :: cs else c :: cs) := by
        have h1 : (if (c == '?') = true then '?' :: cs else cs) <:+ c :: cs := by
          split
          · rename_i h; rw [beq_iff_eq] at h; rw [h]; exact List.suffix_refl _
          · exact List.suffix_cons c cs
        rcases q with _ | _
        · exact h1
        · exact h1.trans (List.suffix_cons _ _)
      exact h.trans hs.isInfix
  rw [List.append_assoc, List.append_assoc]
  exact key body false h1

/-! ### Names -/

theorem nameChar_of {c : Char} (h : c.isAlphanum ∨ c ∈ ['_', '-', '.']) : isNameChar c = true := by
  simp only [isNameChar, Bool.or_eq_true, beq_iff_eq]
  simp only [List.mem_cons, List.not_mem_nil, or_false] at h
  tauto

theorem nameStart_of {c : Char} (h : c.isAlpha ∨ c = '_') : isNameStart c = true := by
  simp only [isNameStart, Bool.or_eq_true, beq_iff_eq]
  exact h

/-- Modes which collect name characters. -/
theorem run_nameChars (mode : List Char → Mode)
    (hmode : ∀ n c, isNameChar c = true → step ⟨mode n, st, r⟩ c = some ⟨mode (c :: n), st, r⟩) (rest : List Char) :
    ∀ (cs n : List Char), (∀ d ∈ cs, d.isAlphanum ∨ d ∈ ['_', '-', '.']) →
      run ⟨mode n, st, r⟩ (cs ++ rest) = run ⟨mode (cs.reverse ++ n), st, r⟩ rest
  | [], _, _ => rfl
  | c :: cs, n, h => by
    rw [List.cons_append, run_cons, hmode n c (nameChar_of (h c (by simp))), Option.bind_some,
      run_nameChars mode hmode rest cs (c :: n) fun d hd => h d (by simp [hd])]
    simp

theorem run_name {n : String} (h : Name n) (rest : List Char) :
    run ⟨.lt, st, r⟩ (n.toList ++ rest) = run ⟨.name n.toList.reverse, st, r⟩ rest := by
  obtain ⟨c, cs, e, hc, hcs⟩ := h
  have hc := nameStart_of hc
  rw [e, List.cons_append, run_cons]
  simp only [step, name_ne hc (by decide : isNameStart '/' = false), name_ne hc (by decide : isNameStart '!' = false),
    hc, Bool.false_eq_true, if_false, if_true, Option.bind_some]
  rw [run_nameChars Mode.name (fun n c h => by simp only [step, h, if_true]) rest cs [c] hcs]
  simp

theorem run_closeName {n : String} (h : Name n) (rest : List Char) :
    run ⟨.close, st, r⟩ (n.toList ++ rest) = run ⟨.closeName n.toList.reverse, st, r⟩ rest := by
  obtain ⟨c, cs, e, hc, hcs⟩ := h
  rw [e, List.cons_append, run_cons]
  simp only [step, nameStart_of hc, if_true, Option.bind_some]
  rw [run_nameChars Mode.closeName (fun n c h => by simp only [step, h, if_true]) rest cs [c] hcs]
  simp

theorem run_key {n : List Char} {a : Attrs} {k : String} (h : Name k) (rest : List Char) :
    run ⟨.tag n a, st, r⟩ (k.toList ++ rest) = run ⟨.key n a k.toList.reverse, st, r⟩ rest := by
  obtain ⟨c, cs, e, hc, hcs⟩ := h
  have hc := nameStart_of hc
  have hs : isSpace c = false := by
    by_contra hn
    rw [Bool.not_eq_false] at hn
    rw [(not_name hn).2] at hc
    cases hc
  rw [e, List.cons_append, run_cons]
  simp only [step, hs, hc, Bool.false_eq_true, if_false, if_true, Option.bind_some]
  rw [run_nameChars (Mode.key n a) (fun n c h => by simp only [step, h, if_true]) rest cs [c] hcs]
  simp

theorem textOf_reverse (s : String) : textOf s.toList.reverse = s := by
  simp [textOf]

/-! ### Attributes -/

/-- The places in an opening tag where an attribute or the end may follow. -/
inductive InTag (n : List Char) (a : Attrs) : Mode → Prop
  | name (h : a = []) : InTag n a (.name n)
  | tag : InTag n a (.tag n a)
  | valueEnd : InTag n a (.valueEnd n a)

theorem inTag_space {n : List Char} {a : Attrs} {m : Mode} (hm : InTag n a m) {c : Char} (hc : isSpace c = true) :
    step ⟨m, st, r⟩ c = some ⟨.tag n a, st, r⟩ := by
  rcases hm with h | _ | _
  · subst h
    simp only [step, (not_name hc).1, hc, Bool.false_eq_true, if_false, if_true]
  · simp only [step, hc, if_true]
  · simp only [step, hc, if_true]

theorem run_tagBlank {n : List Char} {a : Attrs} (rest : List Char) : ∀ {s : List Char}, Blank s →
    run ⟨.tag n a, st, r⟩ (s ++ rest) = run ⟨.tag n a, st, r⟩ rest
  | [], _ => rfl
  | c :: cs, h => by
    rw [List.cons_append, run_cons, inTag_space .tag (isSpace_of (h c (by simp))), Option.bind_some]
    exact run_tagBlank rest fun d hd => h d (by simp [hd])

theorem run_inTagBlank {n : List Char} {a : Attrs} {m : Mode} (hm : InTag n a m) {s : List Char} (h : Blank s) :
    ∃ m', InTag n a m' ∧ (s ≠ [] → m' = .tag n a) ∧
      ∀ rest, run ⟨m, st, r⟩ (s ++ rest) = run ⟨m', st, r⟩ rest := by
  rcases s with _ | ⟨c, cs⟩
  · exact ⟨m, hm, fun h => absurd rfl h, fun _ => rfl⟩
  · refine ⟨.tag n a, .tag, fun _ => rfl, fun rest => ?_⟩
    rw [List.cons_append, run_cons, inTag_space hm (isSpace_of (h c (by simp))), Option.bind_some]
    exact run_tagBlank rest fun d hd => h d (by simp [hd])

theorem run_keyBlank {n : List Char} {a : Attrs} {k : List Char} (rest : List Char) {s : List Char} (h : Blank s) :
    run ⟨.key n a k, st, r⟩ (s ++ '=' :: rest) = run ⟨.equals n a k, st, r⟩ rest := by
  have key : ∀ s, Blank s → run ⟨.keySpace n a k, st, r⟩ (s ++ '=' :: rest) = run ⟨.equals n a k, st, r⟩ rest := by
    intro s
    induction s with
    | nil => intro _; rfl
    | cons c cs ih =>
      intro h
      rw [List.cons_append, run_cons]
      simp only [step, isSpace_of (h c (by simp)), if_true, Option.bind_some]
      exact ih fun d hd => h d (by simp [hd])
  rcases s with _ | ⟨c, cs⟩
  · rfl
  · have hc := isSpace_of (h c (by simp))
    rw [List.cons_append, run_cons]
    simp only [step, hc, (not_name hc).1, Bool.false_eq_true, if_false, if_true, Option.bind_some]
    exact key cs fun d hd => h d (by simp [hd])

theorem run_equals {n : List Char} {a : Attrs} {k : List Char} {q : Char} (hq : q = '"' ∨ q = '\'') (rest : List Char) :
    ∀ {s : List Char}, Blank s →
      run ⟨.equals n a k, st, r⟩ (s ++ q :: rest) = run ⟨.value n a k q [], st, r⟩ rest
  | [], _ => by rcases hq with rfl | rfl <;> rfl
  | c :: cs, h => by
    rw [List.cons_append, run_cons]
    simp only [step, isSpace_of (h c (by simp)), if_true, Option.bind_some]
    exact run_equals hq rest fun d hd => h d (by simp [hd])

theorem run_value {n : List Char} {a : Attrs} {k : List Char} {q : Char} (rest : List Char) :
    ∀ (v w : List Char), q ∉ v → (∀ c ∈ v, c ∉ ['<', '&', '\t', '\n', '\r']) →
      run ⟨.value n a k q w, st, r⟩ (v ++ q :: rest) =
        (addAttr a k (v.reverse ++ w)).bind fun a => run ⟨.valueEnd n a, st, r⟩ rest
  | [], w, _, _ => by
    rw [List.nil_append, run_cons]
    simp only [step, beq_self_eq_true, if_true, List.reverse_nil, List.nil_append]
    cases addAttr a k w <;> rfl
  | c :: cs, w, hq, hv => by
    have h1 : (c == q) = false := beq_eq_false_iff_ne.2 fun h => hq (by simp [h])
    have h2 : (c == '<' || c == '&' || c == '\t' || c == '\n' || c == '\r') = false := by
      have := hv c (by simp)
      simp only [List.mem_cons, List.not_mem_nil, or_false, not_or] at this
      simp only [Bool.or_eq_false_iff, beq_eq_false_iff_ne]
      tauto
    rw [List.cons_append, run_cons]
    simp only [step, h1, h2, Bool.false_eq_true, if_false, Option.bind_some]
    rw [run_value rest cs (c :: w) (fun h => hq (by simp [h])) fun d hd => hv d (by simp [hd])]
    simp

theorem addAttr_some {a : Attrs} {k v : String} (hk : k ∉ a.map (·.1)) (hx : k ≠ "xmlns") :
    addAttr a k.toList.reverse (v.toList.reverse ++ []) = some ((k, v) :: a) := by
  rw [addAttr, List.append_nil, textOf_reverse, textOf_reverse, if_neg]
  rw [Bool.or_eq_true, not_or]
  refine ⟨?_, by simpa using hx⟩
  rw [List.any_eq_true]
  rintro ⟨x, hx, he⟩
  rw [beq_iff_eq] at he
  exact hk (List.mem_map.2 ⟨x, hx, he⟩)

theorem run_attrs {n : List Char} {as : Attrs} {t : List Char} (h : AttrsText as t) :
    (∀ x ∈ as, Name x.1 ∧ x.1 ≠ "xmlns") → (∀ x ∈ as, ∀ c ∈ x.2.toList, c ∉ ['<', '&', '\t', '\n', '\r']) →
    ∀ (a : Attrs) (m : Mode), InTag n a m → ((as.map (·.1)).reverse ++ a.map (·.1)).Nodup →
    ∃ m', InTag n (as.reverse ++ a) m' ∧ ∀ rest, run ⟨m, st, r⟩ (t ++ rest) = run ⟨m', st, r⟩ rest := by
  induction h with
  | nil => intro _ _ a m hm _; exact ⟨m, hm, fun _ => rfl⟩
  | @cons k v as s t ts hs hne h hr ih =>
    intro hk hv a m hm hd
    obtain ⟨s1, s2, q, h1, h2, hq, hqv, rfl⟩ := h
    obtain ⟨m1, -, hm1, hrun⟩ := run_inTagBlank (st := st) (r := r) hm hs
    obtain rfl := hm1 hne
    obtain ⟨hk1, hk2⟩ := hk (k, v) (by simp)
    simp only [List.map_cons, List.reverse_cons, List.append_assoc, List.singleton_append] at hd
    have hka : k ∉ a.map (·.1) := by
      have := (List.nodup_append.1 hd).2.1
      exact (List.nodup_cons.1 this).1
    obtain ⟨m', hm', hrun'⟩ := ih (fun x hx => hk x (by simp [hx])) (fun x hx => hv x (by simp [hx])) ((k, v) :: a)
      (.valueEnd n ((k, v) :: a)) .valueEnd (by simpa using hd)
    refine ⟨m', by simpa using hm', fun rest => ?_⟩
    rw [List.append_assoc, List.append_assoc, hrun]
    simp only [List.append_assoc, List.cons_append, List.nil_append]
    rw [run_key hk1, run_keyBlank _ h1, run_equals hq _ h2, run_value _ _ _ hqv (hv (k, v) (by simp)),
      addAttr_some hka hk2, Option.bind_some, hrun']

theorem inTag_slash {n : List Char} {a : Attrs} {m : Mode} (hm : InTag n a m) :
    step ⟨m, st, r⟩ '/' = some ⟨.slash n a, st, r⟩ := by
  rcases hm with h | _ | _
  · subst h; rfl
  · rfl
  · rfl

theorem inTag_gt {n : List Char} {a : Attrs} {m : Mode} (hm : InTag n a m) :
    step ⟨m, st, r⟩ '>' = openTag n a st r := by
  rcases hm with h | _ | _
  · subst h; rfl
  · rfl
  · rfl

/-! ### Elements -/

theorem run_open {n : String} {a : Attrs} {t s : List Char} (hp : Plain n a) (ht : AttrsText a t) (hs : Blank s) :
    ∃ m, InTag n.toList.reverse a.reverse m ∧
      ∀ rest, run ⟨.text, st, r⟩ ('<' :: n.toList ++ t ++ s ++ rest) = run ⟨m, st, r⟩ rest := by
  obtain ⟨m, hm, hrun⟩ := run_attrs (st := st) (r := r) (n := n.toList.reverse) ht hp.keys hp.values [] _ (.name rfl)
    (by rw [List.map_nil, List.append_nil]; exact List.pairwise_reverse.2 (hp.distinct.imp fun h => h.symm))
  rw [List.append_nil] at hm
  obtain ⟨m', hm', -, hrun'⟩ := run_inTagBlank (st := st) (r := r) hm hs
  refine ⟨m', hm', fun rest => ?_⟩
  rw [List.append_assoc, List.append_assoc, List.cons_append, run_cons]
  change run ⟨.lt, st, r⟩ _ = _
  rw [run_name hp.name, hrun, hrun']

theorem run_close {n : String} (h : Name n) {s : List Char} (hs : Blank s) (rest : List Char) :
    run ⟨.text, st, r⟩ ("</".toList ++ (n.toList ++ (s ++ '>' :: rest))) =
      (closeTag n.toList.reverse st r).bind fun s => run s rest := by
  change run ⟨.close, st, r⟩ (n.toList ++ (s ++ '>' :: rest)) = _
  rw [run_closeName h]
  have key : ∀ s, Blank s → run ⟨.closeSpace n.toList.reverse, st, r⟩ (s ++ '>' :: rest) =
      (closeTag n.toList.reverse st r).bind fun s => run s rest := by
    intro s
    induction s with
    | nil => intro _; rfl
    | cons c cs ih =>
      intro h
      rw [List.cons_append, run_cons]
      simp only [step, isSpace_of (h c (by simp)), if_true, Option.bind_some]
      exact ih fun d hd => h d (by simp [hd])
  rcases s with _ | ⟨c, cs⟩
  · rfl
  · have hc := isSpace_of (hs c (by simp))
    rw [List.cons_append, run_cons]
    simp only [step, hc, (not_name hc).1, Bool.false_eq_true, if_false, if_true, Option.bind_some]
    exact key cs fun d hd => hs d (by simp [hd])

mutual
theorem run_layout {e : Element} {t : List Char} : Layout e t → ∀ {st : List Frame} {r : Option Element} (rest : List Char),
    (st ≠ [] ∨ r = none) → run ⟨.text, st, r⟩ (t ++ rest) = (finish e st r).bind fun s => run s rest
  | .empty hp ht hs, st, r, rest, _ => by
    obtain ⟨m, hm, hrun⟩ := run_open (st := st) (r := r) hp ht hs
    rw [List.append_assoc, hrun]
    change run _ ('/' :: '>' :: rest) = _
    rw [run_cons, inTag_slash hm, Option.bind_some, run_cons]
    change (emptyTag _ _ st r).bind _ = _
    rw [emptyTag, textOf_reverse, List.reverse_reverse]
  | .full (n := n) (a := a) (es := es) (u := u) (s' := s') hp ht hs hu hs', st, r, rest, hst => by
    obtain ⟨m, hm, hrun⟩ := run_open (st := st) (r := r) hp ht hs
    simp only [List.append_assoc, List.cons_append, List.nil_append] at hrun ⊢
    rw [hrun, run_cons, inTag_gt hm, openTag, textOf_reverse, List.reverse_reverse, if_neg (by
      rw [Bool.and_eq_true]
      rintro ⟨h1, h2⟩
      rcases hst with h | rfl
      · exact h (List.isEmpty_iff.1 h1)
      · cases h2), Option.bind_some, run_layouts hu, run_close hp.name hs', closeTag, textOf_reverse]
    simp
theorem run_layouts {es : List Element} {u : List Char} : Layouts es u → ∀ {f : Frame} {fs : List Frame}
    {r : Option Element} (rest : List Char), run ⟨.text, f :: fs, r⟩ (u ++ rest) =
      run ⟨.text, { f with children := es.reverse ++ f.children } :: fs, r⟩ rest
  | .nil hu, f, fs, r, rest => by rw [run_content hu (by simp)]; rfl
  | .cons hu he hv, f, fs, r, rest => by
    rw [List.append_assoc, List.append_assoc, run_content hu (by simp), run_layout he _ (.inl (by simp)), finish,
      Option.bind_some, run_layouts hv]
    simp
end

/-- Without a declaration the first character is read like the others. -/
theorem run_start {e : Element} : ∀ {t : List Char}, (run ⟨.text, [], none⟩ t).bind result = some e →
    (run ⟨.start, [], none⟩ t).bind result = some e
  | [], h => nomatch h
  | c :: cs, h => by
    rw [run_cons] at h ⊢
    by_cases hc : c = '<'
    · subst hc
      rcases cs with _ | ⟨d, ds⟩
      · exact nomatch h
      · change ((step ⟨.lt, [], none⟩ d).bind fun s => run s ds).bind result = some e at h
        change ((step ⟨.startLt, [], none⟩ d).bind fun s => run s ds).bind result = some e
        by_cases h1 : d = '/'
        · subst h1
          exact absurd h (by
            change ¬ (run ⟨.close, [], none⟩ ds).bind result = some e
            have key : ∀ ds n, (run ⟨.closeSpace n, [], none⟩ ds).bind result ≠ some e := by
              intro ds
              induction ds with
              | nil => intro n h; exact nomatch h
              | cons c cs ih =>
                intro n h
                simp only [run_cons, step] at h
                split at h
                · exact ih n h
                · split at h <;> exact nomatch h
            have key2 : ∀ ds n, (run ⟨.closeName n, [], none⟩ ds).bind result ≠ some e := by
              intro ds
              induction ds with
              | nil => intro n h; exact nomatch h
              | cons c cs ih =>
                intro n h
                simp only [run_cons, step] at h
                split at h
                · exact ih _ h
                · split at h
                  · exact key _ _ h
                  · split at h <;> exact nomatch h
            rcases ds with _ | ⟨c, cs⟩
            · intro h; exact nomatch h
            · intro h
              simp only [run_cons, step] at h
              split at h
              · exact key2 _ _ h
              · exact nomatch h)
        · by_cases h2 : d = '?'
          · subst h2; exact nomatch h
          · have h1 : (d == '/') = false := beq_eq_false_iff_ne.2 h1
            have h2 : (d == '?') = false := beq_eq_false_iff_ne.2 h2
            simp only [step, h1, h2, Bool.false_eq_true, if_false] at h ⊢
            exact h
    · have hc : (c == '<') = false := beq_eq_false_iff_ne.2 hc
      simp only [step, hc, Bool.false_eq_true, if_false] at h ⊢
      split at h
      · exact nomatch h
      · split at h
        · exact nomatch h
        · rename_i h1
          have : isSpace c = true := by simpa using h1
          rw [if_pos this]
          exact h

theorem parseXml_document {e : Element} {t : List Char} (h : XmlDocument e t) : parseXml t = some e := by
  have key : ∀ {s t u : List Char}, Misc s → Layout e t → Misc u →
      (run ⟨.text, [], none⟩ (s ++ t ++ u)).bind result = some e := by
    intro s t u hs ht hu
    rw [List.append_assoc, run_misc hs, run_layout ht _ (.inr rfl), finish, Option.bind_some, ← List.append_nil u,
      run_misc hu]
    rfl
  rcases h with ⟨hs, ht, hu⟩ | ⟨hd, hs, ht, hu⟩
  · exact run_start (key hs ht hu)
  · rw [parseXml, List.append_assoc, List.append_assoc, run_declaration hd, ← List.append_assoc]
    exact key hs ht hu

end XmlText
end Nrf
