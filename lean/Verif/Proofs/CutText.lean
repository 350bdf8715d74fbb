import Verif.Proofs.EntryText
import Verif.Spec.CutText

set_option linter.unusedSectionVars false

/-!
# Reading a log which breaks off
-/

namespace Nrf
open Spec

/-! Complete lines. -/

theorem unl_last : ∀ {ls : List (List Char)}, ls ≠ [] → ∃ t, unl ls = t ++ ['\n']
  | [], h => absurd rfl h
  | [l], _ => ⟨l, by simp [unl]⟩
  | l :: l' :: ls, _ => by
    obtain ⟨t, ht⟩ := unl_last (ls := l' :: ls) (by simp)
    exact ⟨l ++ '\n' :: t, by rw [unl_cons, ht]; simp⟩

theorem wholeLines_unl (ls : List (List Char)) {u : List Char} (hu : '\n' ∉ u) : wholeLines (unl ls ++ u) = unl ls := by
  unfold wholeLines
  have h : ∀ c ∈ u.reverse, (decide (c ≠ '\n')) = true := by
    intro c hc
    simp only [List.mem_reverse] at hc
    exact decide_eq_true fun h => hu (h ▸ hc)
  rw [List.reverse_append, List.dropWhile_append_of_pos h]
  by_cases hl : ls = []
  · subst hl
    simp [unl]
  · obtain ⟨t, ht⟩ := unl_last hl
    rw [ht]
    simp

theorem prefix_unl : ∀ {ls : List (List Char)} {t : List Char}, (∀ l ∈ ls, '\n' ∉ l) → t <+: unl ls →
    ∃ l' u, l' <+: ls ∧ t = unl l' ++ u ∧ '\n' ∉ u
  | [], t, _, h => ⟨[], [], List.prefix_rfl, by simpa [unl] using h, by simp⟩
  | l :: ls, t, hn, h => by
    rw [unl_cons] at h
    rcases List.prefix_or_prefix_of_prefix h (List.prefix_append l ('\n' :: unl ls)) with h1 | ⟨t1, ht1⟩
    · exact ⟨[], t, List.nil_prefix, by simp [unl], fun hm => hn l (by simp) (h1.subset hm)⟩
    · subst ht1
      rw [List.prefix_append_right_inj] at h
      rcases t1 with - | ⟨c, t2⟩
      · exact ⟨[], l, List.nil_prefix, by simp [unl], hn l (by simp)⟩
      · rw [List.cons_prefix_cons] at h
        obtain ⟨rfl, h⟩ := h
        obtain ⟨l', u, h1, h2, h3⟩ := prefix_unl (fun m hm => hn m (by simp [hm])) h
        exact ⟨l :: l', u, by rw [List.cons_prefix_cons]; exact ⟨rfl, h1⟩, by rw [unl_cons, h2]; simp, h3⟩

/-! Reading the first lines. -/

/-- Whatever is read of the first lines satisfies `R`. -/
def Along (R : List TextEvent × Bool → Prop) (st : List TextEvent × Bool) (ls : List (List Char)) : Prop :=
  ∀ l', l' <+: ls → R (l'.foldl readLine st)

theorem along_nil {R st} (h : R st) : Along R st [] := fun l' hl => by
  rw [List.prefix_nil.1 hl]
  exact h

theorem along_cons {R st l ls} (h : R st) (h' : Along R (readLine st l) ls) : Along R st (l :: ls) := fun l' hl => by
  rcases l' with - | ⟨a, l'⟩
  · exact h
  · rw [List.cons_prefix_cons] at hl
    obtain ⟨rfl, hl⟩ := hl
    exact h' l' hl

theorem along_append {R st a b} (h : Along R st a) (h' : Along R (a.foldl readLine st) b) : Along R st (a ++ b) :=
  fun l' hl => by
    rcases List.prefix_or_prefix_of_prefix hl (List.prefix_append a b) with h1 | ⟨t, rfl⟩
    · exact h l' h1
    · rw [List.prefix_append_right_inj] at hl
      rw [List.foldl_append]
      exact h' t hl

/-- A part of the event, or nothing of it, has been read. -/
def PartRead (o : Option TextEvent) (s : List TextEvent) (st : List TextEvent × Bool) : Prop :=
  st.1 = s ∨ ∃ ev0 ev, o = some ev ∧ st.1 = ev0 :: s ∧ PartOf ev0 ev

section
variable {F : Type} [Scalar F] {n : Nat}

theorem along_rows {num : F → List Char} (hnum : PlainNum num) (x : Vec F n) (r : ResidualsValues F n) (e : Vec F n)
    (R : List TextEvent × Bool → Prop) (mk : List TextRow → TextEvent) (evs : List TextEvent) (b : List TextRow → Bool)
    (hmk : ∀ rows row, (mk rows).addRow row = mk (rows ++ [row]))
    (all : List TextRow) (hR : ∀ rows b, rows <+: all → R (mk rows :: evs, b)) :
    ∀ (xs : List (Fin n)) (rows : List TextRow),
    all = rows ++ (xs.map fun i => ⟨natText i, num (x i), num (r.left i), num (r.right i), num (e i)⟩) →
    Along R (mk rows :: evs, true) (xs.flatMap fun (i : Fin n) =>
      [logRow num i.val (x i) (r.left i) (r.right i) (e i), separationLine])
  | [], rows, h => along_nil (hR _ _ (h ▸ List.prefix_append _ _))
  | i :: xs, rows, h => by
    have h1 : readLine (mk rows :: evs, true) (logRow num i.val (x i) (r.left i) (r.right i) (e i)) =
        (mk (rows ++ [⟨natText i, num (x i), num (r.left i), num (r.right i), num (e i)⟩]) :: evs, true) := by
      unfold readLine
      rw [if_pos rfl, if_neg (by rw [logRow_eq]; simp), if_pos (by rw [logRow_eq]; rfl), readRow_logRow hnum, ← hmk]
      rfl
    have h2 : ∀ s : List TextEvent, readLine (s, true) separationLine = (s, true) := fun s => by
      unfold readLine
      rw [if_pos rfl, if_neg (by decide +kernel), if_neg (by decide +kernel)]
    have hall : all = (rows ++ [⟨natText i, num (x i), num (r.left i), num (r.right i), num (e i)⟩]) ++
        (xs.map fun i => ⟨natText i, num (x i), num (r.left i), num (r.right i), num (e i)⟩) := by rw [h]; simp
    rw [List.flatMap_cons, List.cons_append, List.cons_append, List.nil_append]
    refine along_cons (hR _ _ (h ▸ List.prefix_append _ _)) ?_
    rw [h1]
    refine along_cons (hR _ _ (hall ▸ List.prefix_append _ _)) ?_
    rw [h2]
    exact along_rows hnum x r e R mk evs b hmk all hR xs _ hall

theorem along_table {num : F → List Char} (hnum : PlainNum num) (x : Vec F n) (r : ResidualsValues F n) (e : Vec F n)
    (R : List TextEvent × Bool → Prop) (mk : List TextRow → TextEvent) (evs : List TextEvent)
    (hmk : ∀ rows row, (mk rows).addRow row = mk (rows ++ [row]))
    (hR : ∀ rows b, rows <+: Spec.rows num x r e → R (mk rows :: evs, b)) :
    Along R (mk [] :: evs, false) (tableLines num x r e) := by
  have sepT : ∀ s : List TextEvent, readLine (s, true) separationLine = (s, true) := fun s => by
    unfold readLine
    rw [if_pos rfl, if_neg (by decide +kernel), if_neg (by decide +kernel)]
  have h0 : ∀ b, R (mk [] :: evs, b) := fun b => hR [] b List.nil_prefix
  have hend : ∀ (xs : List (Fin n)) rows, xs.foldl (fun (ev : TextEvent) (i : Fin n) =>
      ev.addRow ⟨natText i, num (x i), num (r.left i), num (r.right i), num (e i)⟩) (mk rows) =
      mk (rows ++ xs.map fun i => ⟨natText i, num (x i), num (r.left i), num (r.right i), num (e i)⟩) := by
    intro xs
    induction xs with
    | nil => intro rows; simp
    | cons i xs ih => intro rows; rw [List.foldl_cons, hmk, ih]; simp
  unfold tableLines
  refine along_append (along_append ?_ ?_) ?_
  · refine along_cons (h0 _) ?_
    rw [idle_nil]
    refine along_cons (h0 _) ?_
    rw [idle_sep]
    refine along_cons (h0 _) ?_
    rw [readLine_title]
    refine along_cons (h0 _) ?_
    rw [sepT]
    exact along_nil (h0 _)
  · simp only [List.foldl_cons, List.foldl_nil, idle_nil _, idle_sep _, readLine_title, sepT]
    exact along_rows hnum x r e R mk evs (fun _ => true) hmk _ hR _ [] (by rw [List.nil_append]; rfl)
  · rw [List.foldl_append]
    simp only [List.foldl_cons, List.foldl_nil, idle_nil _, idle_sep _, readLine_title, sepT]
    rw [foldl_rows hnum, hend]
    have hall : [] ++ (List.finRange n).map (fun (i : Fin n) => (⟨natText i, num (x i), num (r.left i), num (r.right i), num (e i)⟩ : TextRow)) =
        Spec.rows num x r e := rfl
    rw [hall]
    refine along_cons (hR _ _ List.prefix_rfl) ?_
    rw [readLine_end]
    exact along_nil (hR _ _ List.prefix_rfl)

/-- The lines of an entry, read one after the other. -/
theorem entry_along {num : F → List Char} {mat : Mat F n → List Char} (hnum : PlainNum num) (hmat : MatrixLines mat)
    (c : Config F n) (fd : Bool) {its : List (List Char)} (hits : ∀ t ∈ its, '\n' ∉ t) (en : LogEntry F n) :
    ∃ ls, en.text num mat c fd its = unl ls ∧ (∀ l ∈ ls, '\n' ∉ l) ∧ ∀ s, Along (PartRead (Spec.event num en) s) (s, false) ls := by
  have quiet : ∀ {t : List Char} {ls o}, t = unl ls ∧ Quiet ls → ∃ ls, t = unl ls ∧
      (∀ l ∈ ls, '\n' ∉ l) ∧ ∀ s, Along (PartRead o s) (s, false) ls := fun {t ls o} h =>
    ⟨ls, h.1, fun l hl => (h.2 l hl).1, fun s l' hl => .inl (by rw [foldl_idle fun l hm => (h.2 l (hl.subset hm)).2])⟩
  have table : ∀ (x : Vec F n) r e, ∀ l ∈ (lit "Max error: " ++ num (amax e)) :: tableLines num x r e, '\n' ∉ l := by
    intro x r e l hl
    have hs : '\n' ∉ separationLine := by decide +kernel
    have ht : '\n' ∉ titleLine := by decide +kernel
    rcases List.mem_cons.1 hl with rfl | hl
    · rw [List.mem_append, not_or]
      exact ⟨by decide, (hnum _).2.2.2⟩
    · unfold tableLines at hl
      rcases List.mem_append.1 hl with hl | hl
      · rcases List.mem_append.1 hl with hl | hl
        · simp only [List.mem_cons, List.not_mem_nil, or_false] at hl
          rcases hl with hl | hl | hl | hl <;> rw [hl]
          · simp
          · exact hs
          · exact ht
          · exact hs
        · obtain ⟨i, -, hl⟩ := List.mem_flatMap.1 hl
          simp only [List.mem_cons, List.not_mem_nil, or_false] at hl
          rcases hl with hl | hl <;> rw [hl]
          · exact logRow_newline hnum _ _ _ _ _
          · exact hs
      · simp only [List.mem_cons, List.not_mem_nil, or_false] at hl
        rw [hl]; simp
  cases en with
  | header =>
    obtain ⟨ls, h⟩ := header_quiet
    exact quiet h
  | parameters =>
    refine quiet (ls := parameterLines num c.params ++ iterativeLines fd its ++ residualLines c.res) ⟨?_, ?_⟩
    · rw [unl_append, unl_append, ← parameters_lines, ← iteratives_lines, ← residuals_lines]
      rfl
    · exact ((parameters_quiet hnum _).append (iteratives_quiet fd hits)).append (residuals_quiet _)
  | iteration k x r e =>
    refine ⟨[separationIter, [], lit "Iteration: " ++ natText k, []] ++
      ((lit "Max error: " ++ num (amax e)) :: tableLines num x r e), ?_, ?_, fun s => ?_⟩
    · rw [unl_append, ← iterationTable_lines]
      simp only [unl_cons, unl_nil]
      show (separationIter ++ lit "\n\n") ++ (lit "Iteration: " ++ natText k ++ lit "\n\n") ++ iterationTable num x r e = _
      rw [show lit "\n\n" = ['\n', '\n'] from rfl]
      simp
    · intro l hl
      rcases List.mem_append.1 hl with hl | hl
      · simp only [List.mem_cons, List.not_mem_nil, or_false] at hl
        rcases hl with rfl | rfl | rfl | rfl
        · decide +kernel
        · simp
        · rw [List.mem_append, not_or]
          exact ⟨by decide, (natText_plain _).2.2.2⟩
        · simp
      · exact table x r e l hl
    · have h0 : Idle separationIter := .of (by decide +kernel)
      have hs : ∀ b, PartRead (Spec.event num (.iteration k x r e)) s (s, b) := fun b => .inl rfl
      have h1 : ∀ b, PartRead (Spec.event num (.iteration k x r e)) s (.iteration (natText k) [] [] :: s, b) :=
        fun b => .inr ⟨_, _, rfl, rfl, rfl, .inr ⟨rfl, rfl⟩, List.nil_prefix⟩
      refine along_append ?_ ?_
      · refine along_cons (hs _) ?_
        rw [h0]
        refine along_cons (hs _) ?_
        rw [idle_nil]
        refine along_cons (hs _) ?_
        rw [readLine_iteration]
        refine along_cons (h1 _) ?_
        rw [idle_nil]
        exact along_nil (h1 _)
      · simp only [List.foldl_cons, List.foldl_nil, h0 _, idle_nil _, readLine_iteration]
        refine along_cons (h1 _) ?_
        rw [readLine_max]
        exact along_table hnum x r e _ (fun rows => .iteration (natText k) (num (amax e)) rows) s (fun _ _ => rfl)
          fun rows b h => .inr ⟨_, _, rfl, rfl, rfl, .inl rfl, h⟩
  | damping x r e =>
    refine ⟨[lit "Damping activated !", []] ++
      ((lit "Max error: " ++ num (amax e)) :: tableLines num x r e), ?_, ?_, fun s => ?_⟩
    · rw [unl_append, ← iterationTable_lines]
      show lit "Damping activated !\n\n" ++ iterationTable num x r e = _
      congr 1
    · intro l hl
      rcases List.mem_append.1 hl with hl | hl
      · simp only [List.mem_cons, List.not_mem_nil, or_false] at hl
        rcases hl with rfl | rfl
        · decide
        · simp
      · exact table x r e l hl
    · have h0 : readLine (s, false) (lit "Damping activated !") = (.damping [] [] :: s, false) := rfl
      have hs : ∀ b, PartRead (Spec.event num (.damping x r e)) s (s, b) := fun b => .inl rfl
      have h1 : ∀ b, PartRead (Spec.event num (.damping x r e)) s (.damping [] [] :: s, b) :=
        fun b => .inr ⟨_, _, rfl, rfl, .inr ⟨rfl, rfl⟩, List.nil_prefix⟩
      refine along_append ?_ ?_
      · refine along_cons (hs _) ?_
        rw [h0]
        refine along_cons (h1 _) ?_
        rw [idle_nil]
        exact along_nil (h1 _)
      · simp only [List.foldl_cons, List.foldl_nil, h0, idle_nil _]
        refine along_cons (h1 _) ?_
        rw [readLine_max]
        exact along_table hnum x r e _ (fun rows => .damping (num (amax e)) rows) s (fun _ _ => rfl)
          fun rows b h => .inr ⟨_, _, rfl, rfl, .inl rfl, h⟩
  | refused =>
    refine ⟨[lit "Iteration refused, the jacobian will be recomputed at the next iteration", []], ?_, ?_, fun s => ?_⟩
    · show lit "Iteration refused, the jacobian will be recomputed at the next iteration\n\n" = _
      decide +kernel
    · intro l hl
      simp only [List.mem_cons, List.not_mem_nil, or_false] at hl
      rcases hl with rfl | rfl
      · decide +kernel
      · simp
    · refine along_cons (.inl rfl) ?_
      rw [show readLine (s, false) (lit "Iteration refused, the jacobian will be recomputed at the next iteration") =
        (.refused :: s, false) from rfl]
      refine along_cons (.inr ⟨_, _, rfl, rfl, trivial⟩) ?_
      rw [idle_nil]
      exact along_nil (.inr ⟨_, _, rfl, rfl, trivial⟩)
  | jacobian j =>
    obtain ⟨ls, h⟩ := jacobian_lines hmat j
    exact quiet h

/-- The lines of a log. -/
theorem log_lines {num : F → List Char} {mat : Mat F n → List Char} (hnum : PlainNum num) (hmat : MatrixLines mat)
    (c : Config F n) (fd : Bool) {its : List (List Char)} (hits : ∀ t ∈ its, '\n' ∉ t) :
    ∀ l : List (LogEntry F n), ∃ ls, logText num mat c fd its l = unl ls ∧ (∀ m ∈ ls, '\n' ∉ m) ∧
      ∀ s, ls.foldl readLine (s, false) = ((l.filterMap (Spec.event num)).reverse ++ s, false)
  | [] => ⟨[], rfl, by simp, fun s => rfl⟩
  | en :: l => by
    obtain ⟨a, a1, a2, a3⟩ := entry_read hnum hmat c fd hits en
    obtain ⟨b, b1, b2, b3⟩ := log_lines hnum hmat c fd hits l
    refine ⟨a ++ b, ?_, fun m hm => ?_, fun s => ?_⟩
    · rw [unl_append, ← a1, ← b1]
      exact List.flatMap_cons
    · rcases List.mem_append.1 hm with h | h
      · exact a2 m h
      · exact b2 m h
    · rw [List.foldl_append, a3, b3]
      cases h : Spec.event num en with
      | none => rw [List.filterMap_cons_none h]; rfl
      | some ev => rw [List.filterMap_cons_some h]; simp

end
end Nrf
