import Verif.Proofs.ReadText

set_option linter.unusedSectionVars false

namespace Nrf
open Spec

section
variable {F : Type} [Scalar F] {n : Nat}

theorem entry_read {num : F → List Char} {mat : Mat F n → List Char} (hnum : PlainNum num) (hmat : MatrixLines mat)
    (c : Config F n) (fd : Bool) {its : List (List Char)} (hits : ∀ t ∈ its, '\n' ∉ t) (en : LogEntry F n) :
    ∃ ls, en.text num mat c fd its = unl ls ∧ (∀ l ∈ ls, '\n' ∉ l) ∧
      ∀ s, ls.foldl readLine (s, false) = ((Spec.event num en).toList ++ s, false) := by
  have quiet : ∀ {t : List Char} {ls}, t = unl ls ∧ Quiet ls → ∃ ls, t = unl ls ∧ (∀ l ∈ ls, '\n' ∉ l) ∧
      ∀ s, ls.foldl readLine (s, false) = (s, false) := fun {t ls} h =>
    ⟨ls, h.1, fun l hl => (h.2 l hl).1, foldl_idle fun l hl => (h.2 l hl).2⟩
  have table : ∀ (x : Vec F n) r e, ∀ l ∈ (lit "Max error: " ++ num (amax e)) :: tableLines num x r e, '\n' ∉ l := by
    intro x r e l hl
    have hs : '\n' ∉ separationLine := by decide +kernel
    have ht : '\n' ∉ titleLine := by decide +kernel
    rcases List.mem_cons.1 hl with rfl | hl
    · rw [List.mem_append, not_or]
      exact ⟨by decide, (hnum _).2.2.2⟩
    · unfold tableLines at hl
      rcases List.mem_append.1 hl with hl | hl
      · rcases List.mem_append.1 hl with hl | hl
        · simp only [List.mem_cons, List.not_mem_nil, or_false] at hl
          rcases hl with hl | hl | hl | hl <;> rw [hl]
          · simp
          · exact hs
          · exact ht
          · exact hs
        · obtain ⟨i, -, hl⟩ := List.mem_flatMap.1 hl
          simp only [List.mem_cons, List.not_mem_nil, or_false] at hl
          rcases hl with hl | hl <;> rw [hl]
          · exact logRow_newline hnum _ _ _ _ _
          · exact hs
      · simp only [List.mem_cons, List.not_mem_nil, or_false] at hl
        rw [hl]; simp
  cases en with
  | header =>
    obtain ⟨ls, h⟩ := header_quiet
    exact quiet h
  | parameters =>
    refine quiet (ls := parameterLines num c.params ++ iterativeLines fd its ++ residualLines c.res) ⟨?_, ?_⟩
    · rw [unl_append, unl_append, ← parameters_lines, ← iteratives_lines, ← residuals_lines]
      rfl
    · exact ((parameters_quiet hnum _).append (iteratives_quiet fd hits)).append (residuals_quiet _)
  | iteration k x r e =>
    refine ⟨[separationIter, [], lit "Iteration: " ++ natText k, []] ++
      ((lit "Max error: " ++ num (amax e)) :: tableLines num x r e), ?_, ?_, fun s => ?_⟩
    · rw [unl_append, ← iterationTable_lines]
      simp only [unl_cons, unl_nil]
      show (separationIter ++ lit "\n\n") ++ (lit "Iteration: " ++ natText k ++ lit "\n\n") ++ iterationTable num x r e = _
      rw [show lit "\n\n" = ['\n', '\n'] from rfl]
      simp
    · intro l hl
      rcases List.mem_append.1 hl with hl | hl
      · simp only [List.mem_cons, List.not_mem_nil, or_false] at hl
        rcases hl with rfl | rfl | rfl | rfl
        · decide +kernel
        · simp
        · rw [List.mem_append, not_or]
          exact ⟨by decide, (natText_plain _).2.2.2⟩
        · simp
      · exact table x r e l hl
    · have h0 : Idle separationIter := .of (by decide +kernel)
      rw [List.foldl_append]
      simp only [List.foldl_cons, List.foldl_nil, h0 _, idle_nil _, readLine_iteration, readLine_max]
      rw [show onNewest (.setMax (num (amax e))) (.iteration (natText k) [] [] :: s) =
        .iteration (natText k) (num (amax e)) [] :: s from rfl, foldl_table hnum, (foldl_addRow _ _ _ _ _).1]
      rfl
  | damping x r e =>
    refine ⟨[lit "Damping activated !", []] ++
      ((lit "Max error: " ++ num (amax e)) :: tableLines num x r e), ?_, ?_, fun s => ?_⟩
    · rw [unl_append, ← iterationTable_lines]
      show lit "Damping activated !\n\n" ++ iterationTable num x r e = _
      congr 1
    · intro l hl
      rcases List.mem_append.1 hl with hl | hl
      · simp only [List.mem_cons, List.not_mem_nil, or_false] at hl
        rcases hl with rfl | rfl
        · decide
        · simp
      · exact table x r e l hl
    · have h0 : readLine (s, false) (lit "Damping activated !") = (.damping [] [] :: s, false) := rfl
      rw [List.foldl_append]
      simp only [List.foldl_cons, List.foldl_nil, h0, idle_nil _, readLine_max]
      rw [show onNewest (.setMax (num (amax e))) (.damping [] [] :: s) =
        .damping (num (amax e)) [] :: s from rfl, foldl_table hnum, (foldl_addRow _ _ [] _ _).2]
      rfl
  | refused =>
    refine ⟨[lit "Iteration refused, the jacobian will be recomputed at the next iteration", []], ?_, ?_, fun s => ?_⟩
    · show lit "Iteration refused, the jacobian will be recomputed at the next iteration\n\n" = _
      decide +kernel
    · intro l hl
      simp only [List.mem_cons, List.not_mem_nil, or_false] at hl
      rcases hl with rfl | rfl
      · decide +kernel
      · simp
    · simp only [List.foldl_cons, List.foldl_nil]
      rw [show readLine (s, false) (lit "Iteration refused, the jacobian will be recomputed at the next iteration") =
        (.refused :: s, false) from rfl, idle_nil]
      rfl
  | jacobian j =>
    obtain ⟨ls, h⟩ := jacobian_lines hmat j
    exact quiet h

/-- Lists are determined by their images on the entries with an image. -/
theorem filter_of_filterMap {α β : Type} {p : α → Bool} {f : α → Option β} (hp : ∀ a, p a = (f a).isSome)
    (inj : ∀ a b, p a = true → p b = true → f a = f b → a = b) {l l' : List α}
    (h : l.filterMap f = l'.filterMap f) : l.filter p = l'.filter p := by
  have h1 : ∀ l : List α, (l.filter p).map f = (l.filterMap f).map some := by
    intro l
    induction l with
    | nil => rfl
    | cons a l ih =>
      cases ha : f a with
      | none => rw [List.filterMap_cons_none ha, List.filter_cons_of_neg (by rw [hp, ha]; simp), ih]
      | some b =>
        rw [List.filterMap_cons_some ha, List.filter_cons_of_pos (by rw [hp, ha]; rfl), List.map_cons, List.map_cons,
          ih, ha]
  have h2 : ∀ m m' : List α, (∀ a ∈ m, p a = true) → (∀ a ∈ m', p a = true) → m.map f = m'.map f → m = m' := by
    intro m
    induction m with
    | nil => intro m' _ _ h; exact (List.map_eq_nil_iff.1 h.symm).symm
    | cons a m ih =>
      intro m' hm hm' h
      cases m' with
      | nil => cases h
      | cons b m' =>
        obtain ⟨h3, h4⟩ := List.cons.inj h
        rw [inj a b (hm a (by simp)) (hm' b (by simp)) h3,
          ih m' (fun c hc => hm c (by simp [hc])) (fun c hc => hm' c (by simp [hc])) h4]
  exact h2 _ _ (fun a ha => (List.mem_filter.1 ha).2) (fun a ha => (List.mem_filter.1 ha).2) (by rw [h1, h1, h])

end
end Nrf
