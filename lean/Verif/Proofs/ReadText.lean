import Verif.Model.Text
import Verif.Spec.ReadText
import Mathlib.Tactic.Common

set_option linter.unusedSectionVars false

namespace Nrf
open Spec

/-! ## Cutting -/

theorem cut_ne_nil (c : Char) : ∀ t, cut c t ≠ []
  | [] => by simp [cut]
  | a :: t => by
    unfold cut
    split
    · simp
    · split <;> simp

theorem cut_plain {c : Char} : ∀ {t : List Char}, c ∉ t → cut c t = [t]
  | [], _ => rfl
  | a :: t, h => by
    have h1 : a ≠ c := fun e => h (by simp [e])
    have h2 : c ∉ t := fun e => h (by simp [e])
    simp [cut, h1, cut_plain h2]

theorem cut_append {c : Char} : ∀ {t : List Char} (rest : List Char), c ∉ t →
    cut c (t ++ c :: rest) = t :: cut c rest
  | [], _, _ => by simp [cut]
  | a :: t, rest, h => by
    have h1 : a ≠ c := fun e => h (by simp [e])
    have h2 : c ∉ t := fun e => h (by simp [e])
    simp [cut, h1, cut_append rest h2]

/-- Lines, each ended by a line end. -/
def unl (ls : List (List Char)) : List Char := ls.flatMap (· ++ ['\n'])

theorem unl_nil : unl [] = [] := rfl
theorem unl_cons (l : List Char) (ls) : unl (l :: ls) = l ++ '\n' :: unl ls := by simp [unl]
theorem unl_append (a b : List (List Char)) : unl (a ++ b) = unl a ++ unl b := by simp [unl]

theorem cut_unl : ∀ {ls : List (List Char)}, (∀ l ∈ ls, '\n' ∉ l) → ∀ rest,
    cut '\n' (unl ls ++ rest) = ls ++ cut '\n' rest
  | [], _, rest => by simp [unl_nil]
  | l :: ls, h, rest => by
    rw [unl_cons, List.append_assoc, List.cons_append, cut_append _ (h l (by simp)),
      cut_unl (fun m hm => h m (by simp [hm]))]
    rfl

/-! ## Rows -/

/-- A text without the characters the reader relies on. -/
def Plain (t : List Char) : Prop := ' ' ∉ t ∧ '|' ∉ t ∧ '=' ∉ t ∧ '\n' ∉ t

theorem filter_plain {t : List Char} (h : Plain t) : t.filter (· ≠ ' ') = t :=
  List.filter_eq_self.2 fun a ha => by
    have : a ≠ ' ' := fun e => h.1 (e ▸ ha)
    simpa using this

theorem filter_spaces (k : Nat) : (List.replicate k ' ').filter (· ≠ ' ') = [] :=
  List.filter_eq_nil_iff.2 fun a ha => by simp [List.eq_of_mem_replicate ha]

theorem filter_pad {w : Nat} {t : List Char} : (pad w t).filter (· ≠ ' ') = t.filter (· ≠ ' ') := by
  unfold pad; rw [List.filter_append, filter_spaces, List.append_nil]

theorem filter_padLeft {w : Nat} {t : List Char} : (padLeft w t).filter (· ≠ ' ') = t.filter (· ≠ ' ') := by
  unfold padLeft; rw [List.filter_append, filter_spaces, List.nil_append]

theorem mem_pad {w : Nat} {t : List Char} {c : Char} (hc : c ≠ ' ') : c ∈ pad w t ↔ c ∈ t := by
  unfold pad
  rw [List.mem_append]
  refine ⟨fun h => h.elim id fun h => absurd (List.eq_of_mem_replicate h) hc, Or.inl⟩

theorem mem_padLeft {w : Nat} {t : List Char} {c : Char} (hc : c ≠ ' ') : c ∈ padLeft w t ↔ c ∈ t := by
  unfold padLeft
  rw [List.mem_append]
  refine ⟨fun h => h.elim (fun h => absurd (List.eq_of_mem_replicate h) hc) id, Or.inr⟩

theorem natText_digit {k : Nat} {c : Char} (h : c ∈ natText k) : c.isDigit = true :=
  Nat.isDigit_of_mem_toDigits (by decide) (by decide) h

theorem natText_plain (k : Nat) : Plain (natText k) := by
  refine ⟨fun h => ?_, fun h => ?_, fun h => ?_, fun h => ?_⟩ <;> exact absurd (natText_digit h) (by decide)

theorem natText_injective : Function.Injective natText := fun a b h => by
  have : Nat.ofDigitChars 10 (natText a) 0 = Nat.ofDigitChars 10 (natText b) 0 := by rw [h]
  simpa [natText, Nat.ofDigitChars_ten_toDigits] using this

section
variable {F : Type} {n : Nat} {num : F → List Char} {mat : Mat F n → List Char}

/-- Number texts have none of the characters the reader relies on. -/
abbrev PlainNum (num : F → List Char) : Prop := ∀ x, Plain (num x)

theorem equation_filter (hnum : PlainNum num) (l r : F) :
    (equationText num l r).filter (· ≠ ' ') = num l ++ '=' :: num r := by
  unfold equationText
  rw [List.filter_append, List.filter_append, filter_pad, filter_padLeft, filter_plain (hnum l),
    filter_plain (hnum r), show (lit " = ").filter (· ≠ ' ') = ['='] from by decide]
  simp

theorem equation_mem (hnum : PlainNum num) (l r : F) : '|' ∉ equationText num l r ∧ '\n' ∉ equationText num l r := by
  unfold equationText
  constructor <;> intro h <;> rw [List.mem_append, List.mem_append, mem_pad (by decide), mem_padLeft (by decide)] at h
  · rcases h with (h | h) | h
    · exact (hnum l).2.1 h
    · exact absurd h (by decide)
    · exact (hnum r).2.1 h
  · rcases h with (h | h) | h
    · exact (hnum l).2.2.2 h
    · exact absurd h (by decide)
    · exact (hnum r).2.2.2 h

theorem logRow_eq (i : Nat) (x l r e : F) : logRow num i x l r e =
    [] ++ '|' :: ((' ' :: pad 6 (natText i)) ++ '|' :: ((' ' :: pad 30 (num x)) ++ '|' ::
      ((' ' :: pad 30 (equationText num l r)) ++ '|' :: ((' ' :: (pad 30 (num e) ++ [' ', ' '])) ++ '|' :: [])))) := by
  unfold logRow
  rw [show lit "| " = ['|', ' '] from rfl, show lit "  |" = [' ', ' ', '|'] from rfl]
  simp

theorem readRow_logRow (hnum : PlainNum num) (i : Nat) (x l r e : F) :
    readRow (logRow num i x l r e) = some ⟨natText i, num x, num l, num r, num e⟩ := by
  have sp : ∀ {t : List Char} {w}, '|' ∉ t → '|' ∉ ' ' :: pad w t := by
    intro t w h h'
    rcases List.mem_cons.1 h' with h' | h'
    · exact absurd h' (by decide)
    · exact h ((mem_pad (by decide)).1 h')
  have e1 : '|' ∉ ' ' :: (pad 30 (num e) ++ [' ', ' ']) := by
    intro h'
    rcases List.mem_cons.1 h' with h' | h'
    · exact absurd h' (by decide)
    · rcases List.mem_append.1 h' with h' | h'
      · exact (hnum e).2.1 ((mem_pad (by decide)).1 h')
      · exact absurd h' (by decide)
  have f : ∀ {t : List Char} {w}, (' ' :: pad w t).filter (· ≠ ' ') = t.filter (· ≠ ' ') := by
    intro t w; rw [List.filter_cons_of_neg (by decide), filter_pad]
  unfold readRow
  rw [logRow_eq, cut_append _ (by simp), cut_append _ (sp (natText_plain i).2.1), cut_append _ (sp (hnum x).2.1),
    cut_append _ (sp (equation_mem hnum l r).1), cut_append _ e1, show cut '|' [] = [[]] from rfl]
  simp only [List.map_cons, List.map_nil]
  rw [f, f, f, filter_plain (natText_plain i), filter_plain (hnum x), equation_filter hnum,
    List.filter_cons_of_neg (by decide), List.filter_append, filter_pad, filter_plain (hnum e),
    show ([' ', ' '] : List Char).filter (· ≠ ' ') = [] from by decide, List.append_nil]
  simp only [List.filter_nil]
  rw [cut_append _ (hnum l).2.2.1, cut_plain (hnum r).2.2.1]

/-! ## The lines of the entries -/

theorem title_eq : titleLine = tableTitle := rfl

/-- The lines of a table, after the line of the largest error. -/
def tableLines (num : F → List Char) (x : Vec F n) (r : ResidualsValues F n) (e : Vec F n) : List (List Char) :=
  [[], separationLine, titleLine, separationLine] ++
    ((List.finRange n).flatMap fun (i : Fin n) =>
      [logRow num i.val (x i) (r.left i) (r.right i) (e i), separationLine]) ++ [[]]

theorem unl_flatMap {α : Type} (xs : List α) (f : α → List (List Char)) :
    unl (xs.flatMap f) = xs.flatMap fun a => unl (f a) := by
  unfold unl; rw [List.flatMap_assoc]

theorem iterationTable_lines [Scalar F] (x : Vec F n) (r : ResidualsValues F n) (e : Vec F n) :
    iterationTable num x r e = unl ((lit "Max error: " ++ num (amax e)) :: tableLines num x r e) := by
  unfold iterationTable tableLines
  simp only [unl_cons, unl_append, unl_flatMap, unl_nil]
  rw [show lit "\n\n" = ['\n', '\n'] from rfl, show lit "\n" = ['\n'] from rfl]
  simp

theorem logRow_newline (hnum : PlainNum num) (i : Nat) (x l r e : F) : '\n' ∉ logRow num i x l r e := by
  unfold logRow
  simp only [List.mem_append, mem_pad (show '\n' ≠ ' ' by decide), (natText_plain i).2.2.2, (hnum x).2.2.2,
    (hnum e).2.2.2, (equation_mem hnum l r).2]
  decide

theorem foldl_rows (hnum : PlainNum num) (x : Vec F n) (r : ResidualsValues F n) (e : Vec F n) :
    ∀ (xs : List (Fin n)) (ev : TextEvent) (evs : List TextEvent),
    (xs.flatMap fun (i : Fin n) =>
      [logRow num i.val (x i) (r.left i) (r.right i) (e i), separationLine]).foldl readLine (ev :: evs, true) =
    (xs.foldl (fun ev (i : Fin n) => ev.addRow ⟨natText i, num (x i), num (r.left i), num (r.right i), num (e i)⟩) ev
      :: evs, true)
  | [], _, _ => rfl
  | i :: xs, ev, evs => by
    have h1 : readLine (ev :: evs, true) (logRow num i.val (x i) (r.left i) (r.right i) (e i)) =
        (ev.addRow ⟨natText i, num (x i), num (r.left i), num (r.right i), num (e i)⟩ :: evs, true) := by
      unfold readLine
      rw [if_pos rfl, if_neg (by rw [logRow_eq]; simp), if_pos (by rw [logRow_eq]; rfl), readRow_logRow hnum]
      rfl
    have h2 : ∀ s : List TextEvent, readLine (s, true) separationLine = (s, true) := fun s => by
      unfold readLine
      rw [if_pos rfl, if_neg (by decide +kernel), if_neg (by decide +kernel)]
    simp only [List.flatMap_cons, List.cons_append, List.nil_append, List.foldl_cons, h1, h2]
    exact foldl_rows hnum x r e xs _ _

theorem foldl_addRow {α : Type} (g : α → TextRow) :
    ∀ (xs : List α) (k m : List Char) (rows : List TextRow),
      xs.foldl (fun (ev : TextEvent) i => ev.addRow (g i)) (.iteration k m rows) = .iteration k m (rows ++ xs.map g) ∧
      xs.foldl (fun (ev : TextEvent) i => ev.addRow (g i)) (.damping m rows) = .damping m (rows ++ xs.map g)
  | [], _, _, _ => by simp
  | a :: xs, k, m, rows => by
    have := foldl_addRow g xs k m (rows ++ [g a])
    exact ⟨this.1.trans (by simp), this.2.trans (by simp)⟩

theorem readLine_max (m : List Char) (s : List TextEvent) :
    readLine (s, false) (lit "Max error: " ++ m) = (onNewest (.setMax m) s, false) := by
  have h1 : after "Iteration: ".toList (lit "Max error: " ++ m) = none := rfl
  have h2 : after "Max error: ".toList (lit "Max error: " ++ m) = some m := by
    unfold after
    rw [if_pos (List.isPrefixOf_iff_prefix.2 (List.prefix_append _ _)), List.drop_left]
  unfold readLine
  rw [if_neg (by simp), h1, h2]

theorem readLine_iteration (k : List Char) (s : List TextEvent) :
    readLine (s, false) (lit "Iteration: " ++ k) = (.iteration k [] [] :: s, false) := by
  have h2 : after "Iteration: ".toList (lit "Iteration: " ++ k) = some k := by
    unfold after
    rw [if_pos (List.isPrefixOf_iff_prefix.2 (List.prefix_append _ _)), List.drop_left]
  unfold readLine
  rw [if_neg (by simp), h2]

/-- Lines which the reader passes over outside of a table. -/
def Idle (t : List Char) : Prop := ∀ s : List TextEvent, readLine (s, false) t = (s, false)

theorem Idle.of {t : List Char} (h : after "Iteration: ".toList t = none ∧ after "Max error: ".toList t = none ∧
    t ≠ "Damping activated !".toList ∧ "Iteration refused".toList.isPrefixOf t = false ∧ t ≠ tableTitle) : Idle t := by
  intro s
  unfold readLine
  rw [if_neg (by simp), h.1, h.2.1]
  simp only
  rw [if_neg h.2.2.1, h.2.2.2.1, if_neg (by decide), if_neg h.2.2.2.2]

theorem foldl_idle : ∀ {ls : List (List Char)} (_ : ∀ l ∈ ls, Idle l) (s : List TextEvent),
    ls.foldl readLine (s, false) = (s, false)
  | [], _, _ => rfl
  | l :: ls, h, s => by
    rw [List.foldl_cons, h l (by simp) s]
    exact foldl_idle (fun m hm => h m (by simp [hm])) s

theorem idle_nil : Idle [] := .of (by decide +kernel)
theorem idle_sep : Idle separationLine := .of (by decide +kernel)

theorem readLine_title (s : List TextEvent) : readLine (s, false) titleLine = (s, true) := by
  unfold readLine
  rw [if_neg (by simp), show after "Iteration: ".toList titleLine = none by decide +kernel,
    show after "Max error: ".toList titleLine = none by decide +kernel]
  simp only
  rw [if_neg (by decide +kernel), if_neg (by decide +kernel), if_pos title_eq]

theorem readLine_end (s : List TextEvent) : readLine (s, true) [] = (s, false) := rfl

theorem foldl_table (hnum : PlainNum num) (x : Vec F n) (r : ResidualsValues F n) (e : Vec F n) (ev : TextEvent)
    (evs : List TextEvent) : (tableLines num x r e).foldl readLine (ev :: evs, false) =
    ((List.finRange n).foldl (fun ev (i : Fin n) =>
      ev.addRow ⟨natText i, num (x i), num (r.left i), num (r.right i), num (e i)⟩) ev :: evs, false) := by
  have sepT : ∀ s : List TextEvent, readLine (s, true) separationLine = (s, true) := fun s => by
    unfold readLine
    rw [if_pos rfl, if_neg (by decide +kernel), if_neg (by decide +kernel)]
  unfold tableLines
  rw [List.foldl_append, List.foldl_append]
  simp only [List.foldl_cons, List.foldl_nil, idle_nil _, idle_sep _, readLine_title, sepT]
  rw [foldl_rows hnum, readLine_end]

/-- Table rows outside of the iteration tables: they begin with a bar, a space and a digit. -/
theorem idle_row {d : Char} (hd : d.isDigit = true) (t : List Char) : Idle ('|' :: ' ' :: d :: t) := by
  refine .of ⟨rfl, rfl, by simp, rfl, fun h => ?_⟩
  have h3 : ('|' :: ' ' :: d :: t)[2]? = tableTitle[2]? := by rw [h]
  have : d = 'I' := by simpa [show tableTitle[2]? = some 'I' by decide +kernel] using h3
  rw [this] at hd
  exact absurd hd (by decide)

theorem natText_cons (k : Nat) : ∃ d t, natText k = d :: t ∧ d.isDigit = true := by
  rcases h : natText k with _ | ⟨d, t⟩
  · exact absurd h Nat.toDigits_ne_nil
  · exact ⟨d, t, rfl, natText_digit (h ▸ List.mem_cons_self)⟩

theorem idle_bar (w i : Nat) (t : List Char) : Idle (lit "| " ++ (pad w (natText i) ++ t)) := by
  obtain ⟨d, u, h, hd⟩ := natText_cons i
  unfold pad
  rw [h]
  exact idle_row hd _

/-- Lines the reader passes over and which are lines. -/
def Quiet (ls : List (List Char)) : Prop := ∀ l ∈ ls, '\n' ∉ l ∧ Idle l

theorem Quiet.append {a b : List (List Char)} (ha : Quiet a) (hb : Quiet b) : Quiet (a ++ b) := fun l hl =>
  (List.mem_append.1 hl).elim (ha l) (hb l)

theorem Quiet.cons {a : List Char} {b : List (List Char)} (h : '\n' ∉ a) (h' : Idle a) (hb : Quiet b) :
    Quiet (a :: b) := fun l hl => (List.mem_cons.1 hl).elim (fun e => e ▸ ⟨h, h'⟩) (hb l)

theorem Quiet.nil : Quiet [] := fun _ h => absurd h (by simp)

theorem Quiet.flatMap {α : Type} {xs : List α} {f : α → List (List Char)} (h : ∀ a ∈ xs, Quiet (f a)) :
    Quiet (xs.flatMap f) := fun l hl => by
  obtain ⟨a, ha, hl⟩ := List.mem_flatMap.1 hl
  exact h a ha l hl

theorem method_text_newline (m : ResolutionMethod) : '\n' ∉ m.text := by
  rcases m with _ | q
  · decide
  · rcases q with _ | m | m
    · decide
    · cases m <;> decide
    · cases m <;> decide

theorem normalization_text_newline (m : NormalizationMethod) : '\n' ∉ m.text := by cases m <;> decide

/-- The lines of the parameters. -/
def parameterLines (num : F → List Char) (p : SolverParameters F) : List (List Char) :=
  [lit "Solver parameters", lit "=================", [], parametersSeparation, parametersHeader,
    parametersSeparation, p.row num, parametersSeparation, []]

theorem parameters_lines (p : SolverParameters F) : p.text num = unl (parameterLines num p) := by
  unfold SolverParameters.text parameterLines
  simp only [unl_cons, unl_nil]
  rw [show lit "Solver parameters\n" = lit "Solver parameters" ++ ['\n'] by decide +kernel,
    show lit "=================\n\n" = lit "=================" ++ ['\n', '\n'] by decide +kernel,
    show lit "\n" = ['\n'] from rfl]
  simp

theorem parameters_quiet (hnum : PlainNum num) (p : SolverParameters F) : Quiet (parameterLines num p) := by
  have hs : '\n' ∉ parametersSeparation := by decide +kernel
  have hi : Idle parametersSeparation := .of (by decide +kernel)
  have hr : '\n' ∉ p.row num := by
    have hb : '\n' ∉ boolText p.damping := by unfold boolText; split <;> decide
    unfold SolverParameters.row
    simp only [List.mem_append, mem_pad (show '\n' ≠ ' ' by decide), (natText_plain _).2.2.2, (hnum _).2.2.2,
      method_text_newline, hb]
    decide
  refine .cons (by decide +kernel) (.of (by decide +kernel)) <| .cons (by decide +kernel) (.of (by decide +kernel)) <|
    .cons (by simp) idle_nil <| .cons hs hi <| .cons (by decide +kernel) (.of (by decide +kernel)) <| .cons hs hi <|
    .cons hr ?_ <| .cons hs hi <| .cons (by simp) idle_nil .nil
  unfold SolverParameters.row
  simp only [List.append_assoc]
  exact idle_bar 15 _ _

/-- The lines of the iteratives. -/
def iterativeLines (fd : Bool) (ts : List (List Char)) : List (List Char) :=
  [lit "Iteratives parameters", lit "=====================", [], iterativesSeparation fd, iterativesHeader fd,
    iterativesSeparation fd] ++
    (ts.zipIdx.flatMap fun p => [iterativesRow p.2 p.1, iterativesSeparation fd]) ++ [[]]

theorem iteratives_lines (fd : Bool) (ts : List (List Char)) : iterativesText fd ts = unl (iterativeLines fd ts) := by
  unfold iterativesText iterativeLines
  simp only [unl_cons, unl_append, unl_flatMap, unl_nil]
  rw [show lit "Iteratives parameters\n" = lit "Iteratives parameters" ++ ['\n'] by decide +kernel,
    show lit "=====================\n\n" = lit "=====================" ++ ['\n', '\n'] by decide +kernel,
    show lit "\n" = ['\n'] from rfl]
  simp

theorem iteratives_quiet (fd : Bool) {ts : List (List Char)} (hts : ∀ t ∈ ts, '\n' ∉ t) :
    Quiet (iterativeLines fd ts) := by
  have hs : '\n' ∉ iterativesSeparation fd := by cases fd <;> decide +kernel
  have hi : Idle (iterativesSeparation fd) := by cases fd <;> exact .of (by decide +kernel)
  have hh : '\n' ∉ iterativesHeader fd := by cases fd <;> decide +kernel
  have hh' : Idle (iterativesHeader fd) := by cases fd <;> exact .of (by decide +kernel)
  refine .append (.append (.cons (by decide +kernel) (.of (by decide +kernel)) <|
    .cons (by decide +kernel) (.of (by decide +kernel)) <|
    .cons (by simp) idle_nil <| .cons hs hi <| .cons hh hh' <| .cons hs hi .nil) (.flatMap fun p hp => ?_))
    (.cons (by simp) idle_nil .nil)
  refine .cons ?_ ?_ (.cons hs hi .nil)
  · have h1 : '\n' ∉ p.1 := hts _ (List.fst_mem_of_mem_zipIdx hp)
    unfold iterativesRow
    simp only [List.mem_append, mem_pad (show '\n' ≠ ' ' by decide), (natText_plain _).2.2.2, h1]
    decide
  · unfold iterativesRow
    simp only [List.append_assoc]
    exact idle_bar 10 _ _

/-- The lines of the residuals. -/
def residualLines (res : ResConf n) : List (List Char) :=
  [lit "Residuals configuration", lit "=======================", [], residualsSeparation, residualsHeader,
    residualsSeparation] ++
    ((List.finRange n).flatMap fun (i : Fin n) => [residualsRow i.val (res.stop i) (res.upd i)]) ++
    [residualsSeparation, []]

theorem residuals_lines (res : ResConf n) : res.text = unl (residualLines res) := by
  unfold ResConf.text residualLines
  simp only [unl_cons, unl_append, unl_flatMap, unl_nil]
  rw [show lit "Residuals configuration\n" = lit "Residuals configuration" ++ ['\n'] by decide +kernel,
    show lit "=======================\n\n" = lit "=======================" ++ ['\n', '\n'] by decide +kernel,
    show lit "\n" = ['\n'] from rfl]
  simp

theorem residuals_quiet (res : ResConf n) : Quiet (residualLines res) := by
  have hs : '\n' ∉ residualsSeparation := by decide +kernel
  have hi : Idle residualsSeparation := .of (by decide +kernel)
  refine .append (.append (.cons (by decide +kernel) (.of (by decide +kernel)) <|
    .cons (by decide +kernel) (.of (by decide +kernel)) <|
    .cons (by simp) idle_nil <| .cons hs hi <| .cons (by decide +kernel) (.of (by decide +kernel)) <| .cons hs hi .nil)
    (.flatMap fun i _ => .cons ?_ ?_ .nil)) (.cons hs hi <| .cons (by simp) idle_nil .nil)
  · unfold residualsRow
    simp only [List.mem_append, mem_pad (show '\n' ≠ ' ' by decide), (natText_plain _).2.2.2,
      normalization_text_newline]
    decide
  · unfold residualsRow
    simp only [List.append_assoc]
    exact idle_bar 18 _ _

/-- The text of a matrix is a number of complete lines, none of which begins with a letter or a bar. -/
abbrev MatrixLines (mat : Mat F n → List Char) : Prop :=
  ∀ m, ∃ ls : List (List Char), mat m = ls.flatMap (· ++ ['\n']) ∧
    ∀ l ∈ ls, '\n' ∉ l ∧ l.head? ≠ some 'I' ∧ l.head? ≠ some 'D' ∧ l.head? ≠ some 'M' ∧ l.head? ≠ some '|'

theorem idle_head {t : List Char} (h1 : t.head? ≠ some 'I') (h2 : t.head? ≠ some 'D') (h3 : t.head? ≠ some 'M')
    (h4 : t.head? ≠ some '|') : Idle t := by
  rcases t with _ | ⟨a, t⟩
  · exact idle_nil
  · have e1 : ('I' == a) = false := by simpa using fun e : 'I' = a => h1 (by rw [← e]; rfl)
    have e3 : ('M' == a) = false := by simpa using fun e : 'M' = a => h3 (by rw [← e]; rfl)
    refine .of ⟨?_, ?_, fun h => ?_, ?_, fun h => ?_⟩
    · unfold after
      rw [if_neg (by
        rw [show "Iteration: ".toList = 'I' :: "teration: ".toList by decide, List.isPrefixOf_cons_cons, e1]; simp)]
    · unfold after
      rw [if_neg (by
        rw [show "Max error: ".toList = 'M' :: "ax error: ".toList by decide, List.isPrefixOf_cons_cons, e3]; simp)]
    · rw [h] at h2; exact h2 (by decide)
    · rw [show "Iteration refused".toList = 'I' :: "teration refused".toList by decide, List.isPrefixOf_cons_cons, e1]
      rfl
    · rw [h] at h4; exact h4 (by decide +kernel)

def jacPart (mat : Mat F n → List Char) : Option (Mat F n) → List Char
  | some jac => lit "Jacobian up to date with its inverse\n\n" ++ lit "Jacobian:\n" ++ mat jac
  | none => lit "Jacobian not up to date with its inverse.\n" ++ lit "The update of the inverse is more recent\n"

def invPart (mat : Mat F n → List Char) : Option (Mat F n) → List Char
  | some inv => mat inv
  | none => lit "Inverse jacobian matrix not yet computed"

theorem jacPart_none : jacPart mat none = lit "Jacobian not up to date with its inverse.\n" ++
    lit "The update of the inverse is more recent\n" := rfl
theorem jacPart_some (m : Mat F n) : jacPart mat (some m) =
    lit "Jacobian up to date with its inverse\n\n" ++ lit "Jacobian:\n" ++ mat m := rfl
theorem invPart_none : invPart mat none = lit "Inverse jacobian matrix not yet computed" := rfl
theorem invPart_some (m : Mat F n) : invPart mat (some m) = mat m := rfl

theorem jacobian_text (j : JacobianMatrix F n) : j.text mat = lit "Jacobian matrix\n" ++ lit "=================\n\n" ++
    jacPart mat j.matrix ++ lit "Inverse of the jacobian Matrix:\n" ++ invPart mat j.inverse ++ lit "\n" := by
  unfold JacobianMatrix.text
  congr 2

theorem jacobian_lines (hmat : MatrixLines mat) (j : JacobianMatrix F n) :
    ∃ ls, j.text mat = unl ls ∧ Quiet ls := by
  have hm : ∀ m, ∃ ls, mat m = unl ls ∧ Quiet ls := fun m => by
    obtain ⟨ls, h1, h2⟩ := hmat m
    exact ⟨ls, h1, fun l hl => ⟨(h2 l hl).1, idle_head (h2 l hl).2.1 (h2 l hl).2.2.1 (h2 l hl).2.2.2.1
      (h2 l hl).2.2.2.2⟩⟩
  have ha : ∃ ls, jacPart mat j.matrix = unl ls ∧ Quiet ls := by
    rcases j.matrix with _ | m
    · refine ⟨[lit "Jacobian not up to date with its inverse.", lit "The update of the inverse is more recent"],
        by rw [jacPart_none]; decide +kernel, ?_⟩
      exact .cons (by decide +kernel) (.of (by decide +kernel)) <| .cons (by decide +kernel) (.of (by decide +kernel)) .nil
    · obtain ⟨ls, h1, h2⟩ := hm m
      refine ⟨[lit "Jacobian up to date with its inverse", [], lit "Jacobian:"] ++ ls, ?_, ?_⟩
      · rw [jacPart_some, h1, unl_append]
        congr 1
      · exact .append (.cons (by decide +kernel) (.of (by decide +kernel)) <| .cons (by simp) idle_nil <|
          .cons (by decide +kernel) (.of (by decide +kernel)) .nil) h2
  have hb : ∃ ls, invPart mat j.inverse ++ lit "\n" = unl ls ∧ Quiet ls := by
    rcases j.inverse with _ | m
    · exact ⟨[lit "Inverse jacobian matrix not yet computed"], by rw [invPart_none]; decide +kernel,
        .cons (by decide +kernel) (.of (by decide +kernel)) .nil⟩
    · obtain ⟨ls, h1, h2⟩ := hm m
      exact ⟨ls ++ [[]], by rw [invPart_some, h1, unl_append]; rfl, .append h2 (.cons (by simp) idle_nil .nil)⟩
  obtain ⟨la, ha, qa⟩ := ha
  obtain ⟨lb, hb, qb⟩ := hb
  refine ⟨[lit "Jacobian matrix", lit "=================", []] ++ la ++ [lit "Inverse of the jacobian Matrix:"] ++ lb,
    ?_, ?_⟩
  · rw [jacobian_text, List.append_assoc _ _ (lit "\n"), hb, ha]
    simp only [unl_append]
    congr 1
  · exact .append (.append (.append (.cons (by decide +kernel) (.of (by decide +kernel)) <|
      .cons (by decide +kernel) (.of (by decide +kernel)) <| .cons (by simp) idle_nil .nil) qa)
      (.cons (by decide +kernel) (.of (by decide +kernel)) .nil)) qb

theorem header_quiet : ∃ ls, lit "Runner informations\n" ++ lit "===================\n\n" ++
      lit "newton_rootfinder version: " ++ lit "0.11.0" ++ lit "\n" ++ lit "\n" = unl ls ∧ Quiet ls :=
  ⟨[lit "Runner informations", lit "===================", [], lit "newton_rootfinder version: 0.11.0", []],
    by decide +kernel, .cons (by decide +kernel) (.of (by decide +kernel)) <|
      .cons (by decide +kernel) (.of (by decide +kernel)) <| .cons (by simp) idle_nil <|
      .cons (by decide +kernel) (.of (by decide +kernel)) <| .cons (by simp) idle_nil .nil⟩
end
end Nrf
