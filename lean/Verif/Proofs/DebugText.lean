import Verif.Model.DebugText
import Verif.Proofs.F64Text

/-!
# `Debug` texts determine the values
-/

namespace Nrf

/-- What may follow a value. -/
def Stop (r : List Char) : Prop := ∀ c t, r = c :: t → c ∈ [',', ' ', ')', ']']

/-- The text of a value, followed by something, determines `R` and what follows. -/
structure Reads {α : Type} (v : α → Fmt) (R : α → α → Prop) : Prop where
  code : ∀ mode a b r r', Stop r → Stop r' → v a mode ++ r = v b mode ++ r' → R a b ∧ r = r'
  start : ∀ mode a, ∃ c t, v a mode = c :: t ∧ c ∉ [',', ' ', ')', ']']

theorem stop_nil : Stop [] := fun _ _ h => by cases h
theorem stop_cons {c : Char} (t : List Char) (h : c ∈ [',', ' ', ')', ']']) : Stop (c :: t) := fun _ _ e => by
  cases e; exact h

theorem lit_cons (s : String) : lit s = s.toList := rfl

/-- A text without stopping characters, followed by something. -/
theorem plain_split {a b : List Char} : ∀ {r r' : List Char}, (∀ c ∈ a, c ∉ [',', ' ', ')', ']']) →
    (∀ c ∈ b, c ∉ [',', ' ', ')', ']']) → Stop r → Stop r' → a ++ r = b ++ r' → a = b ∧ r = r' := by
  induction a generalizing b with
  | nil =>
    intro r r' _ hb hr _ h
    cases b with
    | nil => exact ⟨rfl, h⟩
    | cons c b => exact absurd (hr c _ h) (hb c (by simp))
  | cons c a ih =>
    intro r r' ha hb hr hr' h
    cases b with
    | nil => exact absurd (hr' c _ h.symm) (ha c (by simp))
    | cons d b =>
      simp only [List.cons_append, List.cons.injEq] at h
      obtain ⟨rfl, h⟩ := h
      obtain ⟨rfl, h2⟩ := ih (fun c hc => ha c (by simp [hc])) (fun c hc => hb c (by simp [hc])) hr hr' h
      exact ⟨rfl, h2⟩

/-- A text of its own. -/
theorem reads_leaf {α : Type} {t : α → List Char} (hne : ∀ a, t a ≠ [])
    (hp : ∀ a, ∀ c ∈ t a, c ∉ [',', ' ', ')', ']']) {R : α → α → Prop} (hR : ∀ a b, t a = t b → R a b) :
    Reads (fun a => debugLeaf (t a)) R where
  code mode a b r r' hr hr' h := by
    obtain ⟨h1, h2⟩ := plain_split (hp a) (hp b) hr hr' h
    exact ⟨hR a b h1, h2⟩
  start mode a := by
    obtain ⟨c, u, h⟩ := List.exists_cons_of_ne_nil (hne a)
    exact ⟨c, u, h, hp a c (by rw [h]; simp)⟩

theorem Reads.mono {α : Type} {v : α → Fmt} {R R' : α → α → Prop} (h : Reads v R) (hR : ∀ a b, R a b → R' a b) :
    Reads v R' :=
  ⟨fun mode a b r r' hr hr' e => ⟨hR a b (h.code mode a b r r' hr hr' e).1, (h.code mode a b r r' hr hr' e).2⟩, h.start⟩

theorem Reads.comp {α β : Type} {v : α → Fmt} {R : α → α → Prop} (h : Reads v R) (g : β → α) :
    Reads (fun b => v (g b)) (fun b b' => R (g b) (g b')) :=
  ⟨fun mode _ _ => h.code mode _ _, fun mode _ => h.start mode _⟩

section
variable {α : Type}

theorem stop_comma (t : List Char) : Stop (lit ", " ++ t) := stop_cons _ (by decide)
theorem stop_line (t : List Char) : Stop (lit ",\n" ++ t) := stop_cons _ (by decide)
theorem stop_brace (t : List Char) : Stop (lit " }" ++ t) := stop_cons _ (by decide)
theorem stop_bracket (t : List Char) : Stop (lit "]" ++ t) := stop_cons _ (by decide)
theorem stop_paren (t : List Char) : Stop (lit ")" ++ t) := stop_cons _ (by decide)

/-- The fields of a struct in one line. -/
theorem fields_compact : ∀ (fs : List (String × (α → Fmt) × (α → α → Prop))), (∀ f ∈ fs, Reads f.2.1 f.2.2) →
    ∀ a b r r',
    commas (fs.map fun f => lit f.1 ++ (lit ": " ++ f.2.1 a none)) ++ (lit " }" ++ r) =
      commas (fs.map fun f => lit f.1 ++ (lit ": " ++ f.2.1 b none)) ++ (lit " }" ++ r') →
    (∀ f ∈ fs, f.2.2 a b) ∧ r = r'
  | [], _, a, b, r, r', h => ⟨by simp, by
      simp only [List.map_nil, commas, List.nil_append] at h
      exact List.append_cancel_left h⟩
  | [f], hf, a, b, r, r', h => by
    simp only [List.map_cons, List.map_nil, commas, List.append_assoc] at h
    obtain ⟨h1, h2⟩ := (hf f (by simp)).code none a b _ _ (stop_brace _) (stop_brace _)
      (List.append_cancel_left (List.append_cancel_left h))
    exact ⟨by simpa using h1, List.append_cancel_left h2⟩
  | f :: g :: fs, hf, a, b, r, r', h => by
    simp only [List.map_cons, commas, List.append_assoc] at h
    obtain ⟨h1, h2⟩ := (hf f (by simp)).code none a b _ _ (stop_comma _) (stop_comma _)
      (List.append_cancel_left (List.append_cancel_left h))
    obtain ⟨h3, h4⟩ := fields_compact (g :: fs) (fun f hm => hf f (by simp [List.mem_cons.1 hm])) a b r r'
      (by simpa only [List.map_cons] using List.append_cancel_left h2)
    exact ⟨List.forall_mem_cons.2 ⟨h1, h3⟩, h4⟩

/-- The fields of a struct, one to a line. -/
theorem fields_pretty (d : Nat) : ∀ (fs : List (String × (α → Fmt) × (α → α → Prop))), (∀ f ∈ fs, Reads f.2.1 f.2.2) →
    ∀ a b r r',
    (fs.flatMap fun f => indent (d + 1) ++ (lit f.1 ++ (lit ": " ++ (f.2.1 a (some (d + 1)) ++ lit ",\n")))) ++ r =
      (fs.flatMap fun f => indent (d + 1) ++ (lit f.1 ++ (lit ": " ++ (f.2.1 b (some (d + 1)) ++ lit ",\n")))) ++ r' →
    (∀ f ∈ fs, f.2.2 a b) ∧ r = r'
  | [], _, a, b, r, r', h => ⟨by simp, by simpa using h⟩
  | f :: fs, hf, a, b, r, r', h => by
    simp only [List.flatMap_cons, List.append_assoc] at h
    obtain ⟨h1, h2⟩ := (hf f (by simp)).code (some (d + 1)) a b _ _ (stop_line _) (stop_line _)
      (List.append_cancel_left (List.append_cancel_left (List.append_cancel_left h)))
    obtain ⟨h3, h4⟩ := fields_pretty d fs (fun f hm => hf f (by simp [hm])) a b r r' (List.append_cancel_left h2)
    exact ⟨List.forall_mem_cons.2 ⟨h1, h3⟩, h4⟩

/-- A struct with a name that does not begin with a stopping character. -/
theorem reads_struct (name : String) (hn : ∃ c t, lit name = c :: t ∧ c ∉ [',', ' ', ')', ']'])
    (fs : List (String × (α → Fmt) × (α → α → Prop))) (hf : ∀ f ∈ fs, Reads f.2.1 f.2.2) :
    Reads (fun a => debugStruct name (fs.map fun f => (f.1, f.2.1 a))) (fun a b => ∀ f ∈ fs, f.2.2 a b) where
  code mode a b r r' hr hr' h := by
    cases mode with
    | none =>
      simp only [debugStruct, List.append_assoc, List.map_map, Function.comp_def] at h
      exact fields_compact fs hf a b r r' (List.append_cancel_left (List.append_cancel_left h))
    | some d =>
      simp only [debugStruct, List.append_assoc, List.flatMap_map] at h
      obtain ⟨h1, h2⟩ := fields_pretty d fs hf a b _ _ (List.append_cancel_left (List.append_cancel_left h))
      exact ⟨h1, List.append_cancel_left (List.append_cancel_left h2)⟩
  start mode a := by
    obtain ⟨c, t, h, hc⟩ := hn
    cases mode <;> simp only [debugStruct, h, List.cons_append] <;> exact ⟨c, _, rfl, hc⟩

theorem reads_struct' {v : α → Fmt} {R : α → α → Prop} (name : String)
    (hn : ((lit name).head?.any fun c => decide (c ∉ [',', ' ', ')', ']'])) = true)
    (fs : List (String × (α → Fmt) × (α → α → Prop)))
    (e : ∀ a, v a = debugStruct name (fs.map fun f => (f.1, f.2.1 a))) (hf : ∀ f ∈ fs, Reads f.2.1 f.2.2)
    (hR : ∀ a b, (∀ f ∈ fs, f.2.2 a b) → R a b) : Reads v R := by
  have e' : v = fun a => debugStruct name (fs.map fun f => (f.1, f.2.1 a)) := funext e
  rw [e']
  refine (reads_struct name ?_ fs hf).mono hR
  generalize lit name = l at hn
  cases l with
  | nil => cases hn
  | cons c t => exact ⟨c, t, rfl, by simpa using hn⟩

/-- A variant with a value. -/
theorem tuple_code (name : String) {v : α → Fmt} {R : α → α → Prop} (hv : Reads v R) (mode : Option Nat) (a b : α)
    (r r' : List Char) (h : debugTuple name (v a) mode ++ r = debugTuple name (v b) mode ++ r') : R a b ∧ r = r' := by
  cases mode with
  | none =>
    simp only [debugTuple, List.append_assoc] at h
    obtain ⟨h1, h2⟩ := hv.code none a b _ _ (stop_paren _) (stop_paren _)
      (List.append_cancel_left (List.append_cancel_left h))
    exact ⟨h1, List.append_cancel_left h2⟩
  | some d =>
    simp only [debugTuple, List.append_assoc] at h
    obtain ⟨h1, h2⟩ := hv.code (some (d + 1)) a b _ _ (stop_line _) (stop_line _)
      (List.append_cancel_left (List.append_cancel_left (List.append_cancel_left h)))
    exact ⟨h1, List.append_cancel_left (List.append_cancel_left (List.append_cancel_left h2))⟩

theorem tuple_eq (name : String) (v : Fmt) (mode : Option Nat) : ∃ t, debugTuple name v mode = lit name ++ '(' :: t := by
  cases mode
  · exact ⟨_, rfl⟩
  · exact ⟨_, rfl⟩

/-! ## Lists -/

theorem entries_compact {v : α → Fmt} {R : α → α → Prop} (hv : Reads v R) : ∀ (l l' : List α) (r r' : List Char),
    commas (l.map fun a => v a none) ++ (lit "]" ++ r) = commas (l'.map fun a => v a none) ++ (lit "]" ++ r') →
    List.Forall₂ R l l' ∧ r = r'
  | [], [], r, r', h => ⟨.nil, List.append_cancel_left (List.append_cancel_left h)⟩
  | [], b :: l', r, r', h => by
    obtain ⟨c, t, e, hc⟩ := hv.start none b
    cases l' with
    | nil =>
      simp only [List.map_nil, List.map_cons, commas, e, List.nil_append, List.cons_append] at h
      rw [← (List.cons.inj h).1] at hc
      exact absurd (by decide) hc
    | cons x l' =>
      simp only [List.map_nil, List.map_cons, commas, e, List.nil_append, List.cons_append] at h
      rw [← (List.cons.inj h).1] at hc
      exact absurd (by decide) hc
  | a :: l, [], r, r', h => by
    obtain ⟨c, t, e, hc⟩ := hv.start none a
    cases l with
    | nil =>
      simp only [List.map_nil, List.map_cons, commas, e, List.nil_append, List.cons_append] at h
      rw [(List.cons.inj h).1] at hc
      exact absurd (by decide) hc
    | cons x l =>
      simp only [List.map_nil, List.map_cons, commas, e, List.nil_append, List.cons_append] at h
      rw [(List.cons.inj h).1] at hc
      exact absurd (by decide) hc
  | [a], [b], r, r', h => by
    simp only [List.map_cons, List.map_nil, commas] at h
    obtain ⟨h1, h2⟩ := hv.code none a b _ _ (stop_bracket _) (stop_bracket _) h
    exact ⟨.cons h1 .nil, List.append_cancel_left h2⟩
  | [a], b :: x :: l', r, r', h => by
    simp only [List.map_cons, List.map_nil, commas, List.append_assoc] at h
    obtain ⟨-, h2⟩ := hv.code none a b _ _ (stop_bracket _) (stop_comma _) h
    exact absurd (List.cons.inj h2).1 (by decide)
  | a :: x :: l, [b], r, r', h => by
    simp only [List.map_cons, List.map_nil, commas, List.append_assoc] at h
    obtain ⟨-, h2⟩ := hv.code none a b _ _ (stop_comma _) (stop_bracket _) h
    exact absurd (List.cons.inj h2).1 (by decide)
  | a :: x :: l, b :: y :: l', r, r', h => by
    simp only [List.map_cons, commas, List.append_assoc] at h
    obtain ⟨h1, h2⟩ := hv.code none a b _ _ (stop_comma _) (stop_comma _) h
    obtain ⟨h3, h4⟩ := entries_compact hv (x :: l) (y :: l') r r'
      (by simpa only [List.map_cons] using List.append_cancel_left h2)
    exact ⟨.cons h1 h3, h4⟩

theorem indent_succ (d : Nat) : indent (d + 1) = indent d ++ List.replicate 4 ' ' := by
  unfold indent
  rw [List.replicate_append_replicate]
  rfl

theorem entries_pretty (d : Nat) {v : α → Fmt} {R : α → α → Prop} (hv : Reads v R) :
    ∀ (l l' : List α) (r r' : List Char),
    (l.flatMap fun a => indent (d + 1) ++ (v a (some (d + 1)) ++ lit ",\n")) ++ (indent d ++ (lit "]" ++ r)) =
      (l'.flatMap fun a => indent (d + 1) ++ (v a (some (d + 1)) ++ lit ",\n")) ++ (indent d ++ (lit "]" ++ r')) →
    List.Forall₂ R l l' ∧ r = r'
  | [], [], r, r', h => ⟨.nil, List.append_cancel_left (List.append_cancel_left (List.append_cancel_left h))⟩
  | [], b :: l', r, r', h => by
    simp only [List.flatMap_nil, List.nil_append, List.flatMap_cons, indent_succ, List.append_assoc] at h
    exact absurd (List.cons.inj (List.append_cancel_left h)).1 (by decide)
  | a :: l, [], r, r', h => by
    simp only [List.flatMap_nil, List.nil_append, List.flatMap_cons, indent_succ, List.append_assoc] at h
    exact absurd (List.cons.inj (List.append_cancel_left h)).1 (by decide)
  | a :: l, b :: l', r, r', h => by
    simp only [List.flatMap_cons, List.append_assoc] at h
    obtain ⟨h1, h2⟩ := hv.code (some (d + 1)) a b _ _ (stop_line _) (stop_line _) (List.append_cancel_left h)
    obtain ⟨h3, h4⟩ := entries_pretty d hv l l' r r' (by simpa only [List.append_assoc] using List.append_cancel_left h2)
    exact ⟨.cons h1 h3, h4⟩

theorem reads_list {v : α → Fmt} {R : α → α → Prop} (hv : Reads v R) :
    Reads (fun l : List α => debugList (l.map v)) (List.Forall₂ R) where
  code mode l l' r r' hr hr' h := by
    cases mode with
    | none =>
      simp only [debugList, List.append_assoc, List.map_map, Function.comp_def] at h
      exact entries_compact hv l l' r r' (List.append_cancel_left h)
    | some d =>
      cases l with
      | nil =>
        cases l' with
        | nil => exact ⟨.nil, List.append_cancel_left h⟩
        | cons b l' =>
          simp only [debugList, List.map_nil, List.map_cons, if_true, reduceCtorEq, if_false] at h
          exact absurd (List.cons.inj (List.cons.inj h).2).1 (by decide)
      | cons a l =>
        cases l' with
        | nil =>
          simp only [debugList, List.map_nil, List.map_cons, if_true, reduceCtorEq, if_false] at h
          exact absurd (List.cons.inj (List.cons.inj h).2).1 (by decide)
        | cons b l' =>
          have e : ∀ (x : α) (xs : List α), debugList ((x :: xs).map v) (some d) = lit "[\n" ++
              (((x :: xs).flatMap fun a => indent (d + 1) ++ (v a (some (d + 1)) ++ lit ",\n")) ++
                (indent d ++ lit "]")) := fun x xs => by
            simp only [debugList, List.map_cons, reduceCtorEq, if_false, List.flatMap_cons, List.flatMap_map]
          rw [e, e] at h
          simp only [List.append_assoc] at h
          exact entries_pretty d hv (a :: l) (b :: l') r r' (List.append_cancel_left h)
  start mode l := by
    cases mode with
    | none => exact ⟨'[', _, rfl, by decide⟩
    | some d =>
      unfold debugList
      dsimp only
      split_ifs
      · exact ⟨'[', _, rfl, by decide⟩
      · exact ⟨'[', _, rfl, by decide⟩

theorem forall₂_eq {l l' : List α} (h : List.Forall₂ (· = ·) l l') : l = l' := List.forall₂_eq_eq_eq ▸ h

/-! ## Options and enumerations -/

theorem reads_option {v : α → Fmt} (hv : Reads v (· = ·)) : Reads (debugOption v) (· = ·) where
  code mode a b r r' hr hr' h := by
    cases a with
    | none =>
      cases b with
      | none => exact ⟨rfl, List.append_cancel_left h⟩
      | some b =>
        obtain ⟨t, e⟩ := tuple_eq "Some" (v b) mode
        simp only [debugOption, debugLeaf, e] at h
        exact absurd (List.cons.inj h).1 (by decide)
    | some a =>
      cases b with
      | none =>
        obtain ⟨t, e⟩ := tuple_eq "Some" (v a) mode
        simp only [debugOption, debugLeaf, e] at h
        exact absurd (List.cons.inj h).1 (by decide)
      | some b =>
        obtain ⟨h1, h2⟩ := tuple_code "Some" hv mode a b r r' h
        exact ⟨congrArg some h1, h2⟩
  start mode a := by
    cases a with
    | none => exact ⟨'N', _, rfl, by decide⟩
    | some a =>
      obtain ⟨t, e⟩ := tuple_eq "Some" (v a) mode
      exact ⟨'S', _, e, by decide⟩

theorem reads_nat : Reads debugNat (· = ·) :=
  reads_leaf (fun k => by obtain ⟨d, t, h, _⟩ := natText_cons k; rw [h]; simp)
    (fun k c hc hs => by
      have := natText_digit hc
      simp only [List.mem_cons, List.not_mem_nil, or_false] at hs
      rcases hs with rfl | rfl | rfl | rfl <;> exact absurd this (by decide))
    fun _ _ h => natText_injective h

theorem reads_bool : Reads debugBool (· = ·) :=
  reads_leaf (t := boolText) (by decide) (by decide) (by decide)

theorem reads_normalization : Reads NormalizationMethod.debug (· = ·) := by
  have h := reads_leaf (t := fun m : NormalizationMethod => m.debug none) (R := (· = ·))
    (fun m => by cases m <;> decide) (fun m => by cases m <;> decide)
    (fun a b => by cases a <;> cases b <;> decide)
  have e : NormalizationMethod.debug = fun m => debugLeaf (m.debug none) := by
    funext m; cases m <;> rfl
  rw [e]; exact h

theorem reads_perturbation : Reads PerturbationMethod.debug (· = ·) := by
  have h := reads_leaf (t := fun m : PerturbationMethod => m.debug none) (R := (· = ·))
    (fun m => by cases m <;> decide) (fun m => by cases m <;> decide)
    (fun a b => by cases a <;> cases b <;> decide)
  have e : PerturbationMethod.debug = fun m => debugLeaf (m.debug none) := by
    funext m; cases m <;> rfl
  rw [e]; exact h

theorem reads_update : Reads UpdateMethod.debug (· = ·) := by
  have h := reads_leaf (t := fun m : UpdateMethod => m.debug none) (R := (· = ·))
    (fun m => by cases m <;> decide) (fun m => by cases m <;> decide)
    (fun a b => by cases a <;> cases b <;> decide)
  have e : UpdateMethod.debug = fun m => debugLeaf (m.debug none) := by
    funext m; cases m <;> rfl
  rw [e]; exact h

theorem reads_quasi : Reads QuasiNewtonMethod.debug (· = ·) where
  code mode a b r r' hr hr' h := by
    cases a with
    | StationaryNewton =>
      cases b with
      | StationaryNewton => exact ⟨rfl, List.append_cancel_left h⟩
      | JacobianUpdate b =>
        obtain ⟨t, e⟩ := tuple_eq "JacobianUpdate" b.debug mode
        simp only [QuasiNewtonMethod.debug, debugLeaf, e] at h
        exact absurd (List.cons.inj h).1 (by decide)
      | InverseJacobianUpdate b =>
        obtain ⟨t, e⟩ := tuple_eq "InverseJacobianUpdate" b.debug mode
        simp only [QuasiNewtonMethod.debug, debugLeaf, e] at h
        exact absurd (List.cons.inj h).1 (by decide)
    | JacobianUpdate a =>
      obtain ⟨t, e⟩ := tuple_eq "JacobianUpdate" a.debug mode
      cases b with
      | StationaryNewton =>
        simp only [QuasiNewtonMethod.debug, debugLeaf, e] at h
        exact absurd (List.cons.inj h).1 (by decide)
      | JacobianUpdate b =>
        obtain ⟨h1, h2⟩ := tuple_code "JacobianUpdate" reads_update mode a b r r' h
        exact ⟨congrArg _ h1, h2⟩
      | InverseJacobianUpdate b =>
        obtain ⟨t', e'⟩ := tuple_eq "InverseJacobianUpdate" b.debug mode
        simp only [QuasiNewtonMethod.debug, e, e'] at h
        exact absurd (List.cons.inj h).1 (by decide)
    | InverseJacobianUpdate a =>
      obtain ⟨t, e⟩ := tuple_eq "InverseJacobianUpdate" a.debug mode
      cases b with
      | StationaryNewton =>
        simp only [QuasiNewtonMethod.debug, debugLeaf, e] at h
        exact absurd (List.cons.inj h).1 (by decide)
      | JacobianUpdate b =>
        obtain ⟨t', e'⟩ := tuple_eq "JacobianUpdate" b.debug mode
        simp only [QuasiNewtonMethod.debug, e, e'] at h
        exact absurd (List.cons.inj h).1 (by decide)
      | InverseJacobianUpdate b =>
        obtain ⟨h1, h2⟩ := tuple_code "InverseJacobianUpdate" reads_update mode a b r r' h
        exact ⟨congrArg _ h1, h2⟩
  start mode a := by
    cases a with
    | StationaryNewton => exact ⟨'S', _, rfl, by decide⟩
    | JacobianUpdate a =>
      obtain ⟨t, e⟩ := tuple_eq "JacobianUpdate" a.debug mode
      exact ⟨'J', _, e, by decide⟩
    | InverseJacobianUpdate a =>
      obtain ⟨t, e⟩ := tuple_eq "InverseJacobianUpdate" a.debug mode
      exact ⟨'I', _, e, by decide⟩

theorem reads_method : Reads ResolutionMethod.debug (· = ·) where
  code mode a b r r' hr hr' h := by
    cases a with
    | NewtonRaphson =>
      cases b with
      | NewtonRaphson => exact ⟨rfl, List.append_cancel_left h⟩
      | QuasiNewton b =>
        obtain ⟨t, e⟩ := tuple_eq "QuasiNewton" b.debug mode
        simp only [ResolutionMethod.debug, debugLeaf, e] at h
        exact absurd (List.cons.inj h).1 (by decide)
    | QuasiNewton a =>
      cases b with
      | NewtonRaphson =>
        obtain ⟨t, e⟩ := tuple_eq "QuasiNewton" a.debug mode
        simp only [ResolutionMethod.debug, debugLeaf, e] at h
        exact absurd (List.cons.inj h).1 (by decide)
      | QuasiNewton b =>
        obtain ⟨h1, h2⟩ := tuple_code "QuasiNewton" reads_quasi mode a b r r' h
        exact ⟨congrArg _ h1, h2⟩
  start mode a := by
    cases a with
    | NewtonRaphson => exact ⟨'N', _, rfl, by decide⟩
    | QuasiNewton a =>
      obtain ⟨t, e⟩ := tuple_eq "QuasiNewton" a.debug mode
      exact ⟨'Q', _, e, by decide⟩

end

/-! ## Structs -/

theorem reads_residual : Reads ResidualConfig.debug (· = ·) := by
  refine reads_struct' "ResidualConfig" (by decide +kernel)
    [("stopping_critera", fun r => r.stoppingCriteria.debug, fun a b => a.stoppingCriteria = b.stoppingCriteria),
      ("update_method", fun r => r.updateMethod.debug, fun a b => a.updateMethod = b.updateMethod)] (fun _ => rfl) ?_ ?_
  · simp only [List.forall_mem_cons, List.not_mem_nil, false_implies, implies_true, and_true]
    exact ⟨reads_normalization.comp _, reads_normalization.comp _⟩
  · rintro ⟨a1, a2⟩ ⟨b1, b2⟩ h
    simpa using h

theorem reads_residuals : Reads ResidualsConfig.debug (· = ·) := by
  have hl : Reads (fun l : List NormalizationMethod => debugList (l.map NormalizationMethod.debug)) (· = ·) :=
    (reads_list reads_normalization).mono fun _ _ h => forall₂_eq h
  refine reads_struct' "ResidualsConfig" (by decide +kernel)
    [("stopping_criterias", fun r => debugList (r.stoppingCriterias.map NormalizationMethod.debug),
        fun a b => a.stoppingCriterias = b.stoppingCriterias),
      ("update_methods", fun r => debugList (r.updateMethods.map NormalizationMethod.debug),
        fun a b => a.updateMethods = b.updateMethods),
      ("length", fun r => debugNat r.length, fun a b => a.length = b.length)] (fun _ => rfl) ?_ ?_
  · simp only [List.forall_mem_cons, List.not_mem_nil, false_implies, implies_true, and_true]
    exact ⟨hl.comp _, hl.comp _, reads_nat.comp _⟩
  · rintro ⟨a1, a2, a3⟩ ⟨b1, b2, b3⟩ h
    simpa using h

section
variable {F : Type} {n : Nat} {num : F → List Char}

/-- Number texts that the reader can tell apart. -/
structure GoodNum (num : F → List Char) : Prop where
  nonempty : ∀ x, num x ≠ []
  plain : ∀ x, ∀ c ∈ num x, c ∉ [',', ' ', ')', ']']
  injective : Function.Injective num

variable (hn : GoodNum num)
include hn

theorem reads_num : Reads (debugNum num) (· = ·) := reads_leaf hn.nonempty hn.plain fun _ _ h => hn.injective h

theorem reads_nums : Reads (fun l : List F => debugList (l.map (debugNum num))) (· = ·) :=
  (reads_list (reads_num hn)).mono fun _ _ h => forall₂_eq h

theorem reads_vec : Reads (debugVec num : Vec F n → Fmt) (· = ·) := by
  have h := ((reads_list (reads_nums hn)).mono fun _ _ h => forall₂_eq h).comp fun v : Vec F n => [List.ofFn v]
  have e : (debugVec num : Vec F n → Fmt) =
      fun v => debugList ([List.ofFn v].map fun l => debugList (l.map (debugNum num))) := by
    funext v
    simp only [debugVec, List.map_cons, List.map_nil, List.map_ofFn, Function.comp_def]
  rw [e]
  exact h.mono fun a b h => List.ofFn_injective (List.cons.inj h).1

theorem reads_mat : Reads (debugMat num : Mat F n → Fmt) (· = ·) := by
  have h := ((reads_list (reads_nums hn)).mono fun _ _ h => forall₂_eq h).comp
    fun A : Mat F n => List.ofFn fun j => List.ofFn fun i => A i j
  have e : (debugMat num : Mat F n → Fmt) =
      fun A => debugList ((List.ofFn fun j => List.ofFn fun i => A i j).map fun l => debugList (l.map (debugNum num))) := by
    funext v
    simp only [debugMat, List.map_ofFn, Function.comp_def]
  rw [e]
  refine h.mono fun a b h => ?_
  have h1 := List.ofFn_injective h
  funext i j
  exact congrFun (List.ofFn_injective (congrFun h1 j)) i

theorem reads_params : Reads (IterativeParams.debug num) (· = ·) := by
  refine reads_struct' "IterativeParams" (by decide +kernel)
    [("max_step_abs", fun p => debugNum num p.maxStepAbs, fun a b => a.maxStepAbs = b.maxStepAbs),
      ("max_step_rel", fun p => debugNum num p.maxStepRel, fun a b => a.maxStepRel = b.maxStepRel),
      ("min_value", fun p => debugNum num p.minValue, fun a b => a.minValue = b.minValue),
      ("max_value", fun p => debugNum num p.maxValue, fun a b => a.maxValue = b.maxValue)] (fun _ => rfl) ?_ ?_
  · simp only [List.forall_mem_cons, List.not_mem_nil, false_implies, implies_true, and_true]
    exact ⟨(reads_num hn).comp _, (reads_num hn).comp _, (reads_num hn).comp _, (reads_num hn).comp _⟩
  · rintro ⟨a1, a2, a3, a4⟩ ⟨b1, b2, b3, b4⟩ h
    simpa using h

theorem reads_paramsFD : Reads (IterativeParamsFD.debug num) (· = ·) := by
  refine reads_struct' "IterativeParamsFD" (by decide +kernel)
    [("iterative_params", fun p => p.iterativeParams.debug num, fun a b => a.iterativeParams = b.iterativeParams),
      ("perturbation_method", fun p => p.perturbationMethod.debug,
        fun a b => a.perturbationMethod = b.perturbationMethod),
      ("dx_abs", fun p => debugNum num p.dxAbs, fun a b => a.dxAbs = b.dxAbs),
      ("dx_rel", fun p => debugNum num p.dxRel, fun a b => a.dxRel = b.dxRel)] (fun _ => rfl) ?_ ?_
  · simp only [List.forall_mem_cons, List.not_mem_nil, false_implies, implies_true, and_true]
    exact ⟨(reads_params hn).comp _, reads_perturbation.comp _, (reads_num hn).comp _, (reads_num hn).comp _⟩
  · rintro ⟨a1, a2, a3, a4⟩ ⟨b1, b2, b3, b4⟩ h
    simpa using h

theorem reads_parameters : Reads (SolverParameters.debug num) (· = ·) := by
  refine reads_struct' "Solver parameters" (by decide +kernel)
    [("Problem size", fun p => debugNat p.problemSize, fun a b => a.problemSize = b.problemSize),
      ("Max iteration", fun p => debugNat p.maxIter, fun a b => a.maxIter = b.maxIter),
      ("Solver tolerance", fun p => debugNum num p.tolerance, fun a b => a.tolerance = b.tolerance),
      ("Resolution method", fun p => p.method.debug, fun a b => a.method = b.method),
      ("Damping activated", fun p => debugBool p.damping, fun a b => a.damping = b.damping)] (fun _ => rfl) ?_ ?_
  · simp only [List.forall_mem_cons, List.not_mem_nil, false_implies, implies_true, and_true]
    exact ⟨reads_nat.comp _, reads_nat.comp _, (reads_num hn).comp _, reads_method.comp _, reads_bool.comp _⟩
  · rintro ⟨a1, a2, a3, a4, a5⟩ ⟨b1, b2, b3, b4, b5⟩ h
    simp only [List.forall_mem_cons, List.not_mem_nil, false_implies, implies_true, and_true] at h
    obtain ⟨rfl, rfl, rfl, rfl, rfl⟩ := h
    rfl

theorem reads_jacobian : Reads (JacobianMatrix.debugText num : JacobianMatrix F n → Fmt) (· = ·) := by
  refine reads_struct' "Jacobian matrix" (by decide +kernel)
    [("Matrix", fun j => debugOption (debugMat num) j.matrix, fun a b => a.matrix = b.matrix),
      ("Matrix Inverse", fun j => debugOption (debugMat num) j.inverse, fun a b => a.inverse = b.inverse),
      ("Compute jacobian at next iteration: ", fun j => debugBool j.computeNext, fun a b => a.computeNext = b.computeNext),
      ("Is current jacobian approximated: ", fun j => debugBool j.approximated,
        fun a b => a.approximated = b.approximated)] (fun _ => rfl) ?_ ?_
  · simp only [List.forall_mem_cons, List.not_mem_nil, false_implies, implies_true, and_true]
    exact ⟨(reads_option (reads_mat hn)).comp _, (reads_option (reads_mat hn)).comp _, reads_bool.comp _, reads_bool.comp _⟩
  · rintro ⟨a1, a2, a3, a4⟩ ⟨b1, b2, b3, b4⟩ h
    simpa using h

theorem reads_residualsValues : Reads (ResidualsValues.debug num : ResidualsValues F n → Fmt) (· = ·) := by
  refine reads_struct' "ResidualsValues" (by decide +kernel)
    [("left", fun v => debugVec num v.left, fun a b => a.left = b.left),
      ("right", fun v => debugVec num v.right, fun a b => a.right = b.right),
      ("problem_size", fun _ => debugNat n, fun _ _ => True)] (fun _ => rfl) ?_ ?_
  · simp only [List.forall_mem_cons, List.not_mem_nil, false_implies, implies_true, and_true]
    exact ⟨(reads_vec hn).comp _, (reads_vec hn).comp _, (reads_nat.comp fun _ => n).mono fun _ _ _ => trivial⟩
  · rintro ⟨a1, a2⟩ ⟨b1, b2⟩ h
    simpa using h

theorem reads_jacobianValues : Reads (JacobianValues.debug num : JacobianValues F n → Fmt) (· = ·) := by
  refine reads_struct' "JacobianValues" (by decide +kernel)
    [("left", fun v => debugMat num v.left, fun a b => a.left = b.left),
      ("right", fun v => debugMat num v.right, fun a b => a.right = b.right),
      ("problem_size", fun _ => debugNat n, fun _ _ => True)] (fun _ => rfl) ?_ ?_
  · simp only [List.forall_mem_cons, List.not_mem_nil, false_implies, implies_true, and_true]
    exact ⟨(reads_mat hn).comp _, (reads_mat hn).comp _, (reads_nat.comp fun _ => n).mono fun _ _ _ => trivial⟩
  · rintro ⟨a1, a2⟩ ⟨b1, b2⟩ h
    simpa using h

/-- What the text of a root finder shows. -/
theorem reads_rootFinder {α : Type} {it : α → Fmt} (hit : Reads it (· = ·)) :
    Reads (RootFinderView.debugText num it : RootFinderView F n α → Fmt) (fun a b =>
      a.params = b.params ∧ a.guess = b.guess ∧ a.iters = b.iters ∧ a.res = b.res ∧ a.st.debug = b.st.debug ∧
        a.st.iter = b.st.iter ∧ a.st.valid = b.st.valid ∧ a.st.jac = b.st.jac ∧ a.st.itStep = b.st.itStep ∧
        a.st.resStep = b.st.resStep ∧ a.st.resCur = b.st.resCur) := by
  have hv := reads_option (reads_vec (n := n) hn)
  refine reads_struct' "Rootfinder" (by decide +kernel)
    [("Solver parameters", fun r => r.params.debug num, fun a b => a.params = b.params),
      ("Initial Guess", fun r => debugVec num r.guess, fun a b => a.guess = b.guess),
      ("Iterative configuration", fun r => debugList (r.iters.map it), fun a b => a.iters = b.iters),
      ("Residual configuration", fun r => r.res.debug, fun a b => a.res = b.res),
      ("Debug option activated", fun r => debugBool r.st.debug, fun a b => a.st.debug = b.st.debug),
      ("Current iteration", fun r => debugNat r.st.iter, fun a b => a.st.iter = b.st.iter),
      ("Status last model evaluation", fun r => debugBool r.st.valid, fun a b => a.st.valid = b.st.valid),
      ("Placeholder jacobian", fun r => r.st.jac.debugText num, fun a b => a.st.jac = b.st.jac),
      ("Placeholder iterative step", fun r => debugOption (debugVec num) r.st.itStep,
        fun a b => a.st.itStep = b.st.itStep),
      ("Placeholder residual step", fun r => debugOption (debugVec num) r.st.resStep,
        fun a b => a.st.resStep = b.st.resStep),
      ("Placeholder current residual", fun r => debugOption (debugVec num) r.st.resCur,
        fun a b => a.st.resCur = b.st.resCur)] (fun _ => rfl) ?_ ?_
  · simp only [List.forall_mem_cons, List.not_mem_nil, false_implies, implies_true, and_true]
    exact ⟨(reads_parameters hn).comp _, (reads_vec hn).comp _,
      ((reads_list hit).mono fun _ _ h => forall₂_eq h).comp fun r : RootFinderView F n α => r.iters,
      reads_residuals.comp _, reads_bool.comp _, reads_nat.comp _, reads_bool.comp _, (reads_jacobian hn).comp _,
      hv.comp _, hv.comp _, hv.comp _⟩
  · intro a b h
    simpa only [List.forall_mem_cons, List.not_mem_nil, false_implies, implies_true, and_true] using h

end

theorem Reads.eq {α : Type} {v : α → Fmt} {R : α → α → Prop} (h : Reads v R) {mode : Option Nat} {a b : α}
    (e : v a mode = v b mode) : R a b := (h.code mode a b [] [] stop_nil stop_nil (by rw [e])).1

end Nrf

/-! ## The two modes -/

namespace Nrf

/-- The text without spaces, line ends and commas. -/
def squeeze (t : List Char) : List Char := t.filter (· ∉ [' ', '\n', ','])

theorem squeeze_append (a b : List Char) : squeeze (a ++ b) = squeeze a ++ squeeze b := List.filter_append ..

theorem squeeze_indent (d : Nat) : squeeze (indent d) = [] :=
  List.filter_eq_nil_iff.2 fun a ha => by simp [List.eq_of_mem_replicate ha]

theorem squeeze_line : squeeze (lit ",\n") = [] := by decide

theorem squeeze_commas : ∀ ts : List (List Char), squeeze (commas ts) = ts.flatMap squeeze
  | [] => rfl
  | [t] => by simp [commas]
  | t :: u :: ts => by
    rw [commas, squeeze_append, squeeze_append, squeeze_commas (u :: ts), show squeeze (lit ", ") = [] by decide]
    simp

theorem squeeze_flatMap {α : Type} (l : List α) (f : α → List Char) :
    squeeze (l.flatMap f) = l.flatMap fun a => squeeze (f a) := by
  induction l with
  | nil => rfl
  | cons a l ih => rw [List.flatMap_cons, squeeze_append, ih, List.flatMap_cons]

/-- `{:#?}` only adds layout. -/
def Flat (v : Fmt) : Prop := ∀ d, squeeze (v (some d)) = squeeze (v none)

theorem flat_leaf (t : List Char) : Flat (debugLeaf t) := fun _ => rfl

theorem flatMap_congr' {α : Type} {l : List α} {f g : α → List Char} (h : ∀ a ∈ l, f a = g a) :
    l.flatMap f = l.flatMap g := by
  induction l with
  | nil => rfl
  | cons a l ih => rw [List.flatMap_cons, List.flatMap_cons, h a (by simp), ih fun b hb => h b (by simp [hb])]

theorem flat_struct (name : String) (fs : List (String × Fmt)) (h : ∀ f ∈ fs, Flat f.2) : Flat (debugStruct name fs) := by
  intro d
  simp only [debugStruct, squeeze_append, squeeze_indent, squeeze_line, squeeze_commas, squeeze_flatMap,
    List.nil_append, List.append_nil, List.flatMap_map]
  rw [show squeeze (lit " {\n") = squeeze (lit " { ") by decide, show squeeze (lit "}") = squeeze (lit " }") by decide]
  congr 3
  exact flatMap_congr' fun f hf => by rw [h f hf]

theorem flat_tuple (name : String) {v : Fmt} (h : Flat v) : Flat (debugTuple name v) := by
  intro d
  simp only [debugTuple, squeeze_append, squeeze_indent, squeeze_line, List.nil_append, h (d + 1)]
  rw [show squeeze (lit "(\n") = squeeze (lit "(") by decide]

theorem flat_list {vs : List Fmt} (h : ∀ v ∈ vs, Flat v) : Flat (debugList vs) := by
  intro d
  unfold debugList
  dsimp only
  split_ifs with he
  · rw [he]; rfl
  · simp only [squeeze_append, squeeze_indent, squeeze_line, squeeze_commas, squeeze_flatMap,
      List.nil_append, List.append_nil, List.flatMap_map]
    rw [show squeeze (lit "[\n") = squeeze (lit "[") by decide]
    congr 2
    exact flatMap_congr' fun v hv => by rw [h v hv]

theorem flat_option {α : Type} {v : α → Fmt} (h : ∀ a, Flat (v a)) (o : Option α) : Flat (debugOption v o) := by
  cases o
  · exact flat_leaf _
  · exact flat_tuple _ (h _)

theorem flat_normalization (m : NormalizationMethod) : Flat m.debug := by cases m <;> exact flat_leaf _

theorem flat_method (m : ResolutionMethod) : Flat m.debug := by
  rcases m with _ | _ | m | m
  · exact flat_leaf _
  · exact flat_tuple _ (flat_leaf _)
  · exact flat_tuple _ (flat_tuple _ (by cases m <;> exact flat_leaf _))
  · exact flat_tuple _ (flat_tuple _ (by cases m <;> exact flat_leaf _))

theorem flat_map {α : Type} {v : α → Fmt} (h : ∀ a, Flat (v a)) (l : List α) : Flat (debugList (l.map v)) :=
  flat_list fun w hw => by obtain ⟨a, -, rfl⟩ := List.mem_map.1 hw; exact h a

theorem flat_ofFn {m : Nat} {v : Fin m → Fmt} (h : ∀ a, Flat (v a)) : Flat (debugList (List.ofFn v)) :=
  flat_list fun w hw => by obtain ⟨a, rfl⟩ := (List.mem_ofFn).1 hw; exact h a

section
variable {F : Type} {n : Nat} (num : F → List Char)

theorem flat_vec (v : Vec F n) : Flat (debugVec num v) :=
  flat_list fun w hw => by
    rw [List.mem_singleton.1 hw]
    exact flat_ofFn fun _ => flat_leaf _

theorem flat_mat (A : Mat F n) : Flat (debugMat num A) := flat_ofFn fun _ => flat_ofFn fun _ => flat_leaf _

theorem flat_params (p : IterativeParams F) : Flat (p.debug num) := flat_struct _ _ (by
  simp only [List.forall_mem_cons, List.not_mem_nil, false_implies, implies_true, and_true]
  exact ⟨flat_leaf _, flat_leaf _, flat_leaf _, flat_leaf _⟩)

theorem flat_paramsFD (p : IterativeParamsFD F) : Flat (p.debug num) := flat_struct _ _ (by
  simp only [List.forall_mem_cons, List.not_mem_nil, false_implies, implies_true, and_true]
  exact ⟨flat_params num _, by cases p.perturbationMethod <;> exact flat_leaf _, flat_leaf _, flat_leaf _⟩)

theorem flat_rootFinder {α : Type} {it : α → Fmt} (hit : ∀ a, Flat (it a)) (r : RootFinderView F n α) :
    Flat (r.debugText num it) := flat_struct _ _ (by
  simp only [List.forall_mem_cons, List.not_mem_nil, false_implies, implies_true, and_true]
  refine ⟨flat_struct _ _ ?_, flat_vec num _, flat_map hit _, flat_struct _ _ ?_, flat_leaf _, flat_leaf _,
    flat_leaf _, flat_struct _ _ ?_, flat_option (flat_vec num) _, flat_option (flat_vec num) _,
    flat_option (flat_vec num) _⟩
  · simp only [List.forall_mem_cons, List.not_mem_nil, false_implies, implies_true, and_true]
    exact ⟨flat_leaf _, flat_leaf _, flat_leaf _, flat_method _, flat_leaf _⟩
  · simp only [List.forall_mem_cons, List.not_mem_nil, false_implies, implies_true, and_true]
    exact ⟨flat_map flat_normalization _, flat_map flat_normalization _, flat_leaf _⟩
  · simp only [List.forall_mem_cons, List.not_mem_nil, false_implies, implies_true, and_true]
    exact ⟨flat_option (flat_mat num) _, flat_option (flat_mat num) _, flat_leaf _, flat_leaf _⟩)

end
end Nrf
