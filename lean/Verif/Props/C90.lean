import Verif.Proofs.Hom
import Verif.Proofs.JacOutcome
import Verif.Props.C30

/-!
# C90: evaluations start from the memory of the last accepted point

`model_definition.rs` L18-37 and the comment of `jacobian_finite_diff.rs` L53-59 say that the memory of the model is
reset after each perturbed evaluation, so that neither the columns nor the next step depend on the order of the
columns, also "in case of step rejection".
-/

namespace Nrf

section
variable {F : Type} {n : Nat} {EI EU S : Type}

/-- The model `m`, which also notes the memory before and after each of its evaluations. -/
def Spec.noted (m : UserModel F n EI EU S) : UserModel F n EI EU (S × List (List F × List F)) where
  lenProblem s := m.lenProblem s.1
  setIteratives s x := (m.setIteratives s.1 x, s.2)
  getIteratives s := m.getIteratives s.1
  evaluate s := (((m.evaluate s.1).1, s.2 ++ [(m.getMemory s.1, m.getMemory (m.evaluate s.1).1)]), (m.evaluate s.1).2)
  getResiduals s := m.getResiduals s.1
  jacobianProvided s := m.jacobianProvided s.1
  getJacobian s := (((m.getJacobian s.1).1, s.2), (m.getJacobian s.1).2)
  getMemory s := m.getMemory s.1
  setMemory s v := (m.setMemory s.1 v, s.2)
  displayUnusable e := m.displayUnusable e

/-- `set_memory` restores what `get_memory` read; setting the iteratives or computing a Jacobian leaves the memory. -/
structure Spec.Memorable (m : UserModel F n EI EU S) : Prop where
  restore : ∀ s s0, m.getMemory (m.setMemory s (m.getMemory s0)) = m.getMemory s0
  iteratives : ∀ s x, m.getMemory (m.setIteratives s x) = m.getMemory s
  jacobian : ∀ s, m.getMemory (m.getJacobian s).1 = m.getMemory s

/-- The evaluations of `k` iterations after one that left the memory `ref`: in each iteration no column or `N` columns,
all from `ref`, then the proposed point, also from `ref`.  The last iteration may break off among its columns. -/
inductive Spec.Orderly {M : Type} (N : Nat) : Nat → M → List (M × M) → Prop where
  | done (ref : M) : Orderly N 0 ref []
  | stopped (ref : M) (cols : List (M × M)) (h : ∀ e ∈ cols, e.1 = ref) (hlen : cols.length ≤ N) : Orderly N 1 ref cols
  | pass (k : Nat) (ref after : M) (cols rest : List (M × M)) (h : ∀ e ∈ cols, e.1 = ref)
      (hlen : cols.length = 0 ∨ cols.length = N) (hr : Orderly N k after rest) :
      Orderly N (k + 1) ref (cols ++ (ref, after) :: rest)

/-- As `Spec.Orderly`, when a point may be refused: the halfway point is evaluated from the memory the refused point
left. -/
inductive Spec.Halving {M : Type} (N : Nat) : Nat → M → List (M × M) → Prop where
  | done (ref : M) : Halving N 0 ref []
  | stopped (ref : M) (cols : List (M × M)) (h : ∀ e ∈ cols, e.1 = ref) (hlen : cols.length ≤ N) : Halving N 1 ref cols
  | pass (k : Nat) (ref after : M) (cols rest : List (M × M)) (h : ∀ e ∈ cols, e.1 = ref)
      (hlen : cols.length = 0 ∨ cols.length = N) (hr : Halving N k after rest) :
      Halving N (k + 1) ref (cols ++ (ref, after) :: rest)
  | halved (k : Nat) (ref a b : M) (cols rest : List (M × M)) (h : ∀ e ∈ cols, e.1 = ref)
      (hlen : cols.length = 0 ∨ cols.length = N) (hr : Halving N k b rest) :
      Halving N (k + 1) ref (cols ++ (ref, a) :: (a, b) :: rest)

end

namespace Noted
open Spec
variable {F : Type} [Scalar F] {n : Nat} {EI EU S : Type}
variable {c : Config F n} {m : UserModel F n EI EU S}
variable {st st' : Solver F n} {s s' : S} {t t' : List (List F × List F)}

theorem fdLoop_noted (hm : Memorable m) (s0 : S) (pert x r : Vec F n) :
    ∀ (k i : Nat) (J : Mat F n) (s : S) (t : List (List F × List F)) {s' t' v}, m.getMemory s = m.getMemory s0 →
      fdLoop c.res (noted m) pert (m.getMemory s0) x r k i J (s, t) = .ok ((s', t'), v) →
      ∃ cols, t' = t ++ cols ∧ (∀ e ∈ cols, e.1 = m.getMemory s0) ∧ cols.length ≤ k ∧
        ((∃ J', v = .ok J') → cols.length = k ∧ m.getMemory s' = m.getMemory s0) := by
  intro k
  induction k with
  | zero =>
    intro i J s t s' t' v hs h
    cases h
    exact ⟨[], by simp, by simp, le_rfl, fun _ => ⟨rfl, hs⟩⟩
  | succ k ih =>
    intro i J s t s' t' v hs h
    unfold fdLoop at h
    by_cases hi : i < n
    · simp only [hi, dite_true, noted] at h
      rcases hev : m.evaluate (m.setIteratives s _) with ⟨s1, rv⟩
      rw [hev] at h
      have hgo : ∀ J1 y, fdLoop c.res (noted m) pert (m.getMemory s0) x r k (i + 1) J1
          ((m.setMemory s1 (m.getMemory s0)), t ++ [(m.getMemory (m.setIteratives s y), m.getMemory s1)]) = .ok ((s', t'), v) →
          ∃ cols, t' = t ++ cols ∧ (∀ e ∈ cols, e.1 = m.getMemory s0) ∧ cols.length ≤ k + 1 ∧
            ((∃ J', v = .ok J') → cols.length = k + 1 ∧ m.getMemory s' = m.getMemory s0) := by
        intro J1 y h
        obtain ⟨cols, h1, h2, h3, h4⟩ := ih _ _ _ _ (hm.restore _ _) h
        refine ⟨_ :: cols, by rw [h1, List.append_assoc]; rfl, ?_, by simpa using h3, fun hv => ?_⟩
        · rintro e he
          rcases List.mem_cons.1 he with rfl | he
          · exact (hm.iteratives _ _).trans hs
          · exact h2 e he
        · obtain ⟨h5, h6⟩ := h4 hv
          exact ⟨by simp [h5], h6⟩
      match rv with
      | .error (.unusable e) =>
        cases h
        refine ⟨_, rfl, ?_, by simp, fun ⟨J', hJ⟩ => nomatch hJ⟩
        rintro e he
        rw [List.mem_singleton.1 he]
        exact (hm.iteratives _ _).trans hs
      | .error (.inaccurate e) => exact hgo _ _ h
      | .ok () => exact hgo _ _ h
    · simp [hi] at h

theorem computed_noted (hm : Memorable m) {M : Mat F n} (h : Computed c (noted m) (s, t) (s', t') M) :
    m.getMemory s' = m.getMemory s ∧ ∃ cols, t' = t ++ cols ∧ (∀ e ∈ cols, e.1 = m.getMemory s) ∧
      (cols.length = 0 ∨ cols.length = m.lenProblem s) := by
  cases h with
  | analytic v hp hg hM =>
    have h1 : (m.getJacobian s).1 = s' := congrArg (·.1.1) hg
    have h2 : t = t' := congrArg (·.1.2) hg
    exact ⟨h1 ▸ hm.jacobian s, [], by simp [h2], by simp, .inl rfl⟩
  | fd pert hp hpert hM =>
    obtain ⟨cols, h1, h2, -, h3⟩ := fdLoop_noted hm s _ _ _ _ _ _ _ _ rfl hM
    obtain ⟨h4, h5⟩ := h3 ⟨_, rfl⟩
    exact ⟨h5, cols, h1, h2, .inr h4⟩

theorem step_noted (hm : Memorable m) {r} (h : StepOutcome c (noted m) st (s, t) st' (s', t') r) :
    ∃ cols, t' = t ++ cols ∧ (∀ e ∈ cols, e.1 = m.getMemory s) ∧ cols.length ≤ m.lenProblem s ∧
      ((∃ x, r = .ok x) → m.getMemory s' = m.getMemory s ∧ (cols.length = 0 ∨ cols.length = m.lenProblem s)) := by
  have none : ∃ cols : List (List F × List F), t = t ++ cols ∧ (∀ e ∈ cols, e.1 = m.getMemory s) ∧
      cols.length ≤ m.lenProblem s ∧
      ((∃ x, r = .ok x) → m.getMemory s = m.getMemory s ∧ (cols.length = 0 ∨ cols.length = m.lenProblem s)) :=
    ⟨[], by simp, by simp, by simp, fun _ => ⟨rfl, .inl rfl⟩⟩
  have jac : ∀ {j j' rj}, computeJac c (noted m) j (s, t) = .ok (j', (s', t'), rj) →
      ∃ cols, t' = t ++ cols ∧ (∀ e ∈ cols, e.1 = m.getMemory s) ∧ cols.length ≤ m.lenProblem s ∧
        (rj = .ok () → m.getMemory s' = m.getMemory s ∧ (cols.length = 0 ∨ cols.length = m.lenProblem s)) := by
    intro j j' rj h
    cases computeJac_outcome h with
    | success _ M inv hM hi =>
      obtain ⟨h1, cols, h2, h3, h4⟩ := computed_noted hm hM
      exact ⟨cols, h2, h3, by omega, fun _ => ⟨h1, h4⟩⟩
    | singular _ M hM hi =>
      obtain ⟨h1, cols, h2, h3, h4⟩ := computed_noted hm hM
      exact ⟨cols, h2, h3, by omega, fun _ => ⟨h1, h4⟩⟩
    | inaccurate _ e hp hg =>
      have h1 : (m.getJacobian s).1 = s' := congrArg (·.1.1) hg
      have h2 : t = t' := congrArg (·.1.2) hg
      exact ⟨[], by simp [h2], by simp, by simp, fun _ => ⟨h1 ▸ hm.jacobian s, .inl rfl⟩⟩
    | unusable _ e hp hg =>
      have h2 : t = t' := congrArg (·.1.2) hg
      exact ⟨[], by simp [h2], by simp, by simp, fun h => nomatch h⟩
    | fdUnusable _ e pert hp hpert hM =>
      obtain ⟨cols, h1, h2, h3, -⟩ := fdLoop_noted hm s _ _ _ _ _ _ _ _ rfl hM
      exact ⟨cols, h1, h2, h3, fun h => nomatch h⟩
  cases h with
  | computed j l s' x hm' hj hx =>
    obtain ⟨cols, h1, h2, h3, h4⟩ := jac hj
    exact ⟨cols, h1, h2, h3, fun _ => h4 rfl⟩
  | computeFailed j l s' e hm' hj =>
    obtain ⟨cols, h1, h2, h3, -⟩ := jac hj
    exact ⟨cols, h1, h2, h3, fun ⟨x, hx⟩ => nomatch hx⟩
  | kept => exact none
  | updated => exact none
  | updateFailed => exact none
  | invUpdated => exact none

/-- The evaluations of the update phase. -/
theorem update_noted (hm : Memorable m) {x r} (h : UpdateOutcome c (noted m) x st (s, t) st' (s', t') r) :
    t' = t ++ [(m.getMemory s, m.getMemory s')] ∨
      ∃ a, c.params.damping = true ∧ t' = t ++ [(m.getMemory s, a), (a, m.getMemory s')] := by
  have ev : ∀ {s t x s1 t1 r}, (noted m).evaluate ((noted m).setIteratives (s, t) x) = ((s1, t1), r) →
      t1 = t ++ [(m.getMemory s, m.getMemory s1)] := by
    intro s t x s1 t1 r h
    have h1 : (m.evaluate (m.setIteratives s x)).1 = s1 := congrArg (·.1.1) h
    have h2 : t ++ [(m.getMemory (m.setIteratives s x), m.getMemory (m.evaluate (m.setIteratives s x)).1)] = t1 :=
      congrArg (·.1.2) h
    rw [← h2, h1, hm.iteratives]
  cases h with
  | unusable _ e he => exact .inl (ev he)
  | plain _ r v l he hu hd => exact .inl (ev he)
  | refused _ r v l he hu hd hlt hm' ha => exact .inl (ev he)
  | damped s1 r v l _ he hu hd hlt hm' he2 =>
    obtain ⟨s1, t1⟩ := s1
    refine .inr ⟨m.getMemory s1, hd, ?_⟩
    rw [ev he2, ev he, List.append_assoc]
    rfl

end Noted

open Spec Noted

section
variable {F : Type} [Scalar F] {n : Nat} {EI EU S : Type} {c : Config F n} {m : UserModel F n EI EU S} {N : Nat}

/-- Prepending the evaluations of a pass. -/
private theorem iterate_noted (hm : Memorable m) (hN : ∀ s, m.lenProblem s = N) {st st' : Solver F n} {s s' : S}
    {t t' : List (List F × List F)} {r} (h : iterate c (noted m) st (s, t) = .ok (st', (s', t'), r)) :
    ∃ seg, t' = t ++ seg ∧ (∀ k rest, Halving N k (m.getMemory s') rest → (∃ e, r = .ok e) →
        Halving N (k + 1) (m.getMemory s) (seg ++ rest)) ∧ Halving N 1 (m.getMemory s) seg ∧
      (c.params.damping = false → (∀ k rest, Orderly N k (m.getMemory s') rest → (∃ e, r = .ok e) →
        Orderly N (k + 1) (m.getMemory s) (seg ++ rest)) ∧ Orderly N 1 (m.getMemory s) seg) := by
  have both : ∀ {st1 s1 t1 x st2 r}, StepOutcome c (noted m) { st with iter := st.iter + 1 } (s, t) st1 (s1, t1) (.ok x) →
      UpdateOutcome c (noted m) x st1 (s1, t1) st2 (s', t') r →
      ∃ seg, t' = t ++ seg ∧
        (∀ k rest, Halving N k (m.getMemory s') rest → Halving N (k + 1) (m.getMemory s) (seg ++ rest)) ∧
        (c.params.damping = false → ∀ k rest, Orderly N k (m.getMemory s') rest →
          Orderly N (k + 1) (m.getMemory s) (seg ++ rest)) := by
    intro st1 s1 t1 x st2 r h1 h2
    obtain ⟨cols, rfl, hc, -, hok⟩ := step_noted hm h1
    obtain ⟨hmem, hlen⟩ := hok ⟨x, rfl⟩
    rw [hN] at hlen
    rcases update_noted hm h2 with h3 | ⟨a, hd, h3⟩
    · refine ⟨cols ++ [(m.getMemory s, m.getMemory s')], ?_, fun k rest hr => ?_, fun _ k rest hr => ?_⟩
      · rw [h3, List.append_assoc, hmem]
      · rw [List.append_assoc]
        exact .pass _ _ _ _ _ hc hlen hr
      · rw [List.append_assoc]
        exact .pass _ _ _ _ _ hc hlen hr
    · refine ⟨cols ++ [(m.getMemory s, a), (a, m.getMemory s')], ?_, fun k rest hr => ?_, fun h => ?_⟩
      · rw [h3, List.append_assoc, hmem]
      · rw [List.append_assoc]
        exact .halved _ _ _ _ _ _ hc hlen hr
      · rw [hd] at h; cases h
  cases iterate_outcome h with
  | step st1 s1 x st2 s2 e h1 h2 =>
    obtain ⟨s1, t1⟩ := s1
    obtain ⟨seg, h3, h4, h5⟩ := both h1 h2
    refine ⟨seg, h3, fun k rest hr _ => h4 k rest hr, ?_, fun hd => ⟨fun k rest hr _ => h5 hd k rest hr, ?_⟩⟩
    · simpa using h4 0 [] (.done _)
    · simpa using h5 hd 0 [] (.done _)
  | evalFailed st1 s1 x st2 s2 e h1 h2 =>
    obtain ⟨s1, t1⟩ := s1
    obtain ⟨seg, h3, h4, h5⟩ := both h1 h2
    refine ⟨seg, h3, fun k rest hr _ => h4 k rest hr, ?_, fun hd => ⟨fun k rest hr _ => h5 hd k rest hr, ?_⟩⟩
    · simpa using h4 0 [] (.done _)
    · simpa using h5 hd 0 [] (.done _)
  | jacFailed st1 s1 e h1 =>
    obtain ⟨cols, h2, hc, hlen, -⟩ := step_noted hm h1
    rw [hN] at hlen
    refine ⟨cols, h2, ?_, .stopped _ _ hc hlen, fun _ => ⟨?_, .stopped _ _ hc hlen⟩⟩
    · rintro _ _ _ ⟨_, h⟩; cases h
    · rintro _ _ _ ⟨_, h⟩; cases h

private theorem run_noted (hm : Memorable m) (hN : ∀ s, m.lenProblem s = N) {st st' : Solver F n}
    {s s' : S × List (List F × List F)} {e e' : F} (h : Run c (noted m) st s e st' s' e') :
    st.iter ≤ st'.iter ∧ ∃ seg, s'.2 = s.2 ++ seg ∧
      (∀ k rest, Halving N k (m.getMemory s'.1) rest →
        Halving N (st'.iter - st.iter + k) (m.getMemory s.1) (seg ++ rest)) ∧
      (c.params.damping = false → ∀ k rest, Orderly N k (m.getMemory s'.1) rest →
        Orderly N (st'.iter - st.iter + k) (m.getMemory s.1) (seg ++ rest)) := by
  induction h with
  | done st s e => exact ⟨le_rfl, [], by simp, fun k _ h => by simpa using h, fun _ k _ h => by simpa using h⟩
  | @pass st s e st1 s1 e1 st2 s2 e2 hc hi hr ih =>
    have hit := iterate_iter hi
    obtain ⟨seg, h1, h2, -, h3⟩ := iterate_noted hm hN hi
    obtain ⟨hle, seg', h4, h5, h6⟩ := ih
    refine ⟨by omega, seg ++ seg', by rw [h4, h1, List.append_assoc], fun k rest h => ?_, fun hd k rest h => ?_⟩
    · rw [List.append_assoc, show st2.iter - st.iter + k = st2.iter - st1.iter + k + 1 by omega]
      exact h2 _ _ (h5 k rest h) ⟨_, rfl⟩
    · rw [List.append_assoc, show st2.iter - st.iter + k = st2.iter - st1.iter + k + 1 by omega]
      exact (h3 hd).1 _ _ (h6 hd k rest h) ⟨_, rfl⟩

private theorem solve_noted (hm : Memorable m) (hN : ∀ s, m.lenProblem s = N) {st st' : Solver F n} {s s' : S}
    {notes : List (List F × List F)} {r} (h : solve c (noted m) st (s, []) = .ok (st', (s', notes), r)) :
    ∃ first rest, notes = (m.getMemory s, first) :: rest ∧ Halving N (st'.iter - st.iter) first rest ∧
      (c.params.damping = false → Orderly N (st'.iter - st.iter) first rest) := by
  have ev : ∀ {s0 : S × List (List F × List F)} {r},
      (noted m).evaluate ((noted m).setIteratives (s, []) c.guess) = (s0, r) →
      s0.2 = [(m.getMemory s, m.getMemory s0.1)] := by
    rintro ⟨s0, t0⟩ r h
    have h1 : (m.evaluate (m.setIteratives s c.guess)).1 = s0 := congrArg (·.1.1) h
    have h2 : [] ++ [(m.getMemory (m.setIteratives s c.guess), m.getMemory (m.evaluate (m.setIteratives s c.guess)).1)] = t0 :=
      congrArg (·.1.2) h
    simp only [← h2, h1, hm.iteratives, List.nil_append]
  cases solve_outcome h with
  | initFailed he =>
    rw [Nat.sub_self]
    exact ⟨m.getMemory s', [], ev he, .done _, fun _ => .done _⟩
  | @finished s0 r0 _ _ _ _ _ he hu hl =>
    cases hl with
    | exit hr hc =>
      obtain ⟨-, seg, h1, h2, h3⟩ := run_noted hm hN hr
      refine ⟨m.getMemory s0.1, seg, ?_, ?_, fun hd => ?_⟩
      · change notes = _ at h1
        rw [h1, ev he]; rfl
      · simpa using h2 0 [] (.done _)
      · simpa using h3 hd 0 [] (.done _)
  | @failed s0 r0 _ _ _ _ _ he hu hl =>
    cases hl with
    | @failed st1 s1 e1 _ _ _ hr hc hi =>
      obtain ⟨s1, t1⟩ := s1
      have hit := iterate_iter hi
      obtain ⟨hle, seg, h1, h2, h3⟩ := run_noted hm hN hr
      obtain ⟨seg', h4, -, h5, h6⟩ := iterate_noted hm hN hi
      change st.iter ≤ _ at hle
      rw [show st'.iter - st.iter = st1.iter - st.iter + 1 by omega]
      refine ⟨m.getMemory s0.1, seg ++ seg', ?_, h2 _ _ h5, fun hd => h3 hd _ _ (h6 hd).2⟩
      change t1 = _ at h1
      rw [h4, h1, ev he]; rfl

end

/-- Damping off, any arithmetic, any of the ten methods, any model obeying the contract, whatever the outcome: the
perturbed evaluations and the evaluation of the proposed point of each iteration all start from the memory left by the
last accepted point.  (Missing for the full claim: damping, where it is false by `C90_refuted`.) -/
theorem C90_memory_partial {F : Type} [Scalar F] {n : Nat} {EI EU S : Type} (c : Config F n)
    (m : UserModel F n EI EU S) (hm : Spec.Memorable m) (N : Nat) (hN : ∀ s, m.lenProblem s = N)
    (hd : c.params.damping = false) (st st' : Solver F n) (s s' : S) (notes : List (List F × List F))
    (r : Except (SolverError EI EU) Unit)
    (h : solve c (Spec.noted m) st (s, []) = .ok (st', (s', notes), r)) :
    ∃ first rest, notes = (m.getMemory s, first) :: rest ∧ Spec.Orderly N (st'.iter - st.iter) first rest := by
  obtain ⟨first, rest, h1, -, h2⟩ := solve_noted hm hN h
  exact ⟨first, rest, h1, h2 hd⟩

/-- With damping: as above, except that the halfway point starts from the memory left by the refused point. -/
theorem C90_damping_partial {F : Type} [Scalar F] {n : Nat} {EI EU S : Type} (c : Config F n)
    (m : UserModel F n EI EU S) (hm : Spec.Memorable m) (N : Nat) (hN : ∀ s, m.lenProblem s = N)
    (st st' : Solver F n) (s s' : S) (notes : List (List F × List F)) (r : Except (SolverError EI EU) Unit)
    (h : solve c (Spec.noted m) st (s, []) = .ok (st', (s', notes), r)) :
    ∃ first rest, notes = (m.getMemory s, first) :: rest ∧ Spec.Halving N (st'.iter - st.iter) first rest := by
  obtain ⟨first, rest, h1, h2, -⟩ := solve_noted hm hN h
  exact ⟨first, rest, h1, h2⟩

/-- Noting changes nothing else. -/
theorem C90_noting_is_faithful {F : Type} [Scalar F] {n : Nat} {EI EU S : Type} (c : Config F n)
    (m : UserModel F n EI EU S) (st : Solver F n) (s : S) (notes : List (List F × List F)) :
    solve c m st s = mapMid Prod.fst (solve c (Spec.noted m) st (s, notes)) :=
  solve_hom (m' := Spec.noted m) (m := m) (π := Prod.fst)
    { lenProblem := fun _ => rfl, setIteratives := fun _ _ => rfl, getIteratives := fun _ => rfl,
      evaluate := fun _ => rfl, getResiduals := fun _ => rfl, jacobianProvided := fun _ => rfl,
      getJacobian := fun _ => rfl, getMemory := fun _ => rfl, setMemory := fun _ _ => rfl,
      displayUnusable := fun _ => rfl } st (s, notes)

namespace Demo

theorem counting_memorable : Spec.Memorable counting := ⟨fun _ _ => rfl, fun _ _ => rfl, fun _ => rfl⟩

open scoped Exact in
/-- Iterations and notes of a solve. -/
def notesOf (c : Config ℚ 1) : Option (Nat × List (List ℚ × List ℚ)) :=
  match solve c (Spec.noted counting) .new (⟨fun _ => 0, fun _ => 0, 0⟩, []) with
  | .ok (st, (_, notes), _) => some (st.iter, notes)
  | .error _ => none

open scoped Exact in
theorem notesOf_eq {c : Config ℚ 1} {k notes} (h : notesOf c = some (k, notes)) :
    ∃ st s r, solve c (Spec.noted counting) .new (⟨fun _ => 0, fun _ => 0, 0⟩, []) = .ok (st, (s, notes), r) ∧
      st.iter = k := by
  unfold notesOf at h
  split at h
  · rename_i st s notes' r he
    cases h
    exact ⟨st, s, r, he, rfl⟩
  · cases h

end Demo

open scoped Exact in
/-- The claim is false with damping, also in exact arithmetic: for `x² - 2 + memory` from -5 the first step is refused,
and the halfway point is evaluated from the memory left by the refused point. -/
theorem C90_refuted : ¬ ∀ (c : Config ℚ 1) (m : UserModel ℚ 1 Empty Empty Demo.Counting) (_ : Spec.Memorable m)
    (N : Nat) (_ : ∀ s, m.lenProblem s = N) (st st' : Solver ℚ 1) (s s' : Demo.Counting)
    (notes : List (List ℚ × List ℚ)) (r : Except (SolverError Empty Empty) Unit)
    (_ : solve c (Spec.noted m) st (s, []) = .ok (st', (s', notes), r)),
    ∃ first rest, notes = (m.getMemory s, first) :: rest ∧ Spec.Orderly N (st'.iter - st.iter) first rest := by
  intro h
  obtain ⟨st, s, r, h1, h2⟩ := Demo.notesOf_eq (c := Demo.cfg .NewtonRaphson true 1 (1/1000) (-5)) (k := 1)
    (notes := [([0], [1]), ([1], [2]), ([1], [2]), ([2], [3])]) (by decide +kernel)
  obtain ⟨first, rest, h3, h4⟩ := h _ _ Demo.counting_memorable 1 (fun _ => rfl) _ _ _ _ _ _ h1
  rw [h2, show 1 - (Solver.new : Solver ℚ 1).iter = 1 from rfl] at h4
  obtain ⟨-, h3⟩ := List.cons.inj h3
  generalize hk : 1 = k at h4
  cases h4 with
  | done => cases hk
  | stopped _ _ hc hlen =>
    rw [← h3] at hlen
    exact absurd hlen (by decide)
  | pass k _ after cols rest _ hlen hr =>
    obtain rfl : k = 0 := by omega
    cases hr
    have := congrArg List.length h3
    simp at this
    omega

/-! ### The hypotheses can be met -/

open scoped Exact in
/-- Two iterations of Newton-Raphson: the guess, then twice a column and the proposed point. -/
example : ∃ first rest, [([0], [1]), ([1], [2]), ([1], [2]), ([2], [3]), ([2], [3])] = (([0] : List ℚ), first) :: rest ∧
    Spec.Orderly 1 2 first rest := by
  obtain ⟨st, s, r, h1, h2⟩ := Demo.notesOf_eq (c := Demo.cfg .NewtonRaphson false 2 (1/1000) 2) (k := 2)
    (notes := [([0], [1]), ([1], [2]), ([1], [2]), ([2], [3]), ([2], [3])]) (by decide +kernel)
  have := C90_memory_partial _ _ Demo.counting_memorable 1 (fun _ => rfl) rfl _ _ _ _ _ _ h1
  rwa [h2] at this

open scoped Exact in
/-- Broyden's first method with damping. -/
example : ∃ st s notes r, solve (Demo.cfg (.QuasiNewton (.JacobianUpdate .BroydenFirst)) true 3 (1/1000) (-5))
    (Spec.noted Demo.counting) .new (⟨fun _ => 0, fun _ => 0, 0⟩, []) = .ok (st, (s, notes), r) ∧ st.iter = 3 := by
  obtain ⟨st, s, r, h1, h2⟩ := Demo.notesOf_eq
    (c := Demo.cfg (.QuasiNewton (.JacobianUpdate .BroydenFirst)) true 3 (1/1000) (-5)) (k := 3)
    (notes := ((Demo.notesOf (Demo.cfg (.QuasiNewton (.JacobianUpdate .BroydenFirst)) true 3 (1/1000) (-5))).getD
      (0, [])).2) (by decide +kernel)
  exact ⟨st, s, _, r, h1, h2⟩

end Nrf
