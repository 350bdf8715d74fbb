import Verif.Proofs.Tolerance
import Verif.Proofs.Limits
import Verif.Spec.Demo

/-!
# C62: a smaller tolerance only continues the resolution

`t` is at least as strict as `T`: an error above `T` is above `t`.
-/

namespace Nrf

open scoped Exact in
/-- In exact arithmetic, a smaller tolerance is stricter. -/
theorem C62_stricter {K : Type} [Field K] [LinearOrder K] (t T : K) (h : t ≤ T) :
    ∀ e, Scalar.lt T e = true → Scalar.lt t e = true :=
  fun _ he => decide_eq_true (lt_of_le_of_lt h (of_decide_eq_true he))

/-- In floating point, a smaller tolerance is stricter. -/
theorem C62_stricter_float {K : Type} [Field K] [LinearOrder K] [Rounding K] [IsStrictOrderedRing K]
    (t T : Fl K) (h : Scalar.le t T = true) :
    ∀ e, Scalar.lt T e = true → Scalar.lt t e = true := by
  intro e he
  change Fl.ltb T e = true at he
  change Fl.leb t T = true at h
  change Fl.ltb t e = true
  have hen : e ≠ .nan := by rintro rfl; cases T <;> cases he
  rw [Fl.ltb_iff (Fl.not_nan_of_leb_right h) hen] at he
  rw [Fl.ltb_iff (Fl.not_nan_of_leb_left h) hen]
  exact fun h1 => he (Fl.leb_trans h1 h)

/-- A solve that failed for another reason than an inaccurate final evaluation fails in the same way,
in the same state, with every stricter tolerance; a panic stays a panic. -/
theorem C62_same_failure {F : Type} [Scalar F] {n : Nat} {EI EU S : Type}
    (c : Config F n) (m : UserModel F n EI EU S) (st : Solver F n) (s : S) (t T : F)
    (ht : ∀ e, Scalar.lt T e = true → Scalar.lt t e = true)
    (hn : ∀ st' s' r, solve { c with params := { c.params with tolerance := T } } m st s =
      .ok (st', s', r) → r ≠ .ok () ∧ r ≠ .error .finalEvaluation) :
    solve { c with params := { c.params with tolerance := t } } m st s =
      solve { c with params := { c.params with tolerance := T } } m st s := by
  have h := solve_tol (c := c) (m := m) (st := st) (s := s) ht
  change ∀ st' s' r, solve (withTol c T) m st s = _ → _ at hn
  change solve (withTol c t) m st s = solve (withTol c T) m st s
  rcases hr : solve (withTol c T) m st s with p | ⟨st', s', err | u⟩
  · rw [hr] at h; exact h
  · match err, hr with
    | .finalEvaluation, hr => exact absurd rfl (hn st' s' _ hr).2
    | .modelInitialEvaluation msg, hr => rw [hr] at h; exact h
    | .modelEvaluation e, hr => rw [hr] at h; exact h
    | .jacobian e, hr => rw [hr] at h; exact h
    | .nonConvergence, hr => rw [hr] at h; exact h
  · exact absurd rfl (hn st' s' _ hr).1

/-- Whatever is solved with the stricter tolerance is solved with the other one, unless the first
evaluation within the looser tolerance was inaccurate. -/
theorem C62_solved {F : Type} [Scalar F] {n : Nat} {EI EU S : Type}
    (c : Config F n) (m : UserModel F n EI EU S) (st st2 : Solver F n) (s s2 : S) (t T : F)
    (ht : ∀ e, Scalar.lt T e = true → Scalar.lt t e = true)
    (h : solve { c with params := { c.params with tolerance := t } } m st s = .ok (st2, s2, .ok ())) :
    ∃ st1 s1 r, solve { c with params := { c.params with tolerance := T } } m st s =
      .ok (st1, s1, r) ∧ (r = .ok () ∨ r = .error .finalEvaluation) := by
  by_contra hcon
  have := C62_same_failure c m st s t T ht (fun st' s' r hr => by
    constructor <;> rintro rfl
    · exact hcon ⟨_, _, _, hr, .inl rfl⟩
    · exact hcon ⟨_, _, _, hr, .inr rfl⟩)
  rw [h] at this
  exact hcon ⟨_, _, _, this.symm, .inl rfl⟩

/-- A successful solve made the first calls of the solve with a stricter tolerance. -/
theorem C62_continues {F : Type} [Scalar F] {n : Nat} {EI EU S : Type}
    (c : Config F n) (m : UserModel F n EI EU S) (st st1 st2 : Solver F n) (s s1 s2 : S)
    (t T : F) (ht : ∀ e, Scalar.lt T e = true → Scalar.lt t e = true)
    (calls1 calls2 : List (Call F n EI EU)) (r : Except (SolverError EI EU) Unit)
    (h1 : solve { c with params := { c.params with tolerance := T } } (recorded m) st (s, []) =
      .ok (st1, (s1, calls1), .ok ()))
    (h2 : solve { c with params := { c.params with tolerance := t } } (recorded m) st (s, []) =
      .ok (st2, (s2, calls2), r)) :
    calls1 <+: calls2 ∧ st1.iter ≤ st2.iter := by
  have h := solve_tol (c := c) (m := recorded m) (st := st) (s := (s, [])) ht
  change solve (withTol c T) (recorded m) st (s, []) = _ at h1
  change solve (withTol c t) (recorded m) st (s, []) = _ at h2
  rw [h1, h2] at h
  obtain ⟨e, h⟩ := h
  have e0 : (withTol c t).params.maxIter = c.params.maxIter := rfl
  rcases hl : loop (withTol c t) (recorded m) (c.params.maxIter - st1.iter) st1 (s1, calls1) e with
    p | ⟨st3, ⟨s3, t3⟩, err | e3⟩
  · rw [hl] at h; cases h
  · rw [hl] at h; cases h
    refine ⟨loop_calls_prefix (by rw [e0]; omega) hl, ?_⟩
    cases loop_outcome _ (by rw [e0]; omega) hl with
    | failed hr hc hi => have := hr.iter_le; have := iterate_iter hi; omega
  · rw [hl] at h; cases h
    refine ⟨loop_calls_prefix (by rw [e0]; omega) hl, ?_⟩
    cases loop_outcome _ (by rw [e0]; omega) hl with
    | exit hr hc => exact hr.iter_le

open scoped Exact in
/-- `x² = 2` with tolerances 1/2 (one iteration) and 1/1000 (three); a budget of one iteration is
exhausted with both 1/10 and 1/1000. -/
example :
    (∃ a b, solve (Demo.cfg .NewtonRaphson false 5 (1 / 2) 2) (recorded Demo.sqrt2) .new
      (Demo.start, []) = .ok (a, b, .ok ())) ∧
    (∃ a b, solve (Demo.cfg .NewtonRaphson false 5 (1 / 1000) 2) (recorded Demo.sqrt2) .new
      (Demo.start, []) = .ok (a, b, .ok ())) ∧
    (∃ a b, solve (Demo.cfg .NewtonRaphson false 1 (1 / 10) 2) Demo.sqrt2 .new Demo.start =
      .ok (a, b, .error .nonConvergence)) :=
  ⟨Demo.kind_ok (by decide +kernel), Demo.kind_ok (by decide +kernel),
    Demo.kind_nonConvergence (by decide +kernel)⟩

end Nrf
