import Verif.Proofs.NoPanic
import Verif.Spec.Demo

/-!
# C12: a fresh solve never panics on a well behaved model
-/

namespace Nrf

/-- For every well behaved model, arithmetic, method and configuration, the first
solve of a new solver returns. -/
theorem C12_fresh_solve_never_panics {F : Type} [Scalar F] {n : Nat} {EI EU S : Type}
    (c : Config F n) (m : UserModel F n EI EU S) (hw : Spec.WellBehaved c m) (s : S) :
    ∃ st' s' r, solve c m .new s = .ok (st', s', r) := by
  obtain ⟨st', s', r, h, -⟩ := solve_progress hw s (Ready.new c.params.method) (fun h => by cases h)
  exact ⟨st', s', r, h⟩

/-- The same with the debug log activated, in dimension at least one. -/
theorem C12_fresh_solve_never_panics_debug {F : Type} [Scalar F] {n : Nat} {EI EU S : Type}
    (c : Config F n) (m : UserModel F n EI EU S) (hw : Spec.WellBehaved c m) (s : S) (hn : n ≠ 0) :
    ∃ st' s' r, solve c m Solver.new.activateDebug s = .ok (st', s', r) := by
  obtain ⟨st', s', r, h, -⟩ := solve_progress hw s (Ready.new c.params.method).activateDebug
    (fun _ => hn)
  exact ⟨st', s', r, h⟩

open scoped Exact in
/-- Both adapters are well behaved with the demonstration configuration. -/
example (meth : ResolutionMethod) (damping : Bool) :
    Spec.WellBehaved (Demo.cfg meth damping 5 (1 / 1000) 2) Demo.sqrt2 ∧
    Spec.WellBehaved (Demo.cfg meth damping 5 (1 / 1000) 2) Demo.sqrt2Fd :=
  ⟨⟨fun _ _ e => (nomatch e), fun _ h => (by cases h), fun _ _ e => (nomatch e)⟩,
    ⟨fun _ h => (by cases h), fun _ _ => ⟨le_refl _, fun _ => rfl⟩, fun _ _ e => (nomatch e)⟩⟩

end Nrf
