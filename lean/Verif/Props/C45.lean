import Verif.Spec.Demo

/-!
# C45: every dimension mismatch is rejected at construction
-/

namespace Nrf

/-- `ResidualsConfig::new` succeeds exactly on slices of the same length, and keeps
them. -/
theorem C45_residuals_config (stop upd : List NormalizationMethod) :
    (stop.length = upd.length → ∃ r, ResidualsConfig.new stop upd = some r ∧
      r.stoppingCriterias = stop ∧ r.updateMethods = upd ∧ r.length = stop.length) ∧
    (stop.length ≠ upd.length → ResidualsConfig.new stop upd = none) := by
  unfold ResidualsConfig.new
  exact ⟨fun h => ⟨_, if_neg (by simpa using h), rfl, rfl, rfl⟩, fun h => if_pos h⟩

/-- `RootFinder::new` succeeds exactly when the residual configuration, the guess and the
iteratives have `problem_size` elements. -/
theorem C45_rootfinder {F : Type} (p : SolverParameters F) (guess : List F)
    (iters : List (Iterative F)) (stop upd : List NormalizationMethod) (r : ResidualsConfig)
    (hr : ResidualsConfig.new stop upd = some r) (la : (n : Nat) → LinAlg F n) (h) :
    (∃ c, Config.new p guess iters r h la = .ok c) ↔
      stop.length = p.problemSize ∧ upd.length = p.problemSize ∧
      guess.length = p.problemSize ∧ iters.length = p.problemSize := by
  have h0 : stop.length = upd.length := by
    by_contra h0
    rw [(C45_residuals_config stop upd).2 h0] at hr
    cases hr
  obtain ⟨r', h1, h2, h3, h4⟩ := (C45_residuals_config stop upd).1 h0
  rw [hr] at h1
  cases h1
  unfold Config.new
  constructor
  · rintro ⟨c, hc⟩
    split at hc
    · cases hc
    split at hc
    · cases hc
    split at hc
    · cases hc
    rename_i g1 g2 g3
    simp only [ne_eq, not_not] at g1 g2 g3
    exact ⟨by omega, by omega, g2, g3⟩
  · rintro ⟨g1, -, g2, g3⟩
    exact ⟨_, by rw [dif_neg (by omega), dif_neg (by omega), dif_neg (by omega)]⟩

/-- The solver built by `RootFinder::new` holds exactly what it was given. -/
theorem C45_contents {F : Type} (p : SolverParameters F) (guess : List F)
    (iters : List (Iterative F)) (r : ResidualsConfig) (la : (n : Nat) → LinAlg F n) (h)
    (c : Config F p.problemSize) (hc : Config.new p guess iters r h la = .ok c) :
    c.params = p ∧ List.ofFn c.guess = guess ∧ List.ofFn c.iters = iters ∧
      List.ofFn c.res.stop = r.stoppingCriterias ∧ List.ofFn c.res.upd = r.updateMethods := by
  unfold Config.new at hc
  split at hc
  · cases hc
  split at hc
  · cases hc
  split at hc
  · cases hc
  rename_i g1 g2 g3
  simp only [ne_eq, not_not] at g1 g2 g3
  cases hc
  have key : ∀ {α : Type} (l : List α) (k : Nat) (hk : l.length = k),
      List.ofFn (fun i : Fin k => l[i.val]'(by omega)) = l := by
    intro α l k hk
    subst hk
    exact List.ofFn_getElem
  exact ⟨rfl, key _ _ g2, key _ _ g3, key _ _ (by omega), key _ _ (by omega)⟩

/-- Two equations and two unknowns are accepted; a guess with one entry is not. -/
example : (∃ c, Config.new (F := ℚ)
      { problemSize := 2, tolerance := 1, maxIter := 1, method := .NewtonRaphson, damping := false }
      [1, 2] (List.replicate 2 (@IterativeParams.toIterative ℚ (exactScalar ℚ)
        ⟨1, 1, 0, 1⟩)) ⟨[.Abs, .Rel], [.Abs, .Abs], 2⟩ ⟨rfl, rfl⟩
      (fun n => exactLinAlg ℚ n) = .ok c) ∧
    ∀ c, Config.new (F := ℚ)
      { problemSize := 2, tolerance := 1, maxIter := 1, method := .NewtonRaphson, damping := false }
      [1] (List.replicate 2 (@IterativeParams.toIterative ℚ (exactScalar ℚ)
        ⟨1, 1, 0, 1⟩)) ⟨[.Abs, .Rel], [.Abs, .Abs], 2⟩ ⟨rfl, rfl⟩
      (fun n => exactLinAlg ℚ n) ≠ .ok c :=
  ⟨⟨_, rfl⟩, fun _ h => by cases h⟩

end Nrf
