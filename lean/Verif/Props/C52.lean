import Verif.Props.C45

/-!
# C52: `default_with_guess`
-/

namespace Nrf

/-- `default_with_guess` builds a solver exactly when the residual configuration and the
iteratives have as many elements as the guess. -/
theorem C52_accepted {F : Type} [Scalar F] (guess : List F) (iters : List (Iterative F))
    (stop upd : List NormalizationMethod) (r : ResidualsConfig)
    (hr : ResidualsConfig.new stop upd = some r) (h) (method : ResolutionMethod) (damping : Bool)
    (la : (n : Nat) → LinAlg F n) :
    (∃ c, defaultWithGuess guess iters r h method damping la = .ok c) ↔
      stop.length = guess.length ∧ upd.length = guess.length ∧ iters.length = guess.length := by
  have := C45_rootfinder (defaultParameters guess method damping) guess iters stop upd r hr la h
  refine this.trans ⟨fun ⟨h1, h2, _, h3⟩ => ⟨h1, h2, h3⟩, fun ⟨h1, h2, h3⟩ => ⟨h1, h2, rfl, h3⟩⟩

/-- The solver built: size of the guess, tolerance `1e-6`, 50 iterations, and everything
else as given. -/
theorem C52_contents {F : Type} [Scalar F] (guess : List F) (iters : List (Iterative F))
    (r : ResidualsConfig) (h) (method : ResolutionMethod) (damping : Bool)
    (la : (n : Nat) → LinAlg F n) (c : Config F guess.length)
    (hc : defaultWithGuess guess iters r h method damping la = .ok c) :
    c.params.problemSize = guess.length ∧ c.params.tolerance = Scalar.dec 1 6 ∧
      c.params.maxIter = 50 ∧ c.params.method = method ∧ c.params.damping = damping ∧
      List.ofFn c.guess = guess ∧ List.ofFn c.iters = iters ∧
      List.ofFn c.res.stop = r.stoppingCriterias ∧ List.ofFn c.res.upd = r.updateMethods := by
  obtain ⟨h1, h2⟩ := C45_contents (defaultParameters guess method damping) guess iters r la h c hc
  rw [h1]
  exact ⟨rfl, rfl, rfl, rfl, rfl, h2⟩

open scoped Exact in
/-- The tolerance is one millionth. -/
theorem C52_tolerance {K : Type} [Field K] [LinearOrder K] : (Scalar.dec 1 6 : K) = 1 / 1000000 := by
  change ((1 : ℕ) : K) / 10 ^ 6 = _
  norm_num

/-- The default residuals split into two slices of the requested length, all absolute. -/
theorem C52_default_residuals (size : Nat) :
    convertIntoVecs (defaultVecResiduals size) =
      (List.replicate size .Abs, List.replicate size .Abs) := by
  have key : ∀ (k : Nat) (a b : List NormalizationMethod),
      (List.replicate k ResidualConfig.default).foldl
        (fun (acc : List NormalizationMethod × List NormalizationMethod) elt =>
          (acc.1 ++ [elt.stoppingCriteria], acc.2 ++ [elt.updateMethod])) (a, b) =
      (a ++ List.replicate k .Abs, b ++ List.replicate k .Abs) := by
    intro k
    induction k with
    | zero => intro a b; simp
    | succ k ih =>
      intro a b
      rw [List.replicate_succ, List.foldl_cons, ih]
      simp [ResidualConfig.default, List.replicate_succ]
  simpa [convertIntoVecs, defaultVecResiduals] using key size [] []

/-- Default residuals and default iteratives (with or without perturbations) of the length
of the guess are accepted, whatever the guess. -/
theorem C52_defaults_accepted {F : Type} [Scalar F] [HasSpecials F] (guess : List F)
    (method : ResolutionMethod) (damping : Bool) (la : (n : Nat) → LinAlg F n) :
    ∃ (r : ResidualsConfig)
      (h : r.length = r.stoppingCriterias.length ∧ r.length = r.updateMethods.length),
      ResidualsConfig.new (convertIntoVecs (defaultVecResiduals guess.length)).1
        (convertIntoVecs (defaultVecResiduals guess.length)).2 = some r ∧
      (∃ c, defaultWithGuess guess
        ((defaultVecIteratives guess.length).map IterativeParams.toIterative) r h method damping la
          = .ok c) ∧
      (∃ c, defaultWithGuess guess
        ((defaultVecIterativesFd guess.length).map IterativeParamsFD.toIterative) r h method damping la
          = .ok c) := by
  rw [C52_default_residuals]
  obtain ⟨r, hr, h1, h2, h3⟩ := (C45_residuals_config
    (List.replicate guess.length .Abs) (List.replicate guess.length .Abs)).1 rfl
  have h : r.length = r.stoppingCriterias.length ∧ r.length = r.updateMethods.length := by
    rw [h1, h2, h3]; simp
  refine ⟨r, h, hr, ?_, ?_⟩
  · exact (C52_accepted _ _ _ _ r hr h _ _ _).2
      ⟨by simp, by simp, by simp [defaultVecIteratives]⟩
  · exact (C52_accepted _ _ _ _ r hr h _ _ _).2
      ⟨by simp, by simp, by simp [defaultVecIterativesFd]⟩

/-- A guess of two entries with two equations is accepted, with three iteratives it is
not. -/
example : (∃ c, @defaultWithGuess ℚ (exactScalar ℚ)
      [1, 2] (List.replicate 2 (@IterativeParams.toIterative ℚ (exactScalar ℚ) ⟨1, 1, 0, 1⟩))
      ⟨[.Abs, .Rel], [.Abs, .Abs], 2⟩ ⟨rfl, rfl⟩ .NewtonRaphson false
      (fun n => exactLinAlg ℚ n) = .ok c) ∧
    ∀ c, @defaultWithGuess ℚ (exactScalar ℚ)
      [1, 2] (List.replicate 3 (@IterativeParams.toIterative ℚ (exactScalar ℚ) ⟨1, 1, 0, 1⟩))
      ⟨[.Abs, .Rel], [.Abs, .Abs], 2⟩ ⟨rfl, rfl⟩ .NewtonRaphson false
      (fun n => exactLinAlg ℚ n) ≠ .ok c :=
  ⟨⟨_, rfl⟩, fun _ h => by cases h⟩

end Nrf
