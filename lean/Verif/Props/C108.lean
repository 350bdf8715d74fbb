import Verif.Proofs.F64Debug

/-!
# C108: the `Debug` text of the solver shows its complete state
-/

namespace Nrf

/-- Two root finders whose texts are equal, with `{:?}` or `{:#?}`, agree in everything but the log: the configuration
and all of the mutable state. -/
def SameExceptLog {n : Nat} {α : Type} (a b : RootFinderView F64 n α) : Prop :=
  a.params = b.params ∧ a.guess = b.guess ∧ a.iters = b.iters ∧ a.res = b.res ∧ a.st.debug = b.st.debug ∧
    a.st.iter = b.st.iter ∧ a.st.valid = b.st.valid ∧ a.st.jac = b.st.jac ∧ a.st.itStep = b.st.itStep ∧
    a.st.resStep = b.st.resStep ∧ a.st.resCur = b.st.resCur

theorem C108_solver {n : Nat} (mode : Option Nat) (a b : RootFinderView F64 n (IterativeParams F64)) :
    a.debugText f64Debug (IterativeParams.debug f64Debug) mode = b.debugText f64Debug (IterativeParams.debug f64Debug) mode ↔
      SameExceptLog a b := by
  refine ⟨fun h => (reads_rootFinder f64Debug_good (reads_params f64Debug_good)).eq h, ?_⟩
  obtain ⟨p, g, it, r, s⟩ := a
  obtain ⟨p', g', it', r', s'⟩ := b
  rintro ⟨rfl, rfl, rfl, rfl, h1, h2, h3, h4, h5, h6, h7⟩
  dsimp only at h1 h2 h3 h4 h5 h6 h7
  simp only [RootFinderView.debugText, h1, h2, h3, h4, h5, h6, h7]

theorem C108_solver_fd {n : Nat} (mode : Option Nat) (a b : RootFinderView F64 n (IterativeParamsFD F64)) :
    a.debugText f64Debug (IterativeParamsFD.debug f64Debug) mode =
      b.debugText f64Debug (IterativeParamsFD.debug f64Debug) mode ↔ SameExceptLog a b := by
  refine ⟨fun h => (reads_rootFinder f64Debug_good (reads_paramsFD f64Debug_good)).eq h, ?_⟩
  obtain ⟨p, g, it, r, s⟩ := a
  obtain ⟨p', g', it', r', s'⟩ := b
  rintro ⟨rfl, rfl, rfl, rfl, h1, h2, h3, h4, h5, h6, h7⟩
  dsimp only at h1 h2 h3 h4 h5 h6 h7
  simp only [RootFinderView.debugText, h1, h2, h3, h4, h5, h6, h7]

/-- The same for the parts that can be printed on their own. -/
theorem C108_parts {n : Nat} (mode : Option Nat) :
    (Function.Injective fun p : SolverParameters F64 => p.debug f64Debug mode) ∧
    (Function.Injective fun p : IterativeParams F64 => p.debug f64Debug mode) ∧
    (Function.Injective fun p : IterativeParamsFD F64 => p.debug f64Debug mode) ∧
    (Function.Injective fun r : ResidualConfig => r.debug mode) ∧
    (Function.Injective fun r : ResidualsConfig => r.debug mode) ∧
    (Function.Injective fun v : ResidualsValues F64 n => v.debug f64Debug mode) ∧
    (Function.Injective fun v : JacobianValues F64 n => v.debug f64Debug mode) ∧
    (Function.Injective fun m : ResolutionMethod => m.debug mode) :=
  ⟨fun _ _ h => (reads_parameters f64Debug_good).eq h, fun _ _ h => (reads_params f64Debug_good).eq h,
    fun _ _ h => (reads_paramsFD f64Debug_good).eq h, fun _ _ h => reads_residual.eq h,
    fun _ _ h => reads_residuals.eq h, fun _ _ h => (reads_residualsValues f64Debug_good).eq h,
    fun _ _ h => (reads_jacobianValues f64Debug_good).eq h, fun _ _ h => reads_method.eq h⟩

/-- The numbers in these texts are read back by `str::parse::<f64>` exactly. -/
theorem C108_numbers (x : F64) : parseF64 (String.ofList (f64Debug x)) = some x := by
  unfold parseF64
  rw [String.toList_ofList]
  exact parse_f64Debug x

/-- `Display` does not tell whether the Jacobian or its inverse is updated, `Debug` does. -/
theorem C108_methods (m : UpdateMethod) (mode : Option Nat) :
    (ResolutionMethod.QuasiNewton (.JacobianUpdate m)).text =
      (ResolutionMethod.QuasiNewton (.InverseJacobianUpdate m)).text ∧
    (ResolutionMethod.QuasiNewton (.JacobianUpdate m)).debug mode ≠
      (ResolutionMethod.QuasiNewton (.InverseJacobianUpdate m)).debug mode :=
  ⟨rfl, fun h => by cases reads_method.eq h⟩

/-- `{:#?}` differs from `{:?}` in spaces, line ends and commas only. -/
theorem C108_layout {n d : Nat} (a : RootFinderView F64 n (IterativeParamsFD F64)) :
    (a.debugText f64Debug (IterativeParamsFD.debug f64Debug) (some d)).filter (· ∉ [' ', '\n', ',']) =
      (a.debugText f64Debug (IterativeParamsFD.debug f64Debug) none).filter (· ∉ [' ', '\n', ',']) :=
  flat_rootFinder f64Debug (flat_paramsFD f64Debug) a d

/-! ## A solver after one pass -/

namespace C108Demo

def q (x : ℚ) : F64 := Fl.ofExact false x

/-- A quasi-Newton solver in dimension 2 with a step limitation on the second variable. -/
def sample : RootFinderView F64 2 (IterativeParams F64) where
  params := ⟨2, q (1 / 10 ^ 6), 50, .QuasiNewton (.InverseJacobianUpdate .BroydenFirst), true⟩
  guess := fun i => q i.val
  iters := [⟨.inf false, q (1 / 2), .inf true, q (10 ^ 17)⟩]
  res := ⟨[.Abs, .Rel], [.Abs, .Adapt], 2⟩
  st := { Solver.new with iter := 1, itStep := some fun _ => q (-3 / 2), resStep := some fun _ => .zero true }

example : String.ofList (sample.debugText f64Debug (IterativeParams.debug f64Debug) none) =
    "Rootfinder { Solver parameters: Solver parameters { Problem size: 2, Max iteration: 50, Solver tolerance: 1e-6, " ++
    "Resolution method: QuasiNewton(InverseJacobianUpdate(BroydenFirst)), Damping activated: true }, " ++
    "Initial Guess: [[0.0, 1.0]], Iterative configuration: [IterativeParams { max_step_abs: inf, max_step_rel: 0.5, " ++
    "min_value: -inf, max_value: 1e17 }], Residual configuration: ResidualsConfig { stopping_criterias: [Abs, Rel], " ++
    "update_methods: [Abs, Adapt], length: 2 }, Debug option activated: false, Current iteration: 1, " ++
    "Status last model evaluation: true, Placeholder jacobian: Jacobian matrix { Matrix: None, Matrix Inverse: None, " ++
    "Compute jacobian at next iteration: : true, Is current jacobian approximated: : false }, " ++
    "Placeholder iterative step: Some([[-1.5, -1.5]]), Placeholder residual step: Some([[-0.0, -0.0]]), " ++
    "Placeholder current residual: None }" := by decide +kernel

/-- `{:#?}` of the parameters alone. -/
example : String.ofList (sample.params.debug f64Debug (some 0)) =
    "Solver parameters {\n    Problem size: 2,\n    Max iteration: 50,\n    Solver tolerance: 1e-6,\n" ++
    "    Resolution method: QuasiNewton(\n        InverseJacobianUpdate(\n            BroydenFirst,\n        ),\n    ),\n" ++
    "    Damping activated: true,\n}" := by decide +kernel

/-- `{:#?}` of the initial guess, and of an empty list. -/
example : String.ofList (debugVec f64Debug sample.guess (some 0)) =
    "[\n    [\n        0.0,\n        1.0,\n    ],\n]" ∧
    String.ofList (debugVec f64Debug (fun i => i.elim0 : Vec F64 0) (some 0)) = "[\n    [],\n]" := by decide +kernel

/-- Columns are printed, not rows. -/
example : String.ofList (debugMat f64Debug (fun i j : Fin 2 => q (10 * i.val + j.val)) none) =
    "[[0.0, 10.0], [1.0, 11.0]]" := by decide +kernel

/-- The counter of a second solver differs: so does its text, with both modes. -/
example (mode : Option Nat) : sample.debugText f64Debug (IterativeParams.debug f64Debug) mode ≠
    { sample with st := { sample.st with iter := 2 } }.debugText f64Debug (IterativeParams.debug f64Debug) mode :=
  fun h => absurd ((C108_solver mode _ _).1 h).2.2.2.2.2.1 (by decide)

/-- Zero with its sign, the limits of the notation without exponent, the largest and the smallest number. -/
example : ([.zero true, q (1 / 3), q (1 / 10 ^ 4), q (99 / 10 ^ 6), q (10 ^ 16), q (10 ^ 15),
      q ((2 - 1 / 2 ^ 52) * 2 ^ 1023), q (1 / 2 ^ 1074), q (123456789 / 10 ^ 20), .nan] : List F64).map (fun x => String.ofList (f64Debug x)) =
    ["-0.0", "0.3333333333333333", "0.0001", "9.9e-5", "1e16", "1000000000000000.0", "1.7976931348623157e308", "5e-324",
      "1.23456789e-12", "NaN"] := by decide +kernel

end C108Demo

end Nrf
