# Verification of `newton_rootfinder` (Lean 4 model)

The repository at `/repo` is a Rust crate that solves n-dimensional nonlinear
systems with Newton and quasi-Newton methods.  This directory holds a Lean 4
model of that crate, written by hand from the source text, and theorems about
it.  The Rust code was never built or run here.  The only tie between model and
code is the citation (file and lines) on every model definition.

Contents: 1 trusted base, 2 what is modelled, 3 layout of the proofs, 4 the
properties one by one, 5 disagreements between code and documentation, 6 testing
of the theorems.

## 1. Trusted base

* The Lean 4.33 kernel, and Mathlib as installed.
* Axioms.  No axiom is declared here; `sorry`, `admit`, `native_decide`,
  `bv_decide`, `implemented_by` and `unsafe` are not used.  `decide +kernel`
  (evaluation by the kernel, no axiom) is used for concrete witnesses.
  `#print axioms` for the 448 property theorems:

* no axioms: C53_function, C53_function_and_jacobian, C53_fresh, C55_solver1d, C55_solver1d_fd, C55_initial_guess, C94_new.
* `propext`: C07_unusable_initial_evaluation, C115_reset, C17_first_iteration, C36_stored_partial, C45_residuals_config, C52_default_residuals, C94_function, C94_jacobian.
* `propext, Quot.sound`: C01_any_arithmetic, C03_recording_is_faithful, C04_any_arithmetic, C05_any_arithmetic, C06_latent_variables_up_to_date, C07_only_then, C08_unusable_always_aborts, C09_inaccurate_does_not_disturb, C10_final_evaluation_partial, C10_refuted_initial, C107_values, C107_plane, C107_line, C107_plane_jacobian, C107_line_jacobian, C11_inaccurate_jacobian_panics, C112_methods, C115_exhausted, C115_idle, C13_error_while_damping_panics, C16_newton_raphson, C16_quasi_newton, C16_finite_differences, C16_stationary_lifetime, C18_exact, C22_exact, C24_refuted_exact, C24_max_partial, C32_points_partial, C41_iteration_partial, C41_solve_partial, C41_midpoint_partial, C42_analytic, C43_same_resolution_partial, C43_same_calls_partial, C43_refuted_dimension_zero, C44_log, C44_silent, C49_unknown_attribute, C52_tolerance, C53_outcomes, C55_exact, C57_contains, C58_same_outcome, C58_continues, C60_used, C62_stricter, C62_same_failure, C62_continues, C81_new, C82_new, C90_noting_is_faithful, C94_consistent, C94_missing, C94_adapter_size, C94_function_size, C94_jacobian_size, C94_debug, C94_surplus_variables, C94_missing_variables, C94_missing_perturbations.
* `propext, Classical.choice, Quot.sound`: all other property theorems (372).

* The reading of the Rust source recorded in the comments of
  `lean/Verif/Model/*.lean`.
* External code, represented as follows.
  * `f64`: a type class `Scalar` with operations and no laws.  Theorems that use
    `Scalar` alone hold for any implementation, hence for hardware floats.
    Numeric theorems fix an instance:
    * `Exact`: an ordered field (no rounding, NaN or infinity);
    * `Fl K` (`Model/Float.lean`): NaN, signed infinities and zeros, finite
      numbers, exact operations followed by any monotone, odd, idempotent
      rounding with overflow.  Written from IEEE 754 and the documentation of
      `f64::{abs, signum, min, max}`.  NaN payloads are not modelled;
    * `F64` (`Model/Binary64.lean`): `Fl ℚ` with rounding to nearest even in
      binary64, subnormals included.  Used for float witnesses.
  * `nalgebra`: products are sums of products; the inner summation (`dot`) and
    the LU inverse (`inv`) are parameters (`LinAlg`).  Theorems about control flow
    hold for any choice.  Exact theorems assume the mathematical sum and "`inv`
    returns the inverse exactly when the determinant is not zero" (`IsExact`).
    nalgebra's LU algorithm itself is in `Model/Lu.lean` (from memory); C75 proves
    that it is `IsExact`, and `Validate/Recorded.lean` that in binary64 it
    reproduces the log recorded in the repository.  `Validate/Suite.lean` and
    `SuiteFive.lean` run 63 of the repository's own tests on the model, and all pass;
    the first example of the documentation prints the documented digits.
  * `amax` follows nalgebra 0.33 / simba (`if a >= b {a} else {b}` folded from
    the left over absolute values, 0 when empty).  The source of nalgebra is not
    on this machine, so this was written from memory.  It matters only for
    vectors that contain NaN; the NaN witnesses use dimension one or all-NaN
    vectors, where every candidate definition agrees.
  * The user's model: an arbitrary state type with arbitrary functions.  Its
    `&self` methods are assumed not to change it (no interior mutability).  For
    the function adapters, the user's functions are assumed pure: a closure that
    changes its captured state is outside the model.
  * Log file: an append-only list of entries; their texts are in `Model/Text.lean`,
    with the texts of numbers and matrices as parameters.  `Model/Display.lean` gives
    the texts of `f64` and of nalgebra matrices.  `Model/Program.lean` has the file
    itself: single writes, any of which may fail after some characters (of the
    bytes of a character, all or none are written), a missing file, and user
    methods that panic.  Nobody else touches the file meanwhile.
  * XML: `minidom` is not modelled from its source.  The other theorems start from
    the element tree it delivers; C110 starts from the text, for texts that lay out a
    tree in the sense of `Spec/XmlLayout.lean` (`Model/XmlText.lean` is written from
    the XML recommendation).  `str::parse::<f64>` is a parameter, given by
    `Model/ParseFloat.lean`.  Parsing of
    `usize` (64-bit) and `bool` is modelled.
  * Integer overflow: the iteration counter is a natural number; `usize`
    overflow would need 2^64 iterations.

## 2. What is and is not modelled

| Source | Model | Not modelled |
|---|---|---|
| `solver/rootfinder.rs` | `Model/RootFinder.lean` | |
| the same with `solver/log.rs`, as a program with side effects | `Model/Program.lean` | |
| `solver/jacobian/*.rs` | `Model/Jacobian.lean` | |
| `solver/resolution_method.rs` | `Model/Method.lean` | |
| `solver/parameters.rs`, `solver/default.rs` | `Model/Config.lean` | |
| `residuals/*.rs` | `Model/Residuals.lean` | the unused enum `StoppingCriteria` |
| `iteratives/*.rs` | `Model/Iteratives.lean`, `Model/Equality.lean` (the derived `PartialEq`) | — |
| `fmt::Debug` of all types, by hand and derived | `Model/DebugText.lean` (static dimensions) | `Debug` of vectors and matrices with dynamic dimensions |
| `model/*.rs`, `errors.rs` | `Model/UserModel.lean`, `Model/Errors.lean` | |
| `solver/log.rs`, `fmt::Display` of all parameters | `Model/Log.lean`, `Model/Text.lean`, `Model/LogInfo.lean` (feature `additional_log_info`) | |
| `xml_parser/*.rs` | `Model/Xml.lean`, `Model/XmlText.lean` (file and text to tree; `minidom` written from the XML recommendation, for tags, attributes, text, comments and the declaration) | `parser.rs` (not compiled); texts with references, CDATA, document types, namespaces, and what `minidom` does with texts that are not well formed |
| `f64` and matrix `Display`, `f64::from_str`, nalgebra `try_inverse` | `Model/Display.lean`, `Model/ParseFloat.lean`, `Model/Lu.lean` | formatting flags |
| `util/src/solver_one_dimensional.rs` | `Model/Solver1d.lean` | |
| `benches/broyden_case8.rs`, `benches/square2/*_types.rs` | `Model/Benchmarks.lean` (the calls of `solve`) | `criterion`, the parsing benchmark, `minimal_solver_ref.rs` |
| `util/src/test_cases/*.rs` | `Model/TestCases.lean` (recursions), `Model/TestLoops.lean` (loops and index checks) | |

Simplifications: vectors have a fixed dimension `n` (`Fin n → F`), as with
nalgebra's static dimensions.  `Model/Dynamic.lean` models `solve` (with the
log) for `Dyn`, with every length checked where the code or nalgebra checks it;
C94 shows that it agrees with the fixed dimension when the model's vectors have
`problem_size` entries, and what happens when they do not.  `len_problem()` is kept as
an arbitrary number.  Panics are values (`Panic`); in `Model/RootFinder.lean` what
is left after a panic is not recorded, in `Model/Program.lean` it is: there the fields
and files are a state that survives (C100 shows that the two agree).  The `while` loop is structural recursion on
`max_iter - iter`, which the code's own counter bounds.

## 3. Layout

* `Model/`: the code.
* `Spec/`: definitions used to state properties, none of which is used by the
  model: recorded calls, contracts of user models, exact arithmetic, documents,
  concrete problems.
* `Proofs/`: lemmas.
* `Validate/`: tests of the model (not properties): the kernel runs it on inputs
  whose outputs are recorded in the repository, and compares.
* `Props/Cxx.lean`: the property theorems, each with an `example` that meets its
  hypotheses.  A theorem named `_refuted` shows that the property, as stated, is
  false of the code.  A theorem named `_partial` proves a weaker statement; its
  comment says what is missing.

Common tools: `Run` and `loop` invariants (`Proofs/Loop`), outcomes of every
function as inductive case lists (`StepOutcome`, `UpdateOutcome`, `JacOutcome`),
simulations between two solves (`Proofs/Sim`, `Proofs/Hom`), prefix relations
between solves (`Proofs/Budget`, `Proofs/Tolerance`), exact traces of a solve on a
function (`Proofs/Follow`, `Proofs/FollowExact`), local analysis near a root
(`Proofs/Local`, `Proofs/Rate`).

## 4. Properties

### C01 Ok means solved (proved)

* Method: `solve` with its loop, stopping residuals and `amax`. Case analysis on the loop exit; the exact instance turns `amax` into a bound on every residual.
* Theorems (`Props/C01.lean`): `C01_any_arithmetic`, `C01_ok_means_solved`.
* Scope: For any arithmetic in terms of the computed maximum; componentwise in exact arithmetic.

### C02 A NaN residual is never reported as solved (partial)

* Method: Same code over `Fl`. Refuted by a general theorem: NaN residuals make `max_error > tolerance` false.
* Theorems (`Props/C02.lean`): `C02_refuted`, `C02_partial`, `C02_nan_or_solved_partial`.
* Scope: False of the code: a NaN residual makes the test max_error > tolerance false, so Ok is returned (proved for every model in every dimension but 0). Partial: without NaN, Ok means within tolerance in floating point.

### C03 Bounded work (proved)

* Method: Calls counted by the `recorded` wrapper. Induction over the loop.
* Theorems (`Props/C03.lean`): `C03_recording_is_faithful`, `C03_bounded_work`.
* Scope: Counts taken from a recording wrapper around an arbitrary model; the wrapper is proved not to change the solve.

### C04 Non-convergence is reported exactly on an exhausted budget (proved)

* Method: Loop exit analysis, both directions, for any arithmetic.
* Theorems (`Props/C04.lean`): `C04_any_arithmetic`, `C04_non_convergence_iff`.
* Scope: Any arithmetic; exact arithmetic in terms of the residuals.

### C05 No unnecessary evaluation (proved)

* Method: Recorded calls: a solve that starts within tolerance makes one evaluation.
* Theorems (`Props/C05.lean`): `C05_any_arithmetic`, `C05_no_unnecessary_evaluation`.
* Scope: Any arithmetic, through the recorded calls.

### C06 Latent variables are up to date on return (proved)

* Method: Loop invariant: the state is the result of `set_iteratives` then `evaluate` at the reported point.
* Theorems (`Props/C06.lean`): `C06_latent_variables_up_to_date`.
* Scope: Any arithmetic, any model; outcomes Ok, non-convergence and final evaluation error.

### C07 Unusable initial evaluation (proved)

* Method: Computation of `solve` on a failing first evaluation, and the converse.
* Theorems (`Props/C07.lean`): `C07_unusable_initial_evaluation`, `C07_only_then`.
* Scope: Any arithmetic, any model.

### C08 Unusable evaluation during the iterations is recovered (partial)

* Method: Case analysis on `update_model`; the general theorem says that the solve stops, the witness shows a problem that a retry would solve.
* Theorems (`Props/C08.lean`): `C08_unusable_always_aborts`, `C08_refuted`.
* Scope: The property is false of the code: an unusable evaluation always ends the solve (proved for every model), with a concrete witness.

### C09 Inaccurate evaluations do not disturb the resolution (proved)

* Method: Simulation between a model and the model whose inaccuracies are hidden (`Spec/Masked`).
* Theorems (`Props/C09.lean`): `C09_inaccurate_does_not_disturb`.
* Scope: Any arithmetic, any model, damping off (with damping on an inaccurate evaluation can panic, C13).

### C10 FinalEvaluationError reports exactly an inaccurate final evaluation (partial)

* Method: Invariant on the accuracy flag; two witnesses.
* Theorems (`Props/C10.lean`): `C10_final_evaluation_partial`, `C10_refuted_initial`, `C10_refuted_damping`.
* Scope: False of the code in two ways (inaccurate initial evaluation within tolerance; damping keeps a stale flag). Proved for solves with at least one iteration and damping off.

### C11 An inaccurate Jacobian is recoverable (partial)

* Method: Case analysis on `jacobian_evaluation` (`unwrap`-like panic), for every model and state.
* Theorems (`Props/C11.lean`): `C11_inaccurate_jacobian_panics`, `C11_refuted`.
* Scope: False of the code: the solve panics for every such model and state; proved generally and with a witness.

### C12 A fresh solve never panics on a well behaved model (proved)

* Method: Invariant on the Jacobian cache and the stored steps; contract `Spec.WellBehaved`.
* Theorems (`Props/C12.lean`): `C12_fresh_solve_never_panics`, `C12_fresh_solve_never_panics_debug`.
* Scope: Any arithmetic; models that meet Spec.WellBehaved; with and without debugging (non-zero dimension).

### C13 A model error during damping is reported, not fatal (partial)

* Method: Unfolding of `damping` (`evaluate().unwrap()`).
* Theorems (`Props/C13.lean`): `C13_error_while_damping_panics`, `C13_refuted`.
* Scope: False of the code: panic, proved for every such model, with a witness.

### C14 Solves are independent (partial)

* Method: Relation between a used and a new solver; witnesses for budget and Jacobian.
* Theorems (`Props/C14.lean`): `C14_newton_raphson_partial`, `C14_refuted_budget`, `C14_refuted_jacobian`.
* Scope: False of the code: iteration counter, accuracy flag and Jacobian survive. Partial: exact relation for Newton-Raphson.

### C15 A failed solve does not poison the solver (partial)

* Method: Invariant over histories of solves; witness history that ends in a panic.
* Theorems (`Props/C15.lean`): `C15_not_poisoned_partial`, `C15_regular_history_partial`, `C15_refuted`.
* Scope: False of the code for the updating methods (witness). Proved for Newton-Raphson and stationary Newton, and for all methods after regular histories.

### C16 Jacobian economy (proved)

* Method: Counting of Jacobian computations on the recorded calls.
* Theorems (`Props/C16.lean`): `C16_newton_raphson`, `C16_quasi_newton`, `C16_finite_differences`, `C16_stationary_lifetime`.
* Scope: Counts over the recorded calls; finite differences counted as evaluations.

### C17 The first iteration is a Newton-Raphson step for every method (proved)

* Method: Equality of the first loop body for all methods, observed with a budget of one.
* Theorems (`Props/C17.lean`): `C17_first_iteration`.
* Scope: Observed through a budget of one iteration; C58 extends it to larger budgets.

### C18 Iterates stay inside the declared range (proved)

* Method: `step_limitation` over `Fl` and exact arithmetic, then an invariant over all points handed to the model.
* Theorems (`Props/C18.lean`): `C18_float`, `C18_exact`.
* Scope: Floating point and exact arithmetic, analytic Jacobian, damping off, solves that return. Damping can leave the range only through underflow of the midpoint; finite differences are C32.

### C19 Step size limits (partial)

* Method: `step_limitation`, exact and `Fl`; witnesses in binary64.
* Theorems (`Props/C19.lean`): `C19_exact`, `C19_float_partial`, `C19_refuted`, `C19_refuted_rounding`.
* Scope: Exact arithmetic: full. Floating point: up to the rounding of value+limit; refuted for NaN raw steps (jump to min_value) and by one ulp of rounding.

### C20 Step limitation keeps direction and is transparent when not binding (proved)

* Method: `step_limitation`, exact and `Fl`.
* Theorems (`Props/C20.lean`): `C20_exact`, `C20_float`, `C20_default`.
* Scope: Exact arithmetic and floating point; default parameters return exactly value + step.

### C21 Limited values are never NaN (proved)

* Method: `f64::min`/`max` of the float model drop NaN.
* Theorems (`Props/C21.lean`): `C21_never_nan`, `C21_nan_goes_to_min`.
* Scope: NaN raw steps and values never reach the result; they are replaced by min_value.

### C22 Constructors reject invalid limits (partial)

* Method: Constructor conditions as decidable tests on any arithmetic; the float model shows which NaN pass.
* Theorems (`Props/C22.lean`): `C22_params_partial`, `C22_params_fd_partial`, `C22_extend_partial`, `C22_refuted`, `C22_exact`.
* Scope: Refuted: NaN parameters are accepted. Partial: characterisation of acceptance for non-NaN values; exact arithmetic full.

### C23 Perturbations are positive and follow the documented formula (partial)

* Method: `compute_perturbation`, exact and `Fl`.
* Theorems (`Props/C23.lean`): `C23_exact`, `C23_float`, `C23_refuted_infinite`.
* Scope: Exact arithmetic: full. Floating point: for finite dx_abs, dx_rel; with an infinite dx_rel the perturbation at zero is NaN.

### C24 Pure relative or pure absolute perturbations can be configured (partial)

* Method: Constructor of `IterativeParamsFD`.
* Theorems (`Props/C24.lean`): `C24_refuted`, `C24_refuted_exact`, `C24_max_partial`.
* Scope: False of the code: zero dx_abs or dx_rel is rejected by the constructor although documented; what the formula does for zero is kept as a partial theorem.

### C25 Residual normalization measures disagreement symmetrically (partial)

* Method: `normalization`, exact and `Fl`; witness in binary64.
* Theorems (`Props/C25.lean`): `C25_antisymmetric`, `C25_zero_iff`, `C25_float_symmetric`, `C25_refuted_overflow`.
* Scope: Exact arithmetic: antisymmetry and zero-iff over any ordered field (C25_antisymmetric, C25_zero_iff). Floating-point model: exchanging the sides leaves the stopping residual unchanged for every rounding (C25_float_symmetric). In binary64 the zero-iff claim fails: the sum of two huge sides overflows and Rel and Adapt give exactly zero for different sides (C25_refuted_overflow).

### C26 Adapt interpolates between Abs and Rel (proved)

* Method: `normalization` in ordered fields.
* Theorems (`Props/C26.lean`): `C26_adapt_le_abs`, `C26_adapt_le_rel`, `C26_harmonic`, `C26_rel_scale`, `C26_same_sign`, `C26_near_zero`, `C26_big_values`.
* Scope: Exact arithmetic over any ordered field.

### C27 deriv_normalization is the derivative of normalization (proved)

* Method: Mathlib `HasDerivAt` for `deriv_normalization`.
* Theorems (`Props/C27.lean`): `C27_derivative`, `C27_adapt_at_zero`, `C27_needs_nonzero_sum`.
* Scope: Over the reals with Mathlib's HasDerivAt; also the Adapt case at left+right=0 and a counterexample showing that the non-zero sum is needed for Rel.

### C28 The analytic Jacobian handed to the solver is the Jacobian of the update residuals (proved)

* Method: Mathlib `HasFDerivAt` for `JacobianValues::normalize` and the matrix stored by the solver.
* Theorems (`Props/C28.lean`): `C28_normalize`, `C28_stored`.
* Scope: Over the reals with Mathlib's HasFDerivAt, any dimension and any mix of update methods; C28_stored states it for the matrix the solver stores.

### C29 Finite differences are exact on affine models (proved)

* Method: Column loop of the finite differences on an affine function.
* Theorems (`Props/C29.lean`): `C29_affine`, `C29_stored`.
* Scope: Exact arithmetic, any dimension.

### C30 Finite-difference columns do not depend on the order of computation (proved)

* Method: Induction over the column loop for models with `Spec.Memory`.
* Theorems (`Props/C30.lean`): `C30_columns`, `C30_stored`.
* Scope: Every arithmetic (no law of the scalars is used), any dimension, models satisfying Spec.Memory.

### C31 The perturbed state left by finite differences does not change the Newton step (proved)

* Method: Linear algebra: the displaced base point and its residual cancel.
* Theorems (`Props/C31.lean`): `C31_newton_step`.
* Scope: Exact arithmetic, any dimension, models satisfying Spec.Memory.

### C32 Step and range limits hold between accepted points with finite differences (partial)

* Method: Points evaluated during a solve, collected from the recorded calls; witnesses.
* Theorems (`Props/C32.lean`): `C32_refuted_range`, `C32_refuted_step`, `C32_points_partial`, `C32_range_partial`, `C32_step_partial`.
* Scope: The property as stated is false: refuted by concrete witnesses for the range and for the step (the finite-difference loop leaves the last variable displaced, and a perturbation may leave the bounds). C32_points_partial, for any arithmetic and model: every evaluated point is accepted or an accepted point with one variable perturbed. C32_range_partial and C32_step_partial bound the excess by the size of the perturbation (exact arithmetic).

### C33 Quasi-Newton updates satisfy the secant equation (proved)

* Method: Matrix algebra on the eight update formulas.
* Theorems (`Props/C33.lean`): `C33_jacobian`, `C33_inverse`, `C33_step`.
* Scope: Exact arithmetic, every dimension, all four methods in both forms; C33_step is the same for the pair the solver keeps.

### C34 Jacobian form and inverse form agree (proved)

* Method: Sherman-Morrison for every update, then a simulation between the two solvers.
* Theorems (`Props/C34.lean`): `C34_update`, `C34_solve`.
* Scope: Exact arithmetic, every dimension and method. C34_solve: equal outcome, final model state and iteration count for whole solves of a fresh solver, for every model, when no denominator is zero on a reachable state.

### C35 Broyden's first update is the least change (proved)

* Method: Frobenius norm argument.
* Theorems (`Props/C35.lean`): `C35_least_change`, `C35_consistent`, `C35_second_inverse`, `C35_stored`.
* Scope: Exact arithmetic over any ordered field, every dimension; the update is the unique minimiser. Also the dual fact for the inverse form of the second method.

### C36 Quasi-Newton updates use the change of the residual function (partial)

* Method: What `store_steps` keeps; two witnesses.
* Theorems (`Props/C36.lean`): `C36_refuted_change`, `C36_refuted_step`, `C36_stored_partial`, `C36_sign_partial`.
* Scope: The documented pair is refuted twice: the change of the residuals is taken of the absolute stopping residuals (C36_refuted_change) and the step is taken from the point displaced by the finite differences (C36_refuted_step). Partial: what is stored in every case, and the sign condition under which the stored change is the true one.

### C37 Quasi-Newton methods converge locally (partial)

* Method: Closed form of the iterates for one equation (`Proofs/Secant`), divergence and convergence by monotonicity.
* Theorems (`Props/C37.lean`): `C37_refuted_every_guess`, `C37_refuted`, `C37_squares_partial`, `C37_convex_partial`.
* Scope: Refuted for all eight updating methods: from every positive guess, however close, the solve of -x - x^2 = 0 diverges (any ordered field; negation of the documented claim over the reals). Partial: for one convex equation (double roots included) and guesses above the root all eight methods converge for every tolerance, and for x^2 = a also in fields without the root. In any dimension, while no residual is negative: C111 (Broyden's two methods). Stationary Newton: C38.

### C38 Newton-Raphson and stationary Newton converge locally (proved)

* Method: `Proofs/Local`: strict derivative at the root, bounded inverses near it, contraction by one half, invariant along the solve.
* Theorems (`Props/C38.lean`): `C38_analytic`, `C38_finite_differences`, `C38_limits`, `C38_perturbations`.
* Scope: Exact real arithmetic, every dimension. Sides strictly differentiable at the root (weaker than C1), difference of the Jacobians invertible, any mix of normalizations (Rel needs a non-zero side at the root), damping on or off, limits inactive near the root; analytic Jacobian continuous at the root, or non-zero finite-difference perturbations smaller than the radius. The radius and the iteration bound are uniform in the configuration; the distance to the root is halved at every pass. C38_limits and C38_perturbations show when the crate's own iteratives meet the hypotheses. Rounding is not covered.

### C39 Affine problems are solved in one iteration (proved)

* Method: `Proofs/FollowExact` on affine functions.
* Theorems (`Props/C39.lean`): `C39_one_iteration`.
* Scope: Affine systems of any size, any method, damping, analytic or finite-difference Jacobian, exact arithmetic, limits that do not cut the step.

### C40 Newton-Raphson is blind to the orientation and scaling of equations (proved)

* Method: Simulation between two solves related by a diagonal matrix.
* Theorems (`Props/C40.lean`): `C40_exchange`, `C40_scaling`, `C40_scaling_relative`.
* Scope: Exact arithmetic, no limits on fields. Swapping the sides of any set of equations (analytic or finite differences) and multiplying equations by non-zero constants leave every Newton-Raphson solve (result, states, iteration count, final iterate) unchanged; scaling needs the normalization to be homogeneous or the stopping test to be relative. Adapt normalization with a zero average is excluded for the scaling by a negative constant because the derivative code picks a one-sided sign there.

### C41 Damping only acts when the error grows (partial)

* Method: Unfolding of `damping`.
* Theorems (`Props/C41.lean`): `C41_midpoint_exact`, `C41_iteration_partial`, `C41_solve_partial`, `C41_midpoint_partial`, `C41_refuted_finite_differences`.
* Scope: Exact with an analytic Jacobian (whole solves and single iterations). With finite differences the code damps towards the displaced point: refuted with a witness.

### C42 A refused quasi-Newton step forces a Jacobian computation (proved)

* Method: Invariant on `compute_next` plus recorded calls.
* Theorems (`Props/C42.lean`): `C42_analytic`, `C42_finite_differences`.
* Scope: For every quasi-Newton update method; the next iteration calls get_jacobian, or runs the finite differences.

### C43 Debugging does not change the resolution (partial)

* Method: Simulation that forgets the log; dimension zero panics because `Display` reads entry 0.
* Theorems (`Props/C43.lean`): `C43_same_resolution_partial`, `C43_same_calls_partial`, `C43_refuted_dimension_zero`.
* Scope: Proved in every non-zero dimension. Dimension zero with debugging panics (refuted).

### C44 The log is a faithful numbered record (proved)

* Method: Log entries as data; `Spec/ReadLog` says what a reader sees; compared with the same solve stopped earlier.
* Theorems (`Props/C44.lean`): `C44_log`, `C44_silent`, `C44_file`.
* Scope: The numbered states read in the log are compared with the model left by the same solve with a smaller budget.

### C45 Every dimension mismatch is rejected at construction (proved)

* Method: Constructors on lists, as in the Rust slices.
* Theorems (`Props/C45.lean`): `C45_residuals_config`, `C45_rootfinder`, `C45_contents`.
* Scope: Lengths of all four inputs; exact characterisation of acceptance.

### C46 A parsed configuration is always usable (proved)

* Method: Soundness of the parser model against `C45` acceptance.
* Theorems (`Props/C46.lean`): `C46_finite_diff`, `C46_jacobian`.
* Scope: The parser model starts from the element tree (minidom not modelled); float parsing is a parameter.

### C47 XML defaults and overrides (proved)

* Method: `Spec/XmlSpec` relates documents to values; parser correctness by induction over elements.
* Theorems (`Props/C47.lean`): `C47_finite_diff`, `C47_jacobian`, `C47_iterative`, `C47_iterative_jacobian`, `C47_residual`.
* Scope: Starts from the element tree; float parsing is a parameter.

### C48 XML nodes must be numbered consecutively from 0 (proved)

* Method: Same, for the numbering.
* Theorems (`Props/C48.lean`): `C48_numbered`, `C48_ids`.
* Scope: Starts from the element tree; float parsing is a parameter.

### C49 XML parsing ignores what it does not know (proved)

* Method: Same, for unknown attributes, order, later elements.
* Theorems (`Props/C49.lean`): `C49_same_result`, `C49_attribute_order`, `C49_unknown_attribute`, `C49_later_elements`.
* Scope: Starts from the element tree; float parsing is a parameter.

### C50 Resolution method tags are a bijection (proved)

* Method: Finite case analysis on tags.
* Theorems (`Props/C50.lean`): `C50_tags`, `C50_bijection`, `C50_solver_node`, `C50_other_tags`, `C50_documented_example`.
* Scope: All ten methods.

### C51 Configurations survive a round trip through XML (proved)

* Method: Writing then reading; decimal text of `usize` included.
* Theorems (`Props/C51.lean`): `C51_finite_diff`, `C51_jacobian`.
* Scope: For every float text function that the float parser inverts; decimal texts of usize are proved.

### C52 default_with_guess (proved)

* Method: Computation.
* Theorems (`Props/C52.lean`): `C52_accepted`, `C52_contents`, `C52_tolerance`, `C52_default_residuals`, `C52_defaults_accepted`.
* Scope: Any arithmetic.

### C53 Function adapters are faithful models (proved)

* Method: Adapters as `UserModel`s; contracts `Computes`, `Differentiates`.
* Theorems (`Props/C53.lean`): `C53_function`, `C53_function_and_jacobian`, `C53_fresh`, `C53_outcomes`, `C53_returns`.
* Scope: User functions are pure functions on vectors of the right dimension. The finite-difference adapter needs iteratives with perturbations, otherwise the solve panics (see C12).

### C54 The n-dimensional solver specialises to the scalar Newton method (proved)

* Method: Simulation between the one-dimensional instance and `solver1d`.
* Theorems (`Props/C54.lean`): `C54_analytic`, `C54_flat`, `C54_finite_differences`.
* Scope: Exact arithmetic, default configuration: final point, iteration count and verdict equal those of solver1d / solver1d_fd for every max_iter; a zero slope at a visited point gives the Jacobian error.

### C55 solver1d stops correctly (proved)

* Method: Loop analysis of `solver1d`.
* Theorems (`Props/C55.lean`): `C55_solver1d`, `C55_solver1d_fd`, `C55_initial_guess`, `C55_exact`.
* Scope: Any arithmetic; exact arithmetic for the solution statement.

### C56 Square roots converge from any positive guess (proved)

* Method: Monotone sequence bounded below, invariant along the solve.
* Theorems (`Props/C56.lean`): `C56_analytic`, `C56_finite_differences`.
* Scope: Any Archimedean ordered field (in particular the reals): analytic derivative, and finite differences with any accepted dx_abs, dx_rel and perturbation method (the documented example).

### C57 Error messages identify the error (proved)

* Method: Texts as strings; distinct prefixes.
* Theorems (`Props/C57.lean`): `C57_contains`, `C57_text`, `C57_injective`.
* Scope: Display texts as string functions.

### C58 A larger budget only continues the resolution (proved)

* Method: Prefix relation between loops with different fuel and budget.
* Theorems (`Props/C58.lean`): `C58_same_outcome`, `C58_continues`.
* Scope: Any arithmetic, any model, any history.

### C59 A variable inside its range can always move (partial)

* Method: `step_limitation` at zero, invariant along the solve.
* Theorems (`Props/C59.lean`): `C59_exact_partial`, `C59_refuted`, `C59_refuted_float`, `C59_unlimited_partial`.
* Scope: Refuted at the value zero when max_step_rel is finite: for every method, damping setting, model with an analytic Jacobian and solver history such a variable is zero at the end (exact arithmetic, whole solves; floating point, single steps). Holds at non-zero values and, in floating point, at zero when max_step_rel is infinite (the default).

### C60 The stored Jacobian and its inverse belong together (partial)

* Method: Invariant on `JacobianMatrix`, compared with the logged entries.
* Theorems (`Props/C60.lean`): `C60_up_to_date`, `C60_inverse`, `C60_used`, `C60_more_recent_partial`, `C60_refuted`.
* Scope: The invariant holds for every outcome and every solver history that starts with a new solver. Refuted part: after a failed inversion the log claims a more recent inverse although there is none.

### C61 Impossible tolerances are rejected (partial)

* Method: Float comparison with NaN; negative tolerances in any order.
* Theorems (`Props/C61.lean`): `C61_refuted_nan`, `C61_refuted_negative`, `C61_solution_partial`.
* Scope: Refuted: SolverParameters::new accepts every f64. NaN makes every solve succeed at the guess, a negative tolerance makes every solve fail. Partial: non-negative tolerances recognise exact solutions.

### C62 A smaller tolerance only continues the resolution (proved)

* Method: Prefix relation between loops with two tolerances.
* Theorems (`Props/C62.lean`): `C62_stricter`, `C62_stricter_float`, `C62_same_failure`, `C62_solved`, `C62_continues`.
* Scope: Full, in any arithmetic in which the tolerances are ordered; shown for exact arithmetic and for floating point.

### C63 Newton-Raphson converges quadratically near a simple root (proved)

* Method: `Proofs/Rate`: mean value inequality with a Lipschitz derivative, invariant along the solve.
* Theorems (`Props/C63.lean`): `C63_quadratic`.
* Scope: Exact arithmetic over the reals, analytic Jacobian, limits inactive near the root; Local.lean gives convergence, Rate.lean the mean-value estimate. Floats are not covered.

### C64 Stationary Newton converges at the documented rate (partial)

* Method: Same with the matrix of the guess; witness family for the missing constant.
* Theorems (`Props/C64.lean`): `C64_linear_partial`, `C64_refuted`.
* Scope: The documented inequality is refuted for guesses as close to a simple root as desired; proved with a constant factor that depends on the equations. Exact arithmetic, analytic Jacobian, limits inactive near the root.

### C65 The log file can be read back (proved)

* Method: A line automaton as reader; induction over the entries, every line of a text is either read or passed over.
* Theorems (`Props/C65.lean`): `C65_read_back`, `C65_determines`, `C65_states`, `C65_iteratives_one_line`.
* Scope: `Model/Text.lean` writes the file character by character; `Spec/ReadText.lean` is an independent reader working on lines. `C65_read_back`: reading gives exactly the iterations, dampings and refusals of the log. `C65_determines`, `C65_states`: equal files mean equal recorded iterations (numbers with different texts; `f64::to_string` has this property apart from NaN payloads). Assumed: number texts without blank, `|`, `=`, line end; a matrix text consists of complete lines not beginning with `I`, `D`, `M`, `|` (true of nalgebra's `Display` for non-empty matrices).

### C66 The tables of the log are aligned (partial)

* Method: Positions of the bars computed from left to right; lengths of padded texts.
* Theorems (`Props/C66.lean`): `C66_iterations`, `C66_iteratives`, `C66_residuals`, `C66_parameters_refuted`, `C66_parameters_partial`, `C66_quasi_newton_overflows`.
* Scope: Proved for iterations (a row is aligned exactly when its numbers have at most 30 characters; `f64` is written without exponent, so an error of 1e-40 does not fit), iteratives and residuals. Refuted for the solver parameters: the column of `max_iter` is 17 wide under a heading of 16, so no row is ever aligned (`C66_parameters_refuted`); `C66_parameters_partial` says what remains, and every quasi-Newton method overflows the table (`C66_quasi_newton_overflows`).

### C67 The log identifies the configuration (partial)

* Method: Rows cut into cells; cells determine their values.
* Theorems (`Props/C67.lean`): `C67_method_refuted`, `C67_method_partial`, `C67_configuration_partial`, `C67_configuration_plain_partial`.
* Scope: Refuted: `JacobianUpdate` and `InverseJacobianUpdate` of the same formula have the same text (the message also lacks a blank: "approximatedBroyden First Method"). Partial: this is all that is lost; size, limit, tolerance, damping, iteratives and normalizations are identified (`C67_configuration_partial` with, `C67_configuration_plain_partial` without finite differences).

### C68 The Jacobians of the test cases are the derivatives (proved)

* Method: `broyden` is a matrix of partial sums applied to two-term equations (`Proofs/TestCases`); calculus on each.
* Theorems (`Props/C68.lean`): `C68_cases5to8`, `C68_case5`, `C68_case6`, `C68_case7`, `C68_case8`, `C68_case9`, `C68_case10`, `C68_square2`, `C68_high_derivative`.
* Scope: Over the reals; the functions of `Model/TestCases` in exact arithmetic.

### C69 The solutions of the test cases are simple roots (proved)

* Method: The nested square roots solve the quadratic equations one after the other (`Proofs/Solutions`); uniqueness by induction from the last entry.
* Theorems (`Props/C69.lean`): `C69_case5`, `C69_case6`, `C69_case7`, `C69_case8`, `C69_cases5to8`, `C69_case9`, `C69_case10`, `C69_polynoms`, `C69_quadratic`.
* Scope: `SimpleRoot` (root, twice continuously differentiable, derivative, invertible) for each case; `C69_quadratic` feeds it to C63.

### C70 What the documentation says about the test cases holds (partial)

* Method: Rational enclosures of the square roots checked by the kernel; factored polynomial.
* Theorems (`Props/C70.lean`): `C70_values`, `C70_case10_singular`, `C70_high_derivative_refuted`, `C70_high_derivative_partial`.
* Scope: Holds for the values (up to 2e-15) and case 10. Refuted for `root_with_high_derivative`: the residual at 1 is 999999999, not 0.9, and the step is above 0.1, not 1e-10. The root and the derivative at 1 are as documented.

### C71 Newton-Raphson solves cases 5 to 8 from the documented starting point (proved)

* Method: Monotone Newton theorem (`Proofs/BroydenRun`): a maximum principle for the bidiagonal Jacobian bounds step, distance and residual.
* Theorems (`Props/C71.lean`): `C71_cases5to8`, `C71_case5`, `C71_case6`, `C71_case7`, `C71_case8`.
* Scope: Exact arithmetic; no damping, absolute residuals, analytic Jacobian. The finite difference variants of the tests are not covered.

### C72 Newton-Raphson solves case 9 from every guess in two iterations (proved)

* Method: Invariant along the solve (`Proofs/NewtonRun`).
* Theorems (`Props/C72.lean`): `C72_analytic`, `C72_finite_differences`.
* Scope: Exact arithmetic.

### C73 Newton-Raphson solves case 10 from every guess beyond the right singularity (proved)

* Method: The second coordinate follows Newton's method for a cubic; contraction by 2/3, second order remainder of the first residual.
* Theorems (`Props/C73.lean`): `C73_case10`.
* Scope: Exact arithmetic, analytic Jacobian. Nothing is claimed for guesses on the left of the singularity, which include the documented starting point.

### C74 Newton-Raphson extracts roots from every positive guess (proved)

* Method: Bernoulli's inequality; contraction along the solve.
* Theorems (`Props/C74.lean`): `C74_power`, `C74_square2`, `C74_high_derivative`.
* Scope: Exact arithmetic, analytic Jacobian.

### C75 The LU inverse is the inverse (proved)

* Method: Invariant of the elimination loop: the processed columns are triangular and `P A = L U` holds for the current factors (`Proofs/Lu`); triangular solves by induction.
* Theorems (`Props/C75.lean`): `C75_factors`, `C75_inverse`, `C75_singular`, `C75_exact`.
* Scope: The model of nalgebra's algorithm is written from memory (the source is not on this machine) and reproduces the reference log of the repository bit for bit (`Validate/Recorded.lean`). `C75_exact` shows that it meets the assumption `IsExact` of the exact theorems.

### C76 Numbers in files are exact (proved)

* Method: Seventeen digits separate neighbouring doubles (`Proofs/Nearest`, `Proofs/F64Text`); the grammar by induction on digits (`Proofs/ParseFloat`); matrix lines (`Proofs/MatrixText`).
* Theorems (`Props/C76.lean`): `C76_round_trip`, `C76_shortest`, `C76_reads`, `C76_nearest`, `C76_matrix`, `C76_log`.
* Scope: The formatting and parsing of Rust's standard library are written from their documentation; `Validate/Recorded.lean` checks them against a log recorded in the repository. Matrix text of nalgebra for dimensions other than zero.

### C77 Configuration files keep every double and ordered limits (partial)

* Method: C51 and C22 with the texts of C76; witness file evaluated by the kernel.
* Theorems (`Props/C77.lean`): `C77_finite_diff`, `C77_jacobian`, `C77_rewrite`, `C77_ordered_partial`, `C77_refuted`.
* Scope: Round trips hold for all doubles. Ordered limits hold when no attribute of the iteratives spells NaN; refuted in general: a file with `max_value="-NaN"` is accepted.

### C78 Relative criteria work with functions (partial)

* Method: C01, C02 and C53 with the value of the relative residual against zero; invariants of the model state are kept by a solve (`Proofs/Keeps`, a homomorphism from the restricted model).
* Theorems (`Props/C78.lean`): `C78_stop_refuted`, `C78_update_refuted`, `C78_small_partial`, `C78_float_refuted`, `C78_scalar_refuted`.
* Scope: Refuted. A relative stopping residual against zero is 2 (exact arithmetic; at least 1 in floating point) at every point that is not an exact root, and NaN (accepted) at an exact root in floating point. A relative update residual has derivative zero, so every Jacobian is singular. What holds for the other criteria is `C78_small_partial`.

### C79 Affine systems are solved whatever the update method (partial)

* Method: Exact course of the solve (`Proofs/NewtonTrace`): the Jacobian is the matrix with rescaled rows.
* Theorems (`Props/C79.lean`): `C79_trace`, `C79_converges_partial`, `C79_refuted`.
* Scope: Refuted: half an adaptive residual is squared by every iteration, so the solve converges exactly when all adaptive residuals are below 2 at the guess (`C79_trace`, `C79_converges_partial`, `C79_refuted`). Analytic Jacobian, right side zero.

### C80 Overflow is not success (partial)

* Method: Cases of the float operations, C02, and the maximum of NaNs and zeros.
* Theorems (`Props/C80.lean`): `C80_refuted`, `C80_finite_partial`, `C80_absolute`.
* Scope: Refuted for relative and adaptive criteria: infinite sides make these residuals NaN (accepted), and finite sides whose sum overflows make them zero. Holds for absolute criteria, and for any criterion when no residual is NaN (`C80_finite_partial`, infinite sides only).

### C81 The units of the variables do not matter (proved)

* Method: Every function of the solver commutes with the conversion (`Proofs/Units`); induction over the loops; kernel evaluation of the witness.
* Theorems (`Props/C81.lean`): `C81_units`, `C81_common_unit`, `C81_new`, `C81_parameters`, `C81_parameters_fd`, `C81_constructor`, `C81_mixed_units`.
* Scope: Exact arithmetic. An equation between whole solves (states, verdict, log, stored matrices, panics), with analytic Jacobians or finite differences, damping and limits. `C81_mixed_units` shows that the condition on the other two methods is needed, in both forms.

### C82 The order of the variables and of the equations does not matter (partial)

* Method: Every function of the solver commutes with the renumbering (`Proofs/Renumber`); kernel evaluation of the witnesses.
* Theorems (`Props/C82.lean`): `C82_equations`, `C82_variables`, `C82_new`, `C82_refuted`, `C82_damping_refuted`.
* Scope: Exact arithmetic. Holds for the equations always, for the variables when the model gives its Jacobian. Refuted for the variables with finite differences, for every updating method and for damped Newton-Raphson: the model is left displaced along the last variable.

### C83 Finite differences are first-order accurate (proved)

* Method: Mean value theorem along the perturbed segment (`Proofs/Accuracy`), the difference quotients of a memory-obeying model, and the contraction argument of C38 with an error term (`Proofs/RateFd`).
* Theorems (`Props/C83.lean`): `C83_accuracy`, `C83_parameters`, `C83_attained`, `C83_rate`.
* Scope: Exact arithmetic. The bound is stated on the matrix that `jacobian_evaluation` builds, for any mix of normalizations; the rate on whole solves with limits and normalizations.

### C84 Newton-Raphson converges whenever the guess meets the conditions of Kantorovich (proved)

* Method: The conditions are inherited by the next iterate with half the step (`Proofs/Kantorovich`); induction over the iterations; the root is the limit of the exact iterates.
* Theorems (`Props/C84.lean`): `C84_converges`, `C84_root`, `C84_unique`.
* Scope: Exact arithmetic, analytic Jacobian, absolute residuals, no damping. The number of iterations depends on the function and the tolerance only, not on the rest of the configuration.

### C85 A success certifies a root nearby (proved)

* Method: C01 or C02 at the result, then the theorem of Kantorovich (C84) there; uniqueness by Rolle's theorem on the segment between two roots.
* Theorems (`Props/C85.lean`): `C85_exact`, `C85_float`.
* Scope: Any method, model and history. In binary64 the conditions are on the function that was meant, over the reals; the rounding error of the computed function enters as a hypothesis at the result only.

### C86 Newton-Raphson converges globally on convex problems (proved)

* Method: Convexity keeps the iterates above the root and decreasing (`Proofs/Monotone`); the residuals are Jacobian times step. Finite differences: chords of a convex function are steeper than what is needed; the invariant `k f(x_k) <= b (x_0 - x_k)` gives the bound.
* Theorems (`Props/C86.lean`): `C86_convex`, `C86_finite_differences`.
* Scope: Exact arithmetic, absolute residuals, limits that do not act between the points visited. The bound with finite differences is explicit and holds for large perturbations too.

### C87 A perturbation is not lost to rounding (partial)

* Method: Distance of neighbouring doubles (`Proofs/Spacing`), monotonicity of rounding, C23; for the refutation the finite differences are computed symbolically and the inverse by the kernel.
* Theorems (`Props/C87.lean`): `C87_moved`, `C87_refuted`.
* Scope: Proved with the bound on dx_rel (C87_moved). Refuted for what the constructor accepts (C87_refuted): no theorem can cover a smaller dx_rel.

### C88 The practical example of the documentation is solved (partial)

* Method: Field arithmetic for uniqueness; the derivatives and C63, C38 for convergence; C01, C02 and the float model for relative criteria; an explicit point for the false solutions.
* Theorems (`Props/C88.lean`): `C88_unique`, `C88_relative_refuted`, `C88_far_refuted`, `C88_quadratic`, `C88_finite_differences`, `C88_opposite_refuted`.
* Scope: Uniqueness and convergence are proved with criteria that can be met (absolute or adaptive on the second and third equation). Refuted: relative criteria (C88_relative_refuted, C88_opposite_refuted), and success only near the solution (C88_far_refuted). Convergence needs limits that do not act near the solution, which for the first component (zero) means an infinite max_step_rel.

### C89 Affine systems with relative update residuals are solved (partial)

* Method: The Jacobian of the relative residuals is a diagonal matrix times `A`, the step is computed symbolically; induction over the iterations (`Proofs/NewtonTrace`).
* Theorems (`Props/C89.lean`): `C89_trace`, `C89_converges_partial`, `C89_refuted`.
* Scope: Exact course for all guesses except those whose sides differ by exactly 200 % of the right side (there the second Jacobian is singular). Convergence below (C89_converges_partial), divergence above (C89_refuted).

### C90 Evaluations start from the memory of the last accepted point (partial)

* Method: The model is wrapped so that it notes the memory before and after each evaluation; induction over columns, passes and the run with the outcome relations of `Proofs/Basic`, `Proofs/JacOutcome` and `Proofs/Loop`. The wrapping is faithful by `solve_hom`.
* Theorems (`Props/C90.lean`): `C90_memory_partial`, `C90_damping_partial`, `C90_noting_is_faithful`, `C90_refuted`.
* Scope: Any arithmetic, any of the ten methods, any outcome, damping off: full description of the memory at the start of every evaluation. With damping the claim is false: the halfway point is evaluated from the memory of the refused point (refuted with a witness; what holds with damping is a partial theorem).

### C91 A singular Jacobian is reported (partial)

* Method: The outcome relations of a pass and of the loop; the rank-one form of the four updates; the LU inverse of C75. Binary64 witnesses are whole solves evaluated by the kernel.
* Theorems (`Props/C91.lean`): `C91_detected_partial`, `C91_reported_partial`, `C91_guess_partial`, `C91_scalar`, `C91_accepted_refuted`, `C91_rejected_refuted`.
* Scope: Exact arithmetic: both directions for every model and pass, and the case of the guess. In binary64 the property fails: with the Jacobian [[49, 49], [49, 49]] contradicting equations end in NonConvergenceError after 50 iterations (accepted), and a regular Jacobian [[3, 1], [1, fl(1/3)]] of equations with a solution is rejected. In dimension one binary64 is right (C91_scalar).

### C92 Finite differences survive rounding (proved)

* Method: Relative error of rounding (`Proofs/RelError`; sums have no underflow error), the difference quotients of C30, the perturbation bounds of C23 and C87; mean value argument of `Proofs/Accuracy` for the derivative.
* Theorems (`Props/C92.lean`): `C92_chord`, `C92_total`, `C92_attained`.
* Scope: All models obeying the memory contract, all finite doubles including subnormal numbers; the order of the bound is attained (C92_attained: 1.6e-9 for the identity at one, because the code divides by the perturbation and not by the difference of the rounded points).

### C93 Square roots in binary64 (proved)

* Method: Error analysis of one pass (`Proofs/SqrtFloat`): the next value is `(x + a / x) / 2` up to a relative error of `2^-50`; the distance to the root is divided by three per pass, up to roundings. `Proofs/NewtonFloat` reduces a pass of the solver to these operations. The limit: neighbouring doubles whose rounded squares jump over `a`.
* Theorems (`Props/C93.lean`): `C93_converges`, `C93_default`, `C93_unreachable`.
* Scope: Every rounding of a pass (square, residual, derivative, LU inverse, product, sum) is accounted for; the arithmetic of nalgebra is the model of Model/Lu.lean. Newton-Raphson with derivative, without damping.

### C94 Dimensions of the model and of the solver (partial)

* Method: A second model of the solver on vectors that carry their length (`Model/Dynamic`); a simulation shows that it equals the first one on consistent models (`Proofs/Dynamic`); the first pass with surplus equations by case analysis (`Proofs/Mismatch`), the padded Jacobian has a zero row.
* Theorems (`Props/C94.lean`): `C94_consistent`, `C94_function`, `C94_jacobian`, `C94_new`, `C94_missing`, `C94_adapter_size`, `C94_function_size`, `C94_jacobian_size`, `C94_debug`, `C94_surplus_variables`, `C94_missing_variables`, `C94_missing_perturbations`, `C94_surplus`, `C94_equations_partial`, `C94_equations_refuted`.
* Scope: Consistent models are proved equal to the model of fixed dimension in any arithmetic, with the log; debugging changes no solve, whatever the lengths. Refuted for models with surplus equations: two equations in one variable, the second 1 = 0, are solved. Missing equations and adapters of another size in any arithmetic; arbitrary models with surplus equations in exact arithmetic.

### C95 One equation in binary64, evaluated with limited accuracy (proved)

* Method: Error analysis of one pass with inexact residual and slope (`Proofs/AccurateFloat`): the distance to the root is at least halved, up to a floor. `Proofs/AccurateRun` reduces passes of the solver to these operations, `Proofs/AccurateRoot` bounds the slopes by the mean value theorem, for finite differences with the chord of C92. Induction over the passes.
* Theorems (`Props/C95.lean`): `C95_newton`, `C95_stationary`, `C95_differences`, `C95_default`.
* Scope: Every rounding of a pass is accounted for (difference quotient, LU inverse, product, sum); the evaluation of the user model enters through its error bound. Default limits, Abs residuals, no damping, dimension one.

### C96 Systems in binary64, evaluated with limited accuracy (proved)

* Method: Error analysis of the column-by-column product (`Proofs/DotFloat`: an induction over the columns) and of one pass (`Proofs/AccurateSystem`): `1 - C A` and the change of the slope have norm at most 1/4 together, so the distance to the root is at least halved in the maximum norm, up to a floor. `Proofs/SystemRun` reduces passes of the solver to these operations. Induction over the passes.
* Theorems (`Props/C96.lean`): `C96_dot`, `C96_newton`, `C96_stationary`, `C96_stationary_differences`.
* Scope: Every rounding of the product, of the step limitation and of the update is accounted for; the inverse enters through its accuracy, which the example computes for a system of two equations. Default limits, Abs residuals, no damping.

### C97 Systems in binary64 with the LU inverse (proved)

* Method: Backward error analysis of Gaussian elimination with partial pivoting, by an invariant of the loop of `LU::new` (`Proofs/LuFactors`: the partial product of the factors is the permuted matrix up to rounding, multipliers are at most about one, entries at most 3^i alpha, and the remaining block has no small pivot because the inverse is bounded). Invariants of the two triangular solvers (`Proofs/LuSolve`). `Proofs/LuInverse` combines them in the row-sum norm. `Proofs/QuotientFloat` bounds the errors of a difference quotient. The solver theorems then follow from C96.
* Theorems (`Props/C97.lean`): `C97_inverse`, `C97_newton`, `C97_stationary`, `C97_differences`, `C97_stationary_differences`, `C97_perturbations`, `C97_default`.
* Scope: No hypothesis on the linear algebra remains besides that it is the LU inverse; products are accurate by C96_dot. The factor 3^n bounds the growth of the pivots and excludes dimensions above 15. The LU algorithm is that of Model/Lu, written from memory of nalgebra (section 2).

### C98 Newton steps in binary64 are exact Newton steps up to an explicit error, and converge quadratically (proved)

* Method: The error of the computed inverse against the exact one (`Proofs/LuInverse`: `luInverse_accurate`), of the product and the addition (`Proofs/StepFloat`) are collected in `stepError`; `Proofs/SystemFollow` reduces a pass of the solver to these operations and follows a solve through sets of points. Quadratic convergence: `e -> beta gamma e^2 + kappa e + delta` keeps `e <= R 2^(1 - 2^k) + F`.
* Theorems (`Props/C98.lean`): `C98_step`, `C98_quadratic`.
* Scope: Proved in full. Hypotheses on the model are bounds of its errors; the LU inverse is the algorithm of Model/Lu in binary64.

### C99 Case 9 is solved in binary64 from every guess in a box (proved)

* Method: C98 at the points of three nested boxes: after the first pass the first unknown is 1 up to 1/20, after the second both are 1 up to 1/200, after the third up to 1e-8 (`Proofs/Case9Float`, `Proofs/Case9Pass`). The Jacobian has condition number up to 4e4 in the box.
* Theorems (`Props/C99.lean`): `C99_box`, `C99_default`.
* Scope: Proved in full for the box and the range of tolerances stated; the exact version for every guess is C72.

### C100 The program with its side effects computes what the functional model computes (proved)

* Method: `Model/Program` follows the statements of the code in a state monad with exceptions. A simulation relation (`Proofs/Program`: `Sim`) is proved for every function up to `solve` (`Proofs/ProgramSteps`, `Proofs/ProgramSolve`), for all surroundings at once.
* Theorems (`Props/C100.lean`): `C100_returns`, `C100_panics`, `C100_decides`, `C100_activated`.
* Scope: Model/Program is written statement by statement from rootfinder.rs and log.rs, in a monad whose state survives a panic. Files are lists of characters; a failed write leaves a first part of its characters; the user's model does not touch the log file.

### C101 What a panic leaves behind (proved)

* Method: The same simulation carries, for every panic, what is left (`Wreck`); for a panic in pass `j + 1` the loop invariant is that the solve with a budget of `j` iterations ends there. The recorded states follow from C44.
* Theorems (`Props/C101.lean`): `C101_panic`, `C101_recorded`.
* Scope: For every pattern of failing user methods and file operations.

### C102 A log which breaks off can be read (proved)

* Method: `Proofs/CutText`: every first part of the lines of an entry is followed through the reader (`Along`), with an induction over the rows of the tables.
* Theorems (`Props/C102.lean`): `C102_breaks_off`, `C102_first_part`, `C102_after_panic`.
* Scope: The reader is that of C65; texts of numbers and matrices as there.

### C103 A failed activation of the debug mode leaves the solver as it was (partial)

* Method: By evaluation of `activate_debug` in the program model for all outcomes of the two file operations, and C100.
* Theorems (`Props/C103.lean`): `C103_failed_activation_partial`, `C103_unusable`, `C103_goes_on`, `C103_solver_as_before_refuted`.
* Scope: Refuted: debug is set before the file is created. The partial theorem says what is kept; further theorems that a solver without a log always panics afterwards and that one with a log goes on.

### C104 Every panic has a cause and no failure is swallowed (proved)

* Method: `Proofs/ProgramBlame`: every function of the program keeps `Smooth` (no file operation failed so far) until the `Cause` of its panic; composition of the statements for each function up to `solve`.
* Theorems (`Props/C104.lean`): `C104_returns`, `C104_io`, `C104_user`, `C104_code`, `C104_missing`.
* Scope: In the program model: files are texts, the failures of operations and of the user's methods are given by the surroundings.

### C105 The solver is usable after a caught panic (partial)

* Method: `Proofs/ProgramReuse`: at every point where stationary Newton can stop, a Jacobian which will not be computed has an inverse; nothing before the loop changes the solver. With the progress theorem of C15, C100 and C14. The counterexample is evaluated.
* Theorems (`Props/C105.lean`): `C105_usable_partial`, `C105_early`, `C105_as_new_partial`, `C105_refuted`.
* Scope: Refuted for the updating methods (Broyden, panic in the first evaluation of an iteration). Partial theorems: two methods after any history; Newton-Raphson behaves as a new solver with the rest of the budget. All methods: a panic before the first iteration leaves the solver as it was.

### C106 The log with the feature additional_log_info can be read back (proved)

* Method: `Model/LogInfo`; the head is a list of lines on which the reader of C65 stays idle.
* Theorems (`Props/C106.lean`): `C106_off`, `C106_read_back`, `C106_values`, `C106_same_events`, `C106_forged`.
* Scope: The values are given by libraries and are arbitrary texts here.

### C107 The loops of the test functions compute the equations of the literature (proved)

* Method: `Proofs/TestLoops`: invariants of the loops (the first m entries or rows are final, within a row the first p entries have the row above added), for every dimension. The sum formula by induction over the entries.
* Theorems (`Props/C107.lean`): `C107_values`, `C107_jacobian`, `C107_domain`, `C107_plane`, `C107_line`, `C107_plane_jacobian`, `C107_line_jacobian`, `C107_formula`.
* Scope: Proved in full: the loops equal the recursions of Model/TestCases in any arithmetic, the sum formula holds in exact arithmetic; the Jacobians are the derivatives by C68.

### C108 The Debug text of the solver shows its complete state (proved)

* Method: `Proofs/DebugText`: `Reads`, every text followed by a stopping character determines its value and what follows; kept by leaves, structs, variants, lists, options, in both modes. `Proofs/F64Debug`: numbers with and without exponent are parsed back. Leaving out spaces, line ends and commas commutes with concatenation.
* Theorems (`Props/C108.lean`): `C108_solver`, `C108_solver_fd`, `C108_parts`, `C108_numbers`, `C108_methods`, `C108_layout`.
* Scope: Static dimensions (columns as lists). The builders of core::fmt and Debug of f64 are modelled from memory; the log path is not part of the text.

### C109 Stationary Newton converges from a guess that meets checkable conditions, even with a wrong matrix (proved)

* Method: A run of stationary Newton that keeps an invariant (`Proofs/KantorovichStationary`: `stationary_run`). Steps with a fixed matrix contract the neighbourhood, by the mean value theorem along segments, and map it into itself; the root minimises the length of the step on the compact neighbourhood.
* Theorems (`Props/C109.lean`): `C109_converges`, `C109_inexact`, `C109_differences`, `C109_root`.
* Scope: All functions that meet the conditions, every dimension and tolerance; analytic Jacobian, any matrix in its place, and finite differences. Exact arithmetic over the reals.

### C110 Configuration files are read the same in every layout, and every configuration survives as a file (proved)

* Method: `Model/XmlText`: a character automaton. `Spec/XmlLayout`: the layouts of a tree as a relation, from the XML recommendation. `Proofs/XmlLayout`: the automaton run over each piece of a layout, by mutual induction over layouts. `Proofs/XmlExact`: conversely, a text that is read is taken apart into a layout, by strong induction on its length. Names and values of written files contain no character that needs escaping.
* Theorems (`Props/C110.lean`): `C110_layout`, `C110_exact`, `C110_unambiguous`, `C110_outcome`, `C110_same_tree`, `C110_finite_diff`, `C110_jacobian`.
* Scope: The parser model covers tags, attributes, text, comments and the declaration, written from the XML recommendation; other texts are outside the model. The text of tests/log/broyden_case10.xml is read by kernel evaluation as the tree used for the recorded log.

### C111 Broyden's two methods converge locally in any dimension, and the solver follows them while no residual is negative (proved)

* Method: `Spec/Broyden`: the two methods as in the literature. `Proofs/Euclid`, `Proofs/BroydenLocal`: bounded deterioration of the matrices in the Euclidean operator norm, and the distance halves, by induction. `Proofs/BroydenSolve`: a run of the solver follows a sequence of points with their matrices and inverses (Sherman-Morrison); `Proofs/BroydenBall`: radii from the continuity of the Jacobian.
* Theorems (`Props/C111.lean`): `C111_first`, `C111_second`, `C111_first_solver`, `C111_second_solver`.
* Scope: The points of the solver are those of the literature only while no residual is negative: the code takes the change of the absolute values (C36, C37). Absolute residuals for stopping and updates; exact arithmetic.

### C112 The derived equality of the settings (partial)

* Method: `Model/Equality.lean` models the derived `PartialEq` as functions to `Bool`: IEEE `==` on floats, field by field on structures, variant by variant on enumerations, element by element on slices. `C112_equal` states the relation through the order `<=` of the scalars and through `Spec.SameUpToZero`, neither of which mentions the model of `==`. `C112_relation` gives symmetry, transitivity and the exact condition for reflexivity. `C112_behaviour_partial` compares perturbations and limited steps of equal accepted settings; `C112_solve_refuted` runs one function that tells the zeros apart under two equal settings.
* Theorems (`Props/C112.lean`): `C112_equal`, `C112_relation`, `C112_behaviour_partial`, `C112_methods`, `C112_self_refuted`, `C112_solve_refuted`.
* Scope: The clauses that every accepted setting equals itself (NaN is accepted) and that equal settings give the same solves (0.0 == -0.0) are false of the code: C112_self_refuted, C112_solve_refuted. What holds instead is C112_behaviour_partial.

### C113 Broyden's methods are faster than every linear rate (proved)

* Method: The argument of Dennis and Moré, with the sum of the squares of the entries of the error of the matrix (`Proofs/BroydenSuper.lean`): an update lowers it by the square of the relative error along the step and raises it by a term that shrinks geometrically by C111 (`squares_update`, an identity), so the relative errors along the steps are square summable and vanish (`vanishing`), and the quotient of successive distances is at most a multiple of them. For the solver the quotients give every geometric rate, and `first_run`, `second_run` of C111 turn them into iteration counts.
* Theorems (`Props/C113.lean`): `C113_first`, `C113_second`, `C113_first_solver`, `C113_second_solver`.
* Scope: In exact arithmetic. The hypothesis that no residual is negative at the points of the method is the one of C111; without it the code departs from the methods (C37).

### C114 Broyden's methods without a Jacobian converge locally, from the displaced point (proved)

* Method: The finite differences leave the last variable displaced, and the step of the first pass is taken from there, so the first pair of the update also starts there (`iterate_pair_differences`): from the second pass on the solver is in the state of Broyden's method from the displaced point. `pair_run_differences` is the run of C111 with this start. `quotients_near` bounds the distance of the difference quotients from the Jacobian at the root by the one-sided bound of `NearAffine`; `near_first`, `near_second` (C111, C113) start from any point and matrix near the root. Example: `y² = 2`, `x + y = 3`, where all residuals stay nonnegative for every positive displacement.
* Theorems (`Props/C114.lean`): `C114_first`, `C114_second`, `C114_first_fast`, `C114_second_fast`.
* Scope: Exact arithmetic, absolute residuals, no damping, no negative residual at the points of the method (C37 shows that the last condition cannot be dropped).

### C115 Every call of a benchmark solves the problem (partial)

* Method: `solve_work` (also behind C03) bounds the work of one solve by the iterations it made; the counter never falls, so the sums telescope over any sequence of solves. `C115_exhausted`: with the counter at the budget the loop has no fuel. `C115_idle`: a solve from an unsolved guess makes at least one iteration while the budget allows. The two benchmarks are modelled in `Model/Benchmarks.lean`; `C115_static_refuted` runs thirteen calls in binary64 in the kernel, the rest is by induction.
* Theorems (`Props/C115.lean`): `C115_budget`, `C115_exhausted`, `C115_idle`, `C115_case8_refuted`, `C115_dynamic_refuted`, `C115_reset`, `C115_static_refuted`.
* Scope: Refuted: the iteration counter is not set back by solve, so all calls on one solver share one budget (C115_budget). In binary64 the 13th call of static_types.rs panics at unwrap; in broyden_case8.rs every call after the 60th only evaluates the guess and returns NonConvergence. C115_reset: the state put into the model before a call has no influence.

### C116 Damping improves convergence (partial)

* Method: `Spec.Slopes` bounds the derivative of one function. By the mean value theorem (`Slopes.chord`, `Slopes.step`) the share `t` of a Newton step multiplies the residual by `1 - t κ` with `κ` between `μ / M` and `M / μ`. `damped_pass` runs one pass of the solver with and without damping and gives the point it ends at: the whole step, or half of it exactly when damping is on and the error would grow strictly. `scalar_follow` carries an invariant of the points through the loop. `C116_contracts`: for `M < 2 μ` the whole step always contracts, so damping never acts. `C116_no_growth_partial`: for `M ≤ 4 μ` the halved step does not grow either. `C116_cycle_refuted` has a function with `M = 4 μ` and a cycle of two points with equal errors, where damping never acts. `C116_growth_refuted` and `C116_spoils_refuted` are binary64 runs evaluated by the kernel.
* Theorems (`Props/C116.lean`): `C116_contracts`, `C116_no_growth_partial`, `C116_cycle_refuted`, `C116_growth_refuted`, `C116_spoils_refuted`.
* Scope: Proved: convergence from every guess, damped or not, for slopes within a factor two, and no growth with damping within a factor four. Refuted: with equal errors the factor stays 1 and the method cycles for ever; the halved step is not compared again and may increase the error; damping can turn a success into a failure.

### C117 A nearly linear equation is solved from every guess with every dx (proved)

* Method: `Spec.Chords` bounds the slopes of the chords of the function, without derivatives. A step with any slope between the bounds multiplies the residual by a factor of absolute value at most `max (1 - μ / M) (M / μ - 1)` (`Chords.cut`). The finite difference is such a slope (`Chords.quotient`); the solver takes its step from the displaced point, which is the same step as from the point itself (`displaced_step`), so the size of the displacement does not enter. The runs are `newton_run`, `stationary_run_function` and `stationary_run_differences` with the geometric bound as the invariant. `C117_sharp` has a function with `M = 2 μ` that cycles.
* Theorems (`Props/C117.lean`): `C117_differences`, `C117_stationary`, `C117_stationary_differences`, `C117_sharp`.
* Scope: Global convergence with an explicit factor for Newton-Raphson by finite differences and for stationary Newton, on one equation; C117_sharp shows that the bound on the slopes is the best one.

### C118 A nearly linear system is solved from every guess with every dx (proved)

* Method: `Spec.NearlyLinear` and `Spec.NearMatrix` state the closeness in the norm of the largest entry, without derivatives. A matrix within `δ` of `B` with `β δ < 1` is invertible (`NearlyLinear.det`), and a step with it multiplies the norm of the residuals by at most `β (ε + δ) / (1 - β δ)` (`NearlyLinear.step`). The matrix of the finite differences is within `n ε` of `B` for all displacements (`NearlyLinear.differences`). The runs are those of C117; with damping `newton_run_shrinking`, where damping never acts.
* Theorems (`Props/C118.lean`): `C118_newton`, `C118_differences`, `C118_stationary`, `C118_stationary_differences`.
* Scope: Global convergence with an explicit factor in every dimension, for Newton-Raphson and stationary Newton, with a Jacobian or with finite differences of any size.

### C119 Stationary Newton solves a convex equation from above, and may cycle from below (proved)

* Method: The invariant `FixedSlope.Reached` holds after `k` steps with a slope `σ` for which `f x ≤ σ (x - r)` between the root and the guess: the point lies between them, and `k f x ≤ σ (x0 - x)`. Convexity gives the bound for a chord beyond the guess (`steep_chord`) and for the tangent at the guess (`steep_tangent`). The runs are those of C117. The cycle of `max (x - 1) (4 x)` between -3 and 1 is followed with `stationary_fails`, a run whose residuals never pass the test.
* Theorems (`Props/C119.lean`): `C119_differences`, `C119_analytic`, `C119_below`.
* Scope: An explicit number of iterations from above the root; from below a cycle that no budget ends.

### C120 On one convex equation Newton-Raphson converges linearly from every guess, damped or not (proved)

* Method: Stated with tangents, so corners are allowed. All points stay between `a` (the smaller of guess and root) and `B` (the guess, or the farthest point a whole step from below reaches), where the slopes lie between `f' a` and `f' B` (`Tangents.Bounds`). A whole step ends above the root. From above the distance shrinks by `1 - f' a / f' B` and the residual does not grow, so damping does not act. From below a half step either halves the distance at least, or ends above (`Bounds.step`). The run is followed with `scalar_follow` of C116. A forward difference is at least as steep as the tangent (`Bounds.forward`); a step with it may stop short of the root from below, which costs the same factor (`Bounds.steeper`).
* Theorems (`Props/C120.lean`): `C120_convex`, `C120_every_tolerance`, `C120_differences`.
* Scope: Global linear convergence on either side of the root; here the single uncompared half step of the damping does no harm (compare C116).

### C121 The one-dimensional solver converges from every guess on convex and on nearly linear equations (proved)

* Method: `loop1d_run` turns an invariant of the points into a bound on the iterations and on the residual of the result, from the description of the loop in C55. The invariants are those of C120 (convex) and C117 (nearly linear). For `C121_silent` every residual is above the tolerance, so C55 gives the whole budget.
* Theorems (`Props/C121.lean`): `C121_convex`, `C121_convex_fd`, `C121_slopes`, `C121_chords_fd`, `C121_silent`.
* Scope: Global convergence of the utility solver; a failure is silent (C121_silent).

## 5. Disagreements between the code and its documentation

Each of these is proved in the model.

* Reusing a solver: the iteration counter, the accuracy flag and the Jacobian are
  not reset (C14); after a failed solve an updating method can panic (C15).
  So the benchmarks, which call `solve` repeatedly on one solver, do not time
  resolutions: one panics at its thirteenth call, the others return at once after
  the budget is used up (C115).  The comment in `static_types.rs` L69-71 says that
  the model would stay solved without being reset; it has no influence.
* A NaN residual is reported as success (C02).
* An unusable evaluation during the iterations ends the solve instead of being
  retried (C08).
* An inaccurate Jacobian makes the solver panic (C11), as does any model error
  while damping (C13).
* An inaccurate evaluation of the initial guess within tolerance returns `Ok`;
  damping leaves the accuracy flag of the refused point (C10).
* Finite differences leave the model at a displaced point: harmless for the Newton
  step (C31), but points outside the range are evaluated (C32), the stored step of
  the updating methods is wrong (C36) and damping goes halfway from the displaced
  point (C41), and so the order of the variables matters (C82).  Finite differences with iteratives without perturbation panic
  (C12, C53).
* The updating quasi-Newton methods use the change of the absolute stopping
  residuals instead of the residuals, and diverge near some simple roots (C36,
  C37).  Broyden's two methods with the change of the residuals do converge near
  every simple root in any dimension (C111).
* Broyden's first and Greenstadt's second method depend on the units of the
  variables, in both forms (C81; inherent in the formulas, not documented).
* NaN raw steps jump to `min_value` (C19, C21); the step limit is exceeded by
  rounding (C19); NaN limits are accepted (C22); an infinite `dx_rel` gives a NaN
  perturbation (C23); `dx_abs = 0` is documented and rejected (C24);
  a `dx_rel` below the machine epsilon is accepted, and finite differences can then vanish (C87); the quotients are taken with the perturbation
  before rounding, which costs up to 2.2e-9 of relative accuracy with the default parameters (C92).
* The default tolerance `1e-6` is absolute: from about `2^33` on there are equations `x^2 = a` that no solve can bring within
  it in binary64 (C93), and the solver runs to `max_iter`.
* The sum of huge sides overflows and normalized residuals become zero (C25).
* `Adapt` at sides with sum zero has a one-sided derivative (C27, C40).
* A relative stopping residual whose sides vanish at the root cannot converge
  (excluded in C38).  This concerns every function given without a right side:
  relative criteria accept exact roots only (as NaN), and relative update residuals
  make every Jacobian singular (C78).
* The practical example of the documentation cannot be solved with relative criteria on its second and third
  equation, and for every tolerance it has false solutions far away (C88).
* With relative or adaptive criteria an overflowing function counts as solved: an infinite
  side gives NaN, and finite sides whose sum overflows give zero (C80).
* Adaptive update residuals make Newton-Raphson diverge on affine systems when a
  residual is 2 or more at the guess (C79); relative ones when the sides differ by more than twice the right side (C89).
* After a refused step the halfway point is evaluated from the memory of the refused point, although
  `jacobian_finite_diff.rs` L53-59 resets the memory "in case of step rejection" (C90).
* In binary64 singular Jacobians are accepted (twice the row `(49, 49)`) and regular ones are reported as singular;
  `compute_inverse` tests the last pivots for exact zeros only (C91).
* A variable at zero with finite `max_step_rel` never moves (C59).
* Debugging a problem of dimension zero panics (C43).
* `activate_debug` sets `debug` before it creates the file; when that fails and the panic is caught, every later solve
  with a usable first evaluation panics (C103).
* When the user's model panics in an iteration and the caller catches it, the updating methods unwrap missing steps in
  the next solve (C105).
* With dynamic dimensions nothing compares the model with `problem_size`: surplus equations are ignored, so that
  `x = 3, 1 = 0` is solved at 3; other mismatches panic or are reported as a singular Jacobian; variables beyond the
  configured ones are set to zero by the first step (C94).
* After a failed inversion the log claims that the inverse is more recent (C60).
* Tolerances are not validated: NaN succeeds at once, negative never (C61).
* The example file in the documentation of `from_xml_jacobian` (`xml_file_jac.rs` L53) writes
  `resolution_method="NewtonRaphson"`, which both parsers reject (C50).
* A configuration file may spell NaN for a limit; it is accepted (C77).
* The table of the solver parameters is misaligned for all parameters (C66); the
  log does not tell whether a method updates the Jacobian or its inverse (C67).
* The documentation of `root_with_high_derivative` gives a residual of 0.9 and a
  step of 1e-10 at 1; they are 999999999 and 0.11 (C70).
* Settings with a NaN, which the constructors accept, differ from their clones; the bounds `0.0` and `-0.0` are equal
  and may decide whether a solve converges (C112).
* Damping (C116).  `parameters.rs` L20-22 says a factor is applied if the error is
  not reduced; the code applies it only if the error is larger, so a step that
  leaves the error equal is taken in full, and Newton's method on
  `x + 2x/(1+x²)` from 1 alternates between 1 and -1 for ever with damping on.  The
  factor 1/2 is applied once and the result is not compared: `x² - 2` from 1/8 goes
  from an error of 2 to an error of 14.8 in one damped iteration.  Damping also
  makes a solve fail that succeeds without it.
* The documented rate of stationary Newton lacks a constant (C64).

## 6. Testing of the theorems

`seeded/LOG.jsonl` records attempts to break the theorems: one realistic bug is
put into a copy of the model, everything is rebuilt, and the failing proofs are
listed.  `theorems_failed` are proofs that failed themselves (lemmas included),
`property_theorems_resting_on_them` are the property theorems that no longer build
because of them, `theorems_tightened` are theorems that were strengthened because
they still held although their claim had become false.
Some late entries rebuilt only the modules that use the edited definition for the
claim in question.
