{
 "claims": [
  {
   "property": "C01",
   "status": "proved",
   "theorems": [
    "Nrf.C01_any_arithmetic",
    "Nrf.C01_ok_means_solved"
   ],
   "note": "For any arithmetic in terms of the computed maximum; componentwise in exact arithmetic."
  },
  {
   "property": "C02",
   "status": "partial",
   "theorems": [
    "Nrf.C02_refuted",
    "Nrf.C02_partial",
    "Nrf.C02_nan_or_solved_partial"
   ],
   "note": "False of the code: a NaN residual makes the test max_error > tolerance false, so Ok is returned (proved for every model in every dimension but 0). Partial: without NaN, Ok means within tolerance in floating point."
  },
  {
   "property": "C03",
   "status": "proved",
   "theorems": [
    "Nrf.C03_recording_is_faithful",
    "Nrf.C03_bounded_work"
   ],
   "note": "Counts taken from a recording wrapper around an arbitrary model; the wrapper is proved not to change the solve."
  },
  {
   "property": "C04",
   "status": "proved",
   "theorems": [
    "Nrf.C04_any_arithmetic",
    "Nrf.C04_non_convergence_iff"
   ],
   "note": "Any arithmetic; exact arithmetic in terms of the residuals."
  },
  {
   "property": "C05",
   "status": "proved",
   "theorems": [
    "Nrf.C05_any_arithmetic",
    "Nrf.C05_no_unnecessary_evaluation"
   ],
   "note": "Any arithmetic, through the recorded calls."
  },
  {
   "property": "C06",
   "status": "proved",
   "theorems": [
    "Nrf.C06_latent_variables_up_to_date"
   ],
   "note": "Any arithmetic, any model; outcomes Ok, non-convergence and final evaluation error."
  },
  {
   "property": "C07",
   "status": "proved",
   "theorems": [
    "Nrf.C07_unusable_initial_evaluation",
    "Nrf.C07_only_then"
   ],
   "note": "Any arithmetic, any model."
  },
  {
   "property": "C08",
   "status": "partial",
   "theorems": [
    "Nrf.C08_unusable_always_aborts",
    "Nrf.C08_refuted"
   ],
   "note": "The property is false of the code: an unusable evaluation always ends the solve (proved for every model), with a concrete witness."
  },
  {
   "property": "C09",
   "status": "proved",
   "theorems": [
    "Nrf.C09_inaccurate_does_not_disturb"
   ],
   "note": "Any arithmetic, any model, damping off (with damping on an inaccurate evaluation can panic, C13)."
  },
  {
   "property": "C10",
   "status": "partial",
   "theorems": [
    "Nrf.C10_final_evaluation_partial",
    "Nrf.C10_refuted_initial",
    "Nrf.C10_refuted_damping"
   ],
   "note": "False of the code in two ways (inaccurate initial evaluation within tolerance; damping keeps a stale flag). Proved for solves with at least one iteration and damping off."
  },
  {
   "property": "C11",
   "status": "partial",
   "theorems": [
    "Nrf.C11_inaccurate_jacobian_panics",
    "Nrf.C11_refuted"
   ],
   "note": "False of the code: the solve panics for every such model and state; proved generally and with a witness."
  },
  {
   "property": "C12",
   "status": "proved",
   "theorems": [
    "Nrf.C12_fresh_solve_never_panics",
    "Nrf.C12_fresh_solve_never_panics_debug"
   ],
   "note": "Any arithmetic; models that meet Spec.WellBehaved; with and without debugging (non-zero dimension)."
  },
  {
   "property": "C13",
   "status": "partial",
   "theorems": [
    "Nrf.C13_error_while_damping_panics",
    "Nrf.C13_refuted"
   ],
   "note": "False of the code: panic, proved for every such model, with a witness."
  },
  {
   "property": "C14",
   "status": "partial",
   "theorems": [
    "Nrf.C14_newton_raphson_partial",
    "Nrf.C14_refuted_budget",
    "Nrf.C14_refuted_jacobian"
   ],
   "note": "False of the code: iteration counter, accuracy flag and Jacobian survive. Partial: exact relation for Newton-Raphson."
  },
  {
   "property": "C15",
   "status": "partial",
   "theorems": [
    "Nrf.C15_not_poisoned_partial",
    "Nrf.C15_regular_history_partial",
    "Nrf.C15_refuted"
   ],
   "note": "False of the code for the updating methods (witness). Proved for Newton-Raphson and stationary Newton, and for all methods after regular histories."
  },
  {
   "property": "C16",
   "status": "proved",
   "theorems": [
    "Nrf.C16_newton_raphson",
    "Nrf.C16_quasi_newton",
    "Nrf.C16_finite_differences",
    "Nrf.C16_stationary_lifetime"
   ],
   "note": "Counts over the recorded calls; finite differences counted as evaluations."
  },
  {
   "property": "C17",
   "status": "proved",
   "theorems": [
    "Nrf.C17_first_iteration"
   ],
   "note": "Observed through a budget of one iteration; C58 extends it to larger budgets."
  },
  {
   "property": "C18",
   "status": "proved",
   "theorems": [
    "Nrf.C18_float",
    "Nrf.C18_exact"
   ],
   "note": "Floating point and exact arithmetic, analytic Jacobian, damping off, solves that return. Damping can leave the range only through underflow of the midpoint; finite differences are C32."
  },
  {
   "property": "C19",
   "status": "partial",
   "theorems": [
    "Nrf.C19_exact",
    "Nrf.C19_float_partial",
    "Nrf.C19_refuted",
    "Nrf.C19_refuted_rounding"
   ],
   "note": "Exact arithmetic: full. Floating point: up to the rounding of value+limit; refuted for NaN raw steps (jump to min_value) and by one ulp of rounding."
  },
  {
   "property": "C20",
   "status": "proved",
   "theorems": [
    "Nrf.C20_exact",
    "Nrf.C20_float",
    "Nrf.C20_default"
   ],
   "note": "Exact arithmetic and floating point; default parameters return exactly value + step."
  },
  {
   "property": "C21",
   "status": "proved",
   "theorems": [
    "Nrf.C21_never_nan",
    "Nrf.C21_nan_goes_to_min"
   ],
   "note": "NaN raw steps and values never reach the result; they are replaced by min_value."
  },
  {
   "property": "C22",
   "status": "partial",
   "theorems": [
    "Nrf.C22_params_partial",
    "Nrf.C22_params_fd_partial",
    "Nrf.C22_extend_partial",
    "Nrf.C22_refuted",
    "Nrf.C22_exact"
   ],
   "note": "Refuted: NaN parameters are accepted. Partial: characterisation of acceptance for non-NaN values; exact arithmetic full."
  },
  {
   "property": "C23",
   "status": "partial",
   "theorems": [
    "Nrf.C23_exact",
    "Nrf.C23_float",
    "Nrf.C23_refuted_infinite"
   ],
   "note": "Exact arithmetic: full. Floating point: for finite dx_abs, dx_rel; with an infinite dx_rel the perturbation at zero is NaN."
  },
  {
   "property": "C24",
   "status": "partial",
   "theorems": [
    "Nrf.C24_refuted",
    "Nrf.C24_refuted_exact",
    "Nrf.C24_max_partial"
   ],
   "note": "False of the code: zero dx_abs or dx_rel is rejected by the constructor although documented; what the formula does for zero is kept as a partial theorem."
  },
  {
   "property": "C25",
   "status": "partial",
   "theorems": [
    "Nrf.C25_antisymmetric",
    "Nrf.C25_zero_iff",
    "Nrf.C25_float_symmetric",
    "Nrf.C25_refuted_overflow"
   ],
   "note": "Exact arithmetic: antisymmetry and zero-iff over any ordered field (C25_antisymmetric, C25_zero_iff). Floating-point model: exchanging the sides leaves the stopping residual unchanged for every rounding (C25_float_symmetric). In binary64 the zero-iff claim fails: the sum of two huge sides overflows and Rel and Adapt give exactly zero for different sides (C25_refuted_overflow)."
  },
  {
   "property": "C26",
   "status": "proved",
   "theorems": [
    "Nrf.C26_adapt_le_abs",
    "Nrf.C26_adapt_le_rel",
    "Nrf.C26_harmonic",
    "Nrf.C26_rel_scale",
    "Nrf.C26_same_sign",
    "Nrf.C26_near_zero",
    "Nrf.C26_big_values"
   ],
   "note": "Exact arithmetic over any ordered field."
  },
  {
   "property": "C27",
   "status": "proved",
   "theorems": [
    "Nrf.C27_derivative",
    "Nrf.C27_adapt_at_zero",
    "Nrf.C27_needs_nonzero_sum"
   ],
   "note": "Over the reals with Mathlib's HasDerivAt; also the Adapt case at left+right=0 and a counterexample showing that the non-zero sum is needed for Rel."
  },
  {
   "property": "C28",
   "status": "proved",
   "theorems": [
    "Nrf.C28_normalize",
    "Nrf.C28_stored"
   ],
   "note": "Over the reals with Mathlib's HasFDerivAt, any dimension and any mix of update methods; C28_stored states it for the matrix the solver stores."
  },
  {
   "property": "C29",
   "status": "proved",
   "theorems": [
    "Nrf.C29_affine",
    "Nrf.C29_stored"
   ],
   "note": "Exact arithmetic, any dimension."
  },
  {
   "property": "C30",
   "status": "proved",
   "theorems": [
    "Nrf.C30_columns",
    "Nrf.C30_stored"
   ],
   "note": "Every arithmetic (no law of the scalars is used), any dimension, models satisfying Spec.Memory."
  },
  {
   "property": "C31",
   "status": "proved",
   "theorems": [
    "Nrf.C31_newton_step"
   ],
   "note": "Exact arithmetic, any dimension, models satisfying Spec.Memory."
  },
  {
   "property": "C32",
   "status": "partial",
   "theorems": [
    "Nrf.C32_refuted_range",
    "Nrf.C32_refuted_step",
    "Nrf.C32_points_partial",
    "Nrf.C32_range_partial",
    "Nrf.C32_step_partial"
   ],
   "note": "The property as stated is false: refuted by concrete witnesses for the range and for the step (the finite-difference loop leaves the last variable displaced, and a perturbation may leave the bounds). C32_points_partial, for any arithmetic and model: every evaluated point is accepted or an accepted point with one variable perturbed. C32_range_partial and C32_step_partial bound the excess by the size of the perturbation (exact arithmetic)."
  },
  {
   "property": "C33",
   "status": "proved",
   "theorems": [
    "Nrf.C33_jacobian",
    "Nrf.C33_inverse",
    "Nrf.C33_step"
   ],
   "note": "Exact arithmetic, every dimension, all four methods in both forms; C33_step is the same for the pair the solver keeps."
  },
  {
   "property": "C34",
   "status": "proved",
   "theorems": [
    "Nrf.C34_update",
    "Nrf.C34_solve"
   ],
   "note": "Exact arithmetic, every dimension and method. C34_solve: equal outcome, final model state and iteration count for whole solves of a fresh solver, for every model, when no denominator is zero on a reachable state."
  },
  {
   "property": "C35",
   "status": "proved",
   "theorems": [
    "Nrf.C35_least_change",
    "Nrf.C35_consistent",
    "Nrf.C35_second_inverse",
    "Nrf.C35_stored"
   ],
   "note": "Exact arithmetic over any ordered field, every dimension; the update is the unique minimiser. Also the dual fact for the inverse form of the second method."
  },
  {
   "property": "C36",
   "status": "partial",
   "theorems": [
    "Nrf.C36_refuted_change",
    "Nrf.C36_refuted_step",
    "Nrf.C36_stored_partial",
    "Nrf.C36_sign_partial"
   ],
   "note": "The documented pair is refuted twice: the change of the residuals is taken of the absolute stopping residuals (C36_refuted_change) and the step is taken from the point displaced by the finite differences (C36_refuted_step). Partial: what is stored in every case, and the sign condition under which the stored change is the true one."
  },
  {
   "property": "C37",
   "status": "partial",
   "theorems": [
    "Nrf.C37_refuted_every_guess",
    "Nrf.C37_refuted",
    "Nrf.C37_squares_partial",
    "Nrf.C37_convex_partial"
   ],
   "note": "Refuted for all eight updating methods: from every positive guess, however close, the solve of -x - x^2 = 0 diverges (any ordered field; negation of the documented claim over the reals). Partial: for one convex equation (double roots included) and guesses above the root all eight methods converge for every tolerance, and for x^2 = a also in fields without the root. In any dimension, while no residual is negative: C111 (Broyden's two methods). Stationary Newton: C38."
  },
  {
   "property": "C38",
   "status": "proved",
   "theorems": [
    "Nrf.C38_analytic",
    "Nrf.C38_finite_differences",
    "Nrf.C38_limits",
    "Nrf.C38_perturbations"
   ],
   "note": "Exact real arithmetic, every dimension. Sides strictly differentiable at the root (weaker than C1), difference of the Jacobians invertible, any mix of normalizations (Rel needs a non-zero side at the root), damping on or off, limits inactive near the root; analytic Jacobian continuous at the root, or non-zero finite-difference perturbations smaller than the radius. The radius and the iteration bound are uniform in the configuration; the distance to the root is halved at every pass. C38_limits and C38_perturbations show when the crate's own iteratives meet the hypotheses. Rounding is not covered."
  },
  {
   "property": "C39",
   "status": "proved",
   "theorems": [
    "Nrf.C39_one_iteration"
   ],
   "note": "Affine systems of any size, any method, damping, analytic or finite-difference Jacobian, exact arithmetic, limits that do not cut the step."
  },
  {
   "property": "C40",
   "status": "proved",
   "theorems": [
    "Nrf.C40_exchange",
    "Nrf.C40_scaling",
    "Nrf.C40_scaling_relative"
   ],
   "note": "Exact arithmetic, no limits on fields. Swapping the sides of any set of equations (analytic or finite differences) and multiplying equations by non-zero constants leave every Newton-Raphson solve (result, states, iteration count, final iterate) unchanged; scaling needs the normalization to be homogeneous or the stopping test to be relative. Adapt normalization with a zero average is excluded for the scaling by a negative constant because the derivative code picks a one-sided sign there."
  },
  {
   "property": "C41",
   "status": "partial",
   "theorems": [
    "Nrf.C41_midpoint_exact",
    "Nrf.C41_iteration_partial",
    "Nrf.C41_solve_partial",
    "Nrf.C41_midpoint_partial",
    "Nrf.C41_refuted_finite_differences"
   ],
   "note": "Exact with an analytic Jacobian (whole solves and single iterations). With finite differences the code damps towards the displaced point: refuted with a witness."
  },
  {
   "property": "C42",
   "status": "proved",
   "theorems": [
    "Nrf.C42_analytic",
    "Nrf.C42_finite_differences"
   ],
   "note": "For every quasi-Newton update method; the next iteration calls get_jacobian, or runs the finite differences."
  },
  {
   "property": "C43",
   "status": "partial",
   "theorems": [
    "Nrf.C43_same_resolution_partial",
    "Nrf.C43_same_calls_partial",
    "Nrf.C43_refuted_dimension_zero"
   ],
   "note": "Proved in every non-zero dimension. Dimension zero with debugging panics (refuted)."
  },
  {
   "property": "C44",
   "status": "proved",
   "theorems": [
    "Nrf.C44_log",
    "Nrf.C44_silent",
    "Nrf.C44_file"
   ],
   "note": "The numbered states read in the log are compared with the model left by the same solve with a smaller budget."
  },
  {
   "property": "C45",
   "status": "proved",
   "theorems": [
    "Nrf.C45_residuals_config",
    "Nrf.C45_rootfinder",
    "Nrf.C45_contents"
   ],
   "note": "Lengths of all four inputs; exact characterisation of acceptance."
  },
  {
   "property": "C46",
   "status": "proved",
   "theorems": [
    "Nrf.C46_finite_diff",
    "Nrf.C46_jacobian"
   ],
   "note": "The parser model starts from the element tree (minidom not modelled); float parsing is a parameter."
  },
  {
   "property": "C47",
   "status": "proved",
   "theorems": [
    "Nrf.C47_finite_diff",
    "Nrf.C47_jacobian",
    "Nrf.C47_iterative",
    "Nrf.C47_iterative_jacobian",
    "Nrf.C47_residual"
   ],
   "note": "Starts from the element tree; float parsing is a parameter."
  },
  {
   "property": "C48",
   "status": "proved",
   "theorems": [
    "Nrf.C48_numbered",
    "Nrf.C48_ids"
   ],
   "note": "Starts from the element tree; float parsing is a parameter."
  },
  {
   "property": "C49",
   "status": "proved",
   "theorems": [
    "Nrf.C49_same_result",
    "Nrf.C49_attribute_order",
    "Nrf.C49_unknown_attribute",
    "Nrf.C49_later_elements"
   ],
   "note": "Starts from the element tree; float parsing is a parameter."
  },
  {
   "property": "C50",
   "status": "proved",
   "theorems": [
    "Nrf.C50_tags",
    "Nrf.C50_bijection",
    "Nrf.C50_solver_node",
    "Nrf.C50_other_tags",
    "Nrf.C50_documented_example"
   ],
   "note": "All ten methods."
  },
  {
   "property": "C51",
   "status": "proved",
   "theorems": [
    "Nrf.C51_finite_diff",
    "Nrf.C51_jacobian"
   ],
   "note": "For every float text function that the float parser inverts; decimal texts of usize are proved."
  },
  {
   "property": "C52",
   "status": "proved",
   "theorems": [
    "Nrf.C52_accepted",
    "Nrf.C52_contents",
    "Nrf.C52_tolerance",
    "Nrf.C52_default_residuals",
    "Nrf.C52_defaults_accepted"
   ],
   "note": "Any arithmetic."
  },
  {
   "property": "C53",
   "status": "proved",
   "theorems": [
    "Nrf.C53_function",
    "Nrf.C53_function_and_jacobian",
    "Nrf.C53_fresh",
    "Nrf.C53_outcomes",
    "Nrf.C53_returns"
   ],
   "note": "User functions are pure functions on vectors of the right dimension. The finite-difference adapter needs iteratives with perturbations, otherwise the solve panics (see C12)."
  },
  {
   "property": "C54",
   "status": "proved",
   "theorems": [
    "Nrf.C54_analytic",
    "Nrf.C54_flat",
    "Nrf.C54_finite_differences"
   ],
   "note": "Exact arithmetic, default configuration: final point, iteration count and verdict equal those of solver1d / solver1d_fd for every max_iter; a zero slope at a visited point gives the Jacobian error."
  },
  {
   "property": "C55",
   "status": "proved",
   "theorems": [
    "Nrf.C55_solver1d",
    "Nrf.C55_solver1d_fd",
    "Nrf.C55_initial_guess",
    "Nrf.C55_exact"
   ],
   "note": "Any arithmetic; exact arithmetic for the solution statement."
  },
  {
   "property": "C56",
   "status": "proved",
   "theorems": [
    "Nrf.C56_analytic",
    "Nrf.C56_finite_differences"
   ],
   "note": "Any Archimedean ordered field (in particular the reals): analytic derivative, and finite differences with any accepted dx_abs, dx_rel and perturbation method (the documented example)."
  },
  {
   "property": "C57",
   "status": "proved",
   "theorems": [
    "Nrf.C57_contains",
    "Nrf.C57_text",
    "Nrf.C57_injective"
   ],
   "note": "Display texts as string functions."
  },
  {
   "property": "C58",
   "status": "proved",
   "theorems": [
    "Nrf.C58_same_outcome",
    "Nrf.C58_continues"
   ],
   "note": "Any arithmetic, any model, any history."
  },
  {
   "property": "C59",
   "status": "partial",
   "theorems": [
    "Nrf.C59_exact_partial",
    "Nrf.C59_refuted",
    "Nrf.C59_refuted_float",
    "Nrf.C59_unlimited_partial"
   ],
   "note": "Refuted at the value zero when max_step_rel is finite: for every method, damping setting, model with an analytic Jacobian and solver history such a variable is zero at the end (exact arithmetic, whole solves; floating point, single steps). Holds at non-zero values and, in floating point, at zero when max_step_rel is infinite (the default)."
  },
  {
   "property": "C60",
   "status": "partial",
   "theorems": [
    "Nrf.C60_up_to_date",
    "Nrf.C60_inverse",
    "Nrf.C60_used",
    "Nrf.C60_more_recent_partial",
    "Nrf.C60_refuted"
   ],
   "note": "The invariant holds for every outcome and every solver history that starts with a new solver. Refuted part: after a failed inversion the log claims a more recent inverse although there is none."
  },
  {
   "property": "C61",
   "status": "partial",
   "theorems": [
    "Nrf.C61_refuted_nan",
    "Nrf.C61_refuted_negative",
    "Nrf.C61_solution_partial"
   ],
   "note": "Refuted: SolverParameters::new accepts every f64. NaN makes every solve succeed at the guess, a negative tolerance makes every solve fail. Partial: non-negative tolerances recognise exact solutions."
  },
  {
   "property": "C62",
   "status": "proved",
   "theorems": [
    "Nrf.C62_stricter",
    "Nrf.C62_stricter_float",
    "Nrf.C62_same_failure",
    "Nrf.C62_solved",
    "Nrf.C62_continues"
   ],
   "note": "Full, in any arithmetic in which the tolerances are ordered; shown for exact arithmetic and for floating point."
  },
  {
   "property": "C63",
   "status": "proved",
   "theorems": [
    "Nrf.C63_quadratic"
   ],
   "note": "Exact arithmetic over the reals, analytic Jacobian, limits inactive near the root; Local.lean gives convergence, Rate.lean the mean-value estimate. Floats are not covered."
  },
  {
   "property": "C64",
   "status": "partial",
   "theorems": [
    "Nrf.C64_linear_partial",
    "Nrf.C64_refuted"
   ],
   "note": "The documented inequality is refuted for guesses as close to a simple root as desired; proved with a constant factor that depends on the equations. Exact arithmetic, analytic Jacobian, limits inactive near the root."
  },
  {
   "property": "C65",
   "status": "proved",
   "theorems": [
    "Nrf.C65_read_back",
    "Nrf.C65_determines",
    "Nrf.C65_states",
    "Nrf.C65_iteratives_one_line"
   ],
   "note": "`Model/Text.lean` writes the file character by character; `Spec/ReadText.lean` is an independent reader working on lines. `C65_read_back`: reading gives exactly the iterations, dampings and refusals of the log. `C65_determines`, `C65_states`: equal files mean equal recorded iterations (numbers with different texts; `f64::to_string` has this property apart from NaN payloads). Assumed: number texts without blank, `|`, `=`, line end; a matrix text consists of complete lines not beginning with `I`, `D`, `M`, `|` (true of nalgebra's `Display` for non-empty matrices)."
  },
  {
   "property": "C66",
   "status": "partial",
   "theorems": [
    "Nrf.C66_iterations",
    "Nrf.C66_iteratives",
    "Nrf.C66_residuals",
    "Nrf.C66_parameters_refuted",
    "Nrf.C66_parameters_partial",
    "Nrf.C66_quasi_newton_overflows"
   ],
   "note": "Proved for iterations (a row is aligned exactly when its numbers have at most 30 characters; `f64` is written without exponent, so an error of 1e-40 does not fit), iteratives and residuals. Refuted for the solver parameters: the column of `max_iter` is 17 wide under a heading of 16, so no row is ever aligned (`C66_parameters_refuted`); `C66_parameters_partial` says what remains, and every quasi-Newton method overflows the table (`C66_quasi_newton_overflows`)."
  },
  {
   "property": "C67",
   "status": "partial",
   "theorems": [
    "Nrf.C67_method_refuted",
    "Nrf.C67_method_partial",
    "Nrf.C67_configuration_partial",
    "Nrf.C67_configuration_plain_partial"
   ],
   "note": "Refuted: `JacobianUpdate` and `InverseJacobianUpdate` of the same formula have the same text (the message also lacks a blank: \"approximatedBroyden First Method\"). Partial: this is all that is lost; size, limit, tolerance, damping, iteratives and normalizations are identified (`C67_configuration_partial` with, `C67_configuration_plain_partial` without finite differences)."
  },
  {
   "property": "C68",
   "status": "proved",
   "theorems": [
    "Nrf.C68_cases5to8",
    "Nrf.C68_case5",
    "Nrf.C68_case6",
    "Nrf.C68_case7",
    "Nrf.C68_case8",
    "Nrf.C68_case9",
    "Nrf.C68_case10",
    "Nrf.C68_square2",
    "Nrf.C68_high_derivative"
   ],
   "note": "Over the reals; the functions of `Model/TestCases` in exact arithmetic."
  },
  {
   "property": "C69",
   "status": "proved",
   "theorems": [
    "Nrf.C69_case5",
    "Nrf.C69_case6",
    "Nrf.C69_case7",
    "Nrf.C69_case8",
    "Nrf.C69_cases5to8",
    "Nrf.C69_case9",
    "Nrf.C69_case10",
    "Nrf.C69_polynoms",
    "Nrf.C69_quadratic"
   ],
   "note": "`SimpleRoot` (root, twice continuously differentiable, derivative, invertible) for each case; `C69_quadratic` feeds it to C63."
  },
  {
   "property": "C70",
   "status": "partial",
   "theorems": [
    "Nrf.C70_values",
    "Nrf.C70_case10_singular",
    "Nrf.C70_high_derivative_refuted",
    "Nrf.C70_high_derivative_partial"
   ],
   "note": "Holds for the values (up to 2e-15) and case 10. Refuted for `root_with_high_derivative`: the residual at 1 is 999999999, not 0.9, and the step is above 0.1, not 1e-10. The root and the derivative at 1 are as documented."
  },
  {
   "property": "C71",
   "status": "proved",
   "theorems": [
    "Nrf.C71_cases5to8",
    "Nrf.C71_case5",
    "Nrf.C71_case6",
    "Nrf.C71_case7",
    "Nrf.C71_case8"
   ],
   "note": "Exact arithmetic; no damping, absolute residuals, analytic Jacobian. The finite difference variants of the tests are not covered."
  },
  {
   "property": "C72",
   "status": "proved",
   "theorems": [
    "Nrf.C72_analytic",
    "Nrf.C72_finite_differences"
   ],
   "note": "Exact arithmetic."
  },
  {
   "property": "C73",
   "status": "proved",
   "theorems": [
    "Nrf.C73_case10"
   ],
   "note": "Exact arithmetic, analytic Jacobian. Nothing is claimed for guesses on the left of the singularity, which include the documented starting point."
  },
  {
   "property": "C74",
   "status": "proved",
   "theorems": [
    "Nrf.C74_power",
    "Nrf.C74_square2",
    "Nrf.C74_high_derivative"
   ],
   "note": "Exact arithmetic, analytic Jacobian."
  },
  {
   "property": "C75",
   "status": "proved",
   "theorems": [
    "Nrf.C75_factors",
    "Nrf.C75_inverse",
    "Nrf.C75_singular",
    "Nrf.C75_exact"
   ],
   "note": "The model of nalgebra's algorithm is written from memory (the source is not on this machine) and reproduces the reference log of the repository bit for bit (`Validate/Recorded.lean`). `C75_exact` shows that it meets the assumption `IsExact` of the exact theorems."
  },
  {
   "property": "C76",
   "status": "proved",
   "theorems": [
    "Nrf.C76_round_trip",
    "Nrf.C76_shortest",
    "Nrf.C76_reads",
    "Nrf.C76_nearest",
    "Nrf.C76_matrix",
    "Nrf.C76_log"
   ],
   "note": "The formatting and parsing of Rust's standard library are written from their documentation; `Validate/Recorded.lean` checks them against a log recorded in the repository. Matrix text of nalgebra for dimensions other than zero."
  },
  {
   "property": "C77",
   "status": "partial",
   "theorems": [
    "Nrf.C77_finite_diff",
    "Nrf.C77_jacobian",
    "Nrf.C77_rewrite",
    "Nrf.C77_ordered_partial",
    "Nrf.C77_refuted"
   ],
   "note": "Round trips hold for all doubles. Ordered limits hold when no attribute of the iteratives spells NaN; refuted in general: a file with `max_value=\"-NaN\"` is accepted."
  },
  {
   "property": "C78",
   "status": "partial",
   "theorems": [
    "Nrf.C78_stop_refuted",
    "Nrf.C78_update_refuted",
    "Nrf.C78_small_partial",
    "Nrf.C78_float_refuted",
    "Nrf.C78_scalar_refuted"
   ],
   "note": "Refuted. A relative stopping residual against zero is 2 (exact arithmetic; at least 1 in floating point) at every point that is not an exact root, and NaN (accepted) at an exact root in floating point. A relative update residual has derivative zero, so every Jacobian is singular. What holds for the other criteria is `C78_small_partial`."
  },
  {
   "property": "C79",
   "status": "partial",
   "theorems": [
    "Nrf.C79_trace",
    "Nrf.C79_converges_partial",
    "Nrf.C79_refuted"
   ],
   "note": "Refuted: half an adaptive residual is squared by every iteration, so the solve converges exactly when all adaptive residuals are below 2 at the guess (`C79_trace`, `C79_converges_partial`, `C79_refuted`). Analytic Jacobian, right side zero."
  },
  {
   "property": "C80",
   "status": "partial",
   "theorems": [
    "Nrf.C80_refuted",
    "Nrf.C80_finite_partial",
    "Nrf.C80_absolute"
   ],
   "note": "Refuted for relative and adaptive criteria: infinite sides make these residuals NaN (accepted), and finite sides whose sum overflows make them zero. Holds for absolute criteria, and for any criterion when no residual is NaN (`C80_finite_partial`, infinite sides only)."
  },
  {
   "property": "C81",
   "status": "proved",
   "theorems": [
    "Nrf.C81_units",
    "Nrf.C81_common_unit",
    "Nrf.C81_new",
    "Nrf.C81_parameters",
    "Nrf.C81_parameters_fd",
    "Nrf.C81_constructor",
    "Nrf.C81_mixed_units"
   ],
   "note": "Exact arithmetic. An equation between whole solves (states, verdict, log, stored matrices, panics), with analytic Jacobians or finite differences, damping and limits. `C81_mixed_units` shows that the condition on the other two methods is needed, in both forms."
  },
  {
   "property": "C82",
   "status": "partial",
   "theorems": [
    "Nrf.C82_equations",
    "Nrf.C82_variables",
    "Nrf.C82_new",
    "Nrf.C82_refuted",
    "Nrf.C82_damping_refuted"
   ],
   "note": "Exact arithmetic. Holds for the equations always, for the variables when the model gives its Jacobian. Refuted for the variables with finite differences, for every updating method and for damped Newton-Raphson: the model is left displaced along the last variable."
  },
  {
   "property": "C83",
   "status": "proved",
   "theorems": [
    "Nrf.C83_accuracy",
    "Nrf.C83_parameters",
    "Nrf.C83_attained",
    "Nrf.C83_rate"
   ],
   "note": "Exact arithmetic. The bound is stated on the matrix that `jacobian_evaluation` builds, for any mix of normalizations; the rate on whole solves with limits and normalizations."
  },
  {
   "property": "C84",
   "status": "proved",
   "theorems": [
    "Nrf.C84_converges",
    "Nrf.C84_root",
    "Nrf.C84_unique"
   ],
   "note": "Exact arithmetic, analytic Jacobian, absolute residuals, no damping. The number of iterations depends on the function and the tolerance only, not on the rest of the configuration."
  },
  {
   "property": "C85",
   "status": "proved",
   "theorems": [
    "Nrf.C85_exact",
    "Nrf.C85_float"
   ],
   "note": "Any method, model and history. In binary64 the conditions are on the function that was meant, over the reals; the rounding error of the computed function enters as a hypothesis at the result only."
  },
  {
   "property": "C86",
   "status": "proved",
   "theorems": [
    "Nrf.C86_convex",
    "Nrf.C86_finite_differences"
   ],
   "note": "Exact arithmetic, absolute residuals, limits that do not act between the points visited. The bound with finite differences is explicit and holds for large perturbations too."
  },
  {
   "property": "C87",
   "status": "partial",
   "theorems": [
    "Nrf.C87_moved",
    "Nrf.C87_refuted"
   ],
   "note": "Proved with the bound on dx_rel (C87_moved). Refuted for what the constructor accepts (C87_refuted): no theorem can cover a smaller dx_rel."
  },
  {
   "property": "C88",
   "status": "partial",
   "theorems": [
    "Nrf.C88_unique",
    "Nrf.C88_relative_refuted",
    "Nrf.C88_far_refuted",
    "Nrf.C88_quadratic",
    "Nrf.C88_finite_differences",
    "Nrf.C88_opposite_refuted"
   ],
   "note": "Uniqueness and convergence are proved with criteria that can be met (absolute or adaptive on the second and third equation). Refuted: relative criteria (C88_relative_refuted, C88_opposite_refuted), and success only near the solution (C88_far_refuted). Convergence needs limits that do not act near the solution, which for the first component (zero) means an infinite max_step_rel."
  },
  {
   "property": "C89",
   "status": "partial",
   "theorems": [
    "Nrf.C89_trace",
    "Nrf.C89_converges_partial",
    "Nrf.C89_refuted"
   ],
   "note": "Exact course for all guesses except those whose sides differ by exactly 200 % of the right side (there the second Jacobian is singular). Convergence below (C89_converges_partial), divergence above (C89_refuted)."
  },
  {
   "property": "C90",
   "status": "partial",
   "theorems": [
    "Nrf.C90_memory_partial",
    "Nrf.C90_damping_partial",
    "Nrf.C90_noting_is_faithful",
    "Nrf.C90_refuted"
   ],
   "note": "Any arithmetic, any of the ten methods, any outcome, damping off: full description of the memory at the start of every evaluation. With damping the claim is false: the halfway point is evaluated from the memory of the refused point (refuted with a witness; what holds with damping is a partial theorem)."
  },
  {
   "property": "C91",
   "status": "partial",
   "theorems": [
    "Nrf.C91_detected_partial",
    "Nrf.C91_reported_partial",
    "Nrf.C91_guess_partial",
    "Nrf.C91_scalar",
    "Nrf.C91_accepted_refuted",
    "Nrf.C91_rejected_refuted"
   ],
   "note": "Exact arithmetic: both directions for every model and pass, and the case of the guess. In binary64 the property fails: with the Jacobian [[49, 49], [49, 49]] contradicting equations end in NonConvergenceError after 50 iterations (accepted), and a regular Jacobian [[3, 1], [1, fl(1/3)]] of equations with a solution is rejected. In dimension one binary64 is right (C91_scalar)."
  },
  {
   "property": "C92",
   "status": "proved",
   "theorems": [
    "Nrf.C92_chord",
    "Nrf.C92_total",
    "Nrf.C92_attained"
   ],
   "note": "All models obeying the memory contract, all finite doubles including subnormal numbers; the order of the bound is attained (C92_attained: 1.6e-9 for the identity at one, because the code divides by the perturbation and not by the difference of the rounded points)."
  },
  {
   "property": "C93",
   "status": "proved",
   "theorems": [
    "Nrf.C93_converges",
    "Nrf.C93_default",
    "Nrf.C93_unreachable"
   ],
   "note": "Every rounding of a pass (square, residual, derivative, LU inverse, product, sum) is accounted for; the arithmetic of nalgebra is the model of Model/Lu.lean. Newton-Raphson with derivative, without damping."
  },
  {
   "property": "C94",
   "status": "partial",
   "theorems": [
    "Nrf.C94_consistent",
    "Nrf.C94_function",
    "Nrf.C94_jacobian",
    "Nrf.C94_new",
    "Nrf.C94_missing",
    "Nrf.C94_adapter_size",
    "Nrf.C94_function_size",
    "Nrf.C94_jacobian_size",
    "Nrf.C94_debug",
    "Nrf.C94_surplus_variables",
    "Nrf.C94_missing_variables",
    "Nrf.C94_missing_perturbations",
    "Nrf.C94_surplus",
    "Nrf.C94_equations_partial",
    "Nrf.C94_equations_refuted"
   ],
   "note": "Consistent models are proved equal to the model of fixed dimension in any arithmetic, with the log; debugging changes no solve, whatever the lengths. Refuted for models with surplus equations: two equations in one variable, the second 1 = 0, are solved. Missing equations and adapters of another size in any arithmetic; arbitrary models with surplus equations in exact arithmetic."
  },
  {
   "property": "C95",
   "status": "proved",
   "theorems": [
    "Nrf.C95_newton",
    "Nrf.C95_stationary",
    "Nrf.C95_differences",
    "Nrf.C95_default"
   ],
   "note": "Every rounding of a pass is accounted for (difference quotient, LU inverse, product, sum); the evaluation of the user model enters through its error bound. Default limits, Abs residuals, no damping, dimension one."
  },
  {
   "property": "C96",
   "status": "proved",
   "theorems": [
    "Nrf.C96_dot",
    "Nrf.C96_newton",
    "Nrf.C96_stationary",
    "Nrf.C96_stationary_differences"
   ],
   "note": "Every rounding of the product, of the step limitation and of the update is accounted for; the inverse enters through its accuracy, which the example computes for a system of two equations. Default limits, Abs residuals, no damping."
  },
  {
   "property": "C97",
   "status": "proved",
   "theorems": [
    "Nrf.C97_inverse",
    "Nrf.C97_newton",
    "Nrf.C97_stationary",
    "Nrf.C97_differences",
    "Nrf.C97_stationary_differences",
    "Nrf.C97_perturbations",
    "Nrf.C97_default"
   ],
   "note": "No hypothesis on the linear algebra remains besides that it is the LU inverse; products are accurate by C96_dot. The factor 3^n bounds the growth of the pivots and excludes dimensions above 15. The LU algorithm is that of Model/Lu, written from memory of nalgebra (section 2)."
  },
  {
   "property": "C98",
   "status": "proved",
   "theorems": [
    "Nrf.C98_step",
    "Nrf.C98_quadratic"
   ],
   "note": "Proved in full. Hypotheses on the model are bounds of its errors; the LU inverse is the algorithm of Model/Lu in binary64."
  },
  {
   "property": "C99",
   "status": "proved",
   "theorems": [
    "Nrf.C99_box",
    "Nrf.C99_default"
   ],
   "note": "Proved in full for the box and the range of tolerances stated; the exact version for every guess is C72."
  },
  {
   "property": "C100",
   "status": "proved",
   "theorems": [
    "Nrf.C100_returns",
    "Nrf.C100_panics",
    "Nrf.C100_decides",
    "Nrf.C100_activated"
   ],
   "note": "Model/Program is written statement by statement from rootfinder.rs and log.rs, in a monad whose state survives a panic. Files are lists of characters; a failed write leaves a first part of its characters; the user's model does not touch the log file."
  },
  {
   "property": "C101",
   "status": "proved",
   "theorems": [
    "Nrf.C101_panic",
    "Nrf.C101_recorded"
   ],
   "note": "For every pattern of failing user methods and file operations."
  },
  {
   "property": "C102",
   "status": "proved",
   "theorems": [
    "Nrf.C102_breaks_off",
    "Nrf.C102_first_part",
    "Nrf.C102_after_panic"
   ],
   "note": "The reader is that of C65; texts of numbers and matrices as there."
  },
  {
   "property": "C103",
   "status": "partial",
   "theorems": [
    "Nrf.C103_failed_activation_partial",
    "Nrf.C103_unusable",
    "Nrf.C103_goes_on",
    "Nrf.C103_solver_as_before_refuted"
   ],
   "note": "Refuted: debug is set before the file is created. The partial theorem says what is kept; further theorems that a solver without a log always panics afterwards and that one with a log goes on."
  },
  {
   "property": "C104",
   "status": "proved",
   "theorems": [
    "Nrf.C104_returns",
    "Nrf.C104_io",
    "Nrf.C104_user",
    "Nrf.C104_code",
    "Nrf.C104_missing"
   ],
   "note": "In the program model: files are texts, the failures of operations and of the user's methods are given by the surroundings."
  },
  {
   "property": "C105",
   "status": "partial",
   "theorems": [
    "Nrf.C105_usable_partial",
    "Nrf.C105_early",
    "Nrf.C105_as_new_partial",
    "Nrf.C105_refuted"
   ],
   "note": "Refuted for the updating methods (Broyden, panic in the first evaluation of an iteration). Partial theorems: two methods after any history; Newton-Raphson behaves as a new solver with the rest of the budget. All methods: a panic before the first iteration leaves the solver as it was."
  },
  {
   "property": "C106",
   "status": "proved",
   "theorems": [
    "Nrf.C106_off",
    "Nrf.C106_read_back",
    "Nrf.C106_values",
    "Nrf.C106_same_events",
    "Nrf.C106_forged"
   ],
   "note": "The values are given by libraries and are arbitrary texts here."
  },
  {
   "property": "C107",
   "status": "proved",
   "theorems": [
    "Nrf.C107_values",
    "Nrf.C107_jacobian",
    "Nrf.C107_domain",
    "Nrf.C107_plane",
    "Nrf.C107_line",
    "Nrf.C107_plane_jacobian",
    "Nrf.C107_line_jacobian",
    "Nrf.C107_formula"
   ],
   "note": "Proved in full: the loops equal the recursions of Model/TestCases in any arithmetic, the sum formula holds in exact arithmetic; the Jacobians are the derivatives by C68."
  },
  {
   "property": "C108",
   "status": "proved",
   "theorems": [
    "Nrf.C108_solver",
    "Nrf.C108_solver_fd",
    "Nrf.C108_parts",
    "Nrf.C108_numbers",
    "Nrf.C108_methods",
    "Nrf.C108_layout"
   ],
   "note": "Static dimensions (columns as lists). The builders of core::fmt and Debug of f64 are modelled from memory; the log path is not part of the text."
  },
  {
   "property": "C109",
   "status": "proved",
   "theorems": [
    "Nrf.C109_converges",
    "Nrf.C109_inexact",
    "Nrf.C109_differences",
    "Nrf.C109_root"
   ],
   "note": "All functions that meet the conditions, every dimension and tolerance; analytic Jacobian, any matrix in its place, and finite differences. Exact arithmetic over the reals."
  },
  {
   "property": "C110",
   "status": "proved",
   "theorems": [
    "Nrf.C110_layout",
    "Nrf.C110_exact",
    "Nrf.C110_unambiguous",
    "Nrf.C110_outcome",
    "Nrf.C110_same_tree",
    "Nrf.C110_finite_diff",
    "Nrf.C110_jacobian"
   ],
   "note": "The parser model covers tags, attributes, text, comments and the declaration, written from the XML recommendation; other texts are outside the model. The text of tests/log/broyden_case10.xml is read by kernel evaluation as the tree used for the recorded log."
  },
  {
   "property": "C111",
   "status": "proved",
   "theorems": [
    "Nrf.C111_first",
    "Nrf.C111_second",
    "Nrf.C111_first_solver",
    "Nrf.C111_second_solver"
   ],
   "note": "The points of the solver are those of the literature only while no residual is negative: the code takes the change of the absolute values (C36, C37). Absolute residuals for stopping and updates; exact arithmetic."
  },
  {
   "property": "C112",
   "status": "partial",
   "theorems": [
    "Nrf.C112_equal",
    "Nrf.C112_relation",
    "Nrf.C112_behaviour_partial",
    "Nrf.C112_methods",
    "Nrf.C112_self_refuted",
    "Nrf.C112_solve_refuted"
   ],
   "note": "The clauses that every accepted setting equals itself (NaN is accepted) and that equal settings give the same solves (0.0 == -0.0) are false of the code: C112_self_refuted, C112_solve_refuted. What holds instead is C112_behaviour_partial."
  },
  {
   "property": "C113",
   "status": "proved",
   "theorems": [
    "Nrf.C113_first",
    "Nrf.C113_second",
    "Nrf.C113_first_solver",
    "Nrf.C113_second_solver"
   ],
   "note": "In exact arithmetic. The hypothesis that no residual is negative at the points of the method is the one of C111; without it the code departs from the methods (C37)."
  },
  {
   "property": "C114",
   "status": "proved",
   "theorems": [
    "Nrf.C114_first",
    "Nrf.C114_second",
    "Nrf.C114_first_fast",
    "Nrf.C114_second_fast"
   ],
   "note": "Exact arithmetic, absolute residuals, no damping, no negative residual at the points of the method (C37 shows that the last condition cannot be dropped)."
  },
  {
   "property": "C115",
   "status": "partial",
   "theorems": [
    "Nrf.C115_budget",
    "Nrf.C115_exhausted",
    "Nrf.C115_idle",
    "Nrf.C115_case8_refuted",
    "Nrf.C115_dynamic_refuted",
    "Nrf.C115_reset",
    "Nrf.C115_static_refuted"
   ],
   "note": "Refuted: the iteration counter is not set back by solve, so all calls on one solver share one budget (C115_budget). In binary64 the 13th call of static_types.rs panics at unwrap; in broyden_case8.rs every call after the 60th only evaluates the guess and returns NonConvergence. C115_reset: the state put into the model before a call has no influence."
  },
  {
   "property": "C116",
   "status": "partial",
   "theorems": [
    "Nrf.C116_contracts",
    "Nrf.C116_no_growth_partial",
    "Nrf.C116_cycle_refuted",
    "Nrf.C116_growth_refuted",
    "Nrf.C116_spoils_refuted"
   ],
   "note": "Proved: convergence from every guess, damped or not, for slopes within a factor two, and no growth with damping within a factor four. Refuted: with equal errors the factor stays 1 and the method cycles for ever; the halved step is not compared again and may increase the error; damping can turn a success into a failure."
  },
  {
   "property": "C117",
   "status": "proved",
   "theorems": [
    "Nrf.C117_differences",
    "Nrf.C117_stationary",
    "Nrf.C117_stationary_differences",
    "Nrf.C117_sharp"
   ],
   "note": "Global convergence with an explicit factor for Newton-Raphson by finite differences and for stationary Newton, on one equation; C117_sharp shows that the bound on the slopes is the best one."
  },
  {
   "property": "C118",
   "status": "proved",
   "theorems": [
    "Nrf.C118_newton",
    "Nrf.C118_differences",
    "Nrf.C118_stationary",
    "Nrf.C118_stationary_differences"
   ],
   "note": "Global convergence with an explicit factor in every dimension, for Newton-Raphson and stationary Newton, with a Jacobian or with finite differences of any size."
  },
  {
   "property": "C119",
   "status": "proved",
   "theorems": [
    "Nrf.C119_differences",
    "Nrf.C119_analytic",
    "Nrf.C119_below"
   ],
   "note": "An explicit number of iterations from above the root; from below a cycle that no budget ends."
  },
  {
   "property": "C120",
   "status": "proved",
   "theorems": [
    "Nrf.C120_convex",
    "Nrf.C120_every_tolerance",
    "Nrf.C120_differences"
   ],
   "note": "Global linear convergence on either side of the root; here the single uncompared half step of the damping does no harm (compare C116)."
  },
  {
   "property": "C121",
   "status": "proved",
   "theorems": [
    "Nrf.C121_convex",
    "Nrf.C121_convex_fd",
    "Nrf.C121_slopes",
    "Nrf.C121_chords_fd",
    "Nrf.C121_silent"
   ],
   "note": "Global convergence of the utility solver; a failure is silent (C121_silent)."
  }
 ]
}