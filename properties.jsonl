{"id": "C01", "title": "Ok means solved", "statement": "If RootFinder::solve returns Ok(()), then in the model as it is left, the stopping residual |normalization(left_i,right_i,stopping_criteria_i)| of every equation i is at most the tolerance (\"each residual must be below this threshold\").", "quantifier": "for every model, every configuration, every resolution method, every history of the solver object, every equation index", "why_tests_cant": "Tests look at a handful of converging problems; the claim is about every exit path of the loop, including the ones where the last step was damped or where the Jacobian was refused.", "anchors": ["src/solver_n_dimensional/solver/rootfinder.rs: RootFinder::solve", "src/solver_n_dimensional/residuals/config.rs: evaluate_stopping_residuals", "src/solver_n_dimensional/solver/parameters.rs: SolverParameters docs (Tolerance)"]}
{"id": "C02", "title": "A NaN residual is never reported as solved", "statement": "A solve whose final model holds a NaN residual does not return Ok(()).", "quantifier": "for every model whose evaluation yields NaN residuals, every dimension", "why_tests_cant": "A test needs to guess a model producing NaN at the right moment; comparison with NaN is silently false.", "anchors": ["src/solver_n_dimensional/solver/rootfinder.rs: RootFinder::solve (while condition and final test)"]}
{"id": "C03", "title": "Bounded work", "statement": "A solve performs at most max_iter iterations and at most 1 + max_iter*(n_fd + 1 + d) model evaluations, where n_fd is len_problem() when no analytic Jacobian is provided (0 otherwise) and d is 1 when damping is on (0 otherwise); it asks for at most max_iter analytic Jacobians.", "quantifier": "for every model (including models returning errors), every configuration, every method", "why_tests_cant": "An upper bound over all executions cannot be sampled; damping and finite differences interact.", "anchors": ["src/solver_n_dimensional/solver/rootfinder.rs: solve, update_model, damping", "src/solver_n_dimensional/solver/jacobian/jacobian_finite_diff.rs", "src/solver_n_dimensional/solver/parameters.rs (Max iteration)"]}
{"id": "C04", "title": "Non-convergence is reported exactly on an exhausted budget", "statement": "solve returns NonConvergenceError exactly when it leaves the loop with the error still above the tolerance, and then the iteration counter equals max_iter (or had already reached it).", "quantifier": "for every model and configuration", "why_tests_cant": "Needs all exits of the loop to be classified at once.", "anchors": ["src/solver_n_dimensional/solver/rootfinder.rs: RootFinder::solve", "src/solver_n_dimensional/errors.rs: SolverError"]}
{"id": "C05", "title": "No unnecessary evaluation", "statement": "If the initial guess already satisfies the stopping test (or the budget is zero) the solver calls set_iteratives once and evaluate once and nothing else that can change the model, and leaves the model at the initial guess.", "quantifier": "for every model, configuration and method", "why_tests_cant": "Call-sequence property over arbitrary models; unit tests do not count calls.", "anchors": ["SPECIFICATIONS.md (Avoid any unnecessary evaluation)", "src/solver_n_dimensional/solver/rootfinder.rs: RootFinder::solve"]}
{"id": "C06", "title": "Latent variables are up to date on return", "statement": "Whenever solve returns Ok, NonConvergenceError or FinalEvaluationError, the last state-changing calls made on the model are set_iteratives(x) followed by evaluate(), for the x that get_iteratives reports on a model obeying the get/set contract; no Jacobian perturbation is left in the model, so any quantity computed by the model is available without re-evaluation.", "quantifier": "for every model, method, damping setting and number of iterations", "why_tests_cant": "Finite differences leave the model at a perturbed point in the middle of an iteration; only an argument over every path shows it never leaks out.", "anchors": ["SPECIFICATIONS.md (latent variable)", "src/solver_n_dimensional/solver/rootfinder.rs: update_model, damping, solve"]}
{"id": "C07", "title": "Unusable initial evaluation", "statement": "If the very first evaluation reports unusable values, solve returns ModelInitialEvaluationError carrying the text of the model's error, after exactly one set_iteratives and one evaluate, and the solver object is unchanged.", "quantifier": "for every model and error value, every configuration", "why_tests_cant": "Error text and absence of further calls for arbitrary models.", "anchors": ["src/solver_n_dimensional/solver/rootfinder.rs: solve L398-406", "src/solver_n_dimensional/errors.rs: SolverError"]}
{"id": "C08", "title": "Unusable evaluation during the iterations is recovered", "statement": "An UnusableValuesError returned by evaluate during an iteration is recovered (the step is redone with Newton-Raphson or damped) instead of ending the solve.", "quantifier": "for every model and iteration other than the first and last evaluation", "why_tests_cant": "Documented recovery strategy over all executions.", "anchors": ["SPECIFICATIONS.md (Error handling)", "src/solver_n_dimensional/model/error.rs docs", "src/solver_n_dimensional/solver/rootfinder.rs: update_model"]}
{"id": "C09", "title": "Inaccurate evaluations do not disturb the resolution", "statement": "Replacing every InaccurateValuesError returned by evaluate by Ok(()) changes neither the sequence of calls made on the model nor the final model state; it can only turn a FinalEvaluationError into Ok (damping off).", "quantifier": "for every model, method, configuration without damping", "why_tests_cant": "A two-run (relational) property over arbitrary executions.", "anchors": ["SPECIFICATIONS.md (inaccurate values always recoverable)", "src/solver_n_dimensional/model/error.rs", "src/solver_n_dimensional/solver/rootfinder.rs: solve, update_model", "src/solver_n_dimensional/solver/jacobian/jacobian_finite_diff.rs"]}
{"id": "C10", "title": "FinalEvaluationError reports exactly an inaccurate final evaluation", "statement": "A converged solve returns Ok when the evaluation that produced the final model state succeeded, and FinalEvaluationError when that evaluation was reported inaccurate.", "quantifier": "for every model, method, damping setting, including convergence at the initial guess", "why_tests_cant": "Requires relating a status flag to the actual last evaluation on every path.", "anchors": ["src/solver_n_dimensional/solver/rootfinder.rs: solve, update_model, damping", "src/solver_n_dimensional/errors.rs: FinalEvaluationError docs", "src/solver_n_dimensional/model/error.rs docs"]}
{"id": "C11", "title": "An inaccurate Jacobian is recoverable", "statement": "If get_jacobian returns InaccurateValuesError during an iteration, solve continues or returns an error; it does not abort the program.", "quantifier": "for every model with an analytic Jacobian, every iteration", "why_tests_cant": "Needs the error branch of a user callback at an arbitrary iteration.", "anchors": ["src/solver_n_dimensional/solver/rootfinder.rs: compute_jac, compute_next_from_inv_jac", "src/solver_n_dimensional/solver/jacobian/jacobian_analytic.rs"]}
{"id": "C12", "title": "A fresh solve never panics on a well behaved model", "statement": "The first solve of a RootFinder accepted by RootFinder::new does not panic, for models with a consistent len_problem whose get_jacobian is never Inaccurate, whose evaluate reports no error when damping is on, and with finite-difference iteratives whenever no analytic Jacobian is provided.", "quantifier": "for every such model, method, configuration, number of iterations", "why_tests_cant": "All unwrap/expect sites must be shown unreachable on every path; tests only run some.", "anchors": ["src/solver_n_dimensional/solver/rootfinder.rs: compute_next_from_inv_jac, evaluate_jacobian_quasi_newton_step, damping", "src/solver_n_dimensional/solver/jacobian/*.rs"]}
{"id": "C13", "title": "A model error during damping is reported, not fatal", "statement": "A model error raised while re-evaluating the damped guess is handled like any other evaluation error.", "quantifier": "for every model, every error kind, damping on", "why_tests_cant": "Requires the error to occur at the damped point only.", "anchors": ["src/solver_n_dimensional/solver/rootfinder.rs: damping L325"]}
{"id": "C14", "title": "Solves are independent", "statement": "Calling solve again on the same RootFinder behaves like calling it on a freshly built one.", "quantifier": "for every history of previous solves, every model", "why_tests_cant": "History property: depends on every field that survives a solve.", "anchors": ["src/solver_n_dimensional/solver/rootfinder.rs: RootFinder fields, solve"]}
{"id": "C15", "title": "A failed solve does not poison the solver", "statement": "After a solve that returned an error, a later solve on a well behaved model does not panic.", "quantifier": "for every history of previous solves ending in an error, every method", "why_tests_cant": "History property over error exits.", "anchors": ["src/solver_n_dimensional/solver/rootfinder.rs: evaluate_jacobian_quasi_newton_step unwraps", "src/solver_n_dimensional/solver/jacobian/jacobian_struct.rs: update_jacobian"]}
{"id": "C16", "title": "Jacobian economy", "statement": "Newton-Raphson computes one Jacobian per iteration; stationary Newton computes at most one Jacobian per solve, and none at all in the later solves of a solver object that has computed one successfully; the other quasi-Newton methods compute exactly one in the first solve when damping is off.", "quantifier": "for every model, every number of iterations, every history", "why_tests_cant": "Counting calls over unbounded executions.", "anchors": ["src/solver_n_dimensional/solver/resolution_method.rs docs", "src/solver_n_dimensional/solver/rootfinder.rs: evaluate_jacobian_quasi_newton_step"]}
{"id": "C17", "title": "The first iteration is a Newton-Raphson step for every method", "statement": "With a fresh solver, the first proposed iterate and the model state reached are the same for all ten resolution methods (damping off).", "quantifier": "for every model, configuration and pair of methods", "why_tests_cant": "Relational property over arbitrary models.", "anchors": ["src/solver_n_dimensional/solver/rootfinder.rs: solve comment L416, compute_quasi_newton_step"]}
{"id": "C18", "title": "Iterates stay inside the declared range", "statement": "With an analytic Jacobian and no damping every point at which the solver evaluates the model, after the initial guess, lies in [min_value,max_value] componentwise, whatever the model returns (NaN and infinities included).", "quantifier": "for every model, method, sequence of iterates, every bound pair accepted by IterativeParams::new that is not NaN", "why_tests_cant": "Unbounded sequences and IEEE special values.", "anchors": ["src/solver_n_dimensional/iteratives/iterative_var.rs: step_limitation", "src/solver_n_dimensional/solver/rootfinder.rs: compute_next_from_inv_jac"]}
{"id": "C19", "title": "Step size limits", "statement": "step_limitation moves the value by at most max_step_abs and at most max_step_rel*|value| when the current value lies in [min_value,max_value].", "quantifier": "for every parameter set accepted by IterativeParams::new, every value and raw step", "why_tests_cant": "Universal over reals; tests use a few literals.", "anchors": ["src/solver_n_dimensional/iteratives/iterative_var.rs: step_limitation"]}
{"id": "C20", "title": "Step limitation keeps direction and is transparent when not binding", "statement": "The limited step has the sign of the raw step, is monotone in the raw step, equals the raw step when no limit is active, and default parameters never alter a finite step.", "quantifier": "for every value, raw step and parameter set", "why_tests_cant": "Universal statement with case analysis on signs and limits.", "anchors": ["src/solver_n_dimensional/iteratives/iterative_var.rs: step_limitation, Default"]}
{"id": "C21", "title": "Limited values are never NaN", "statement": "If min_value and max_value are not NaN the value returned by step_limitation is never NaN; a NaN step (or NaN current value) sends the variable to min_value.", "quantifier": "for every IEEE value of the current value, step and step limits", "why_tests_cant": "Requires IEEE min/max/NaN rules for all operand classes.", "anchors": ["src/solver_n_dimensional/iteratives/iterative_var.rs: step_limitation"]}
{"id": "C22", "title": "Constructors reject invalid limits", "statement": "IterativeParams::new and IterativeParamsFD::new return only parameter sets with max_step_abs>0, max_step_rel>0, min_value<max_value, dx_abs>0 and dx_rel>0.", "quantifier": "for all arguments including NaN and infinities", "why_tests_cant": "NaN slips through comparisons.", "anchors": ["src/solver_n_dimensional/iteratives/iterative_var.rs: IterativeParams::new", "src/solver_n_dimensional/iteratives/iterative_var_fd.rs: new, extend"]}
{"id": "C23", "title": "Perturbations are positive and follow the documented formula", "statement": "compute_perturbation is max(dx_abs,dx_rel*|x|) or dx_abs+dx_rel*|x|, is even in x, never below dx_abs and strictly positive; Max <= Sum <= 2*Max.", "quantifier": "for every x and every accepted parameter set", "why_tests_cant": "Universal over reals / IEEE values.", "anchors": ["src/solver_n_dimensional/iteratives/iterative_var_fd.rs: compute_perturbation"]}
{"id": "C24", "title": "Pure relative or pure absolute perturbations can be configured", "statement": "As documented, setting dx_abs = 0 or dx_rel = 0 selects a purely relative or purely absolute perturbation.", "quantifier": "for every x", "why_tests_cant": "The documented special case needs the constructor to accept zero.", "anchors": ["src/solver_n_dimensional/iteratives/iterative_var_fd.rs: docs L177-179, new, extend"]}
{"id": "C25", "title": "Residual normalization measures disagreement symmetrically", "statement": "normalization(x,y) changes sign when x and y are exchanged, so the stopping residual does not depend on which side is called left; it is zero exactly when both sides are equal (Rel: when the sum is non-zero).", "quantifier": "for all x, y and methods", "why_tests_cant": "Universal algebraic law.", "anchors": ["src/solver_n_dimensional/residuals/mod.rs: normalization", "src/solver_n_dimensional/residuals/config.rs: evaluate_stopping_residuals"]}
{"id": "C26", "title": "Adapt interpolates between Abs and Rel", "statement": "|Adapt| <= |Abs| and |Adapt| <= |Rel|, 1/|Adapt| = 1/|Abs| + 1/|Rel| for x != y with non-zero sum, Rel is scale invariant, and for sides of the same sign |Rel| and |Adapt| never exceed 2.", "quantifier": "for all x, y", "why_tests_cant": "Universal algebraic law behind the documented behaviour near zero and for big values.", "anchors": ["src/solver_n_dimensional/residuals/mod.rs: normalization docs"]}
{"id": "C27", "title": "deriv_normalization is the derivative of normalization", "statement": "For differentiable left(t), right(t), deriv_normalization(left,right,left',right',m) is the derivative of normalization(left(t),right(t),m), wherever left+right != 0 (everywhere for Abs).", "quantifier": "for all differentiable functions and all points", "why_tests_cant": "Tests compare with finite differences at sample points.", "anchors": ["src/solver_n_dimensional/residuals/mod.rs: deriv_normalization"]}
{"id": "C28", "title": "The analytic Jacobian handed to the solver is the Jacobian of the update residuals", "statement": "JacobianValues::normalize applied to the model's left and right Jacobians is the Fréchet derivative of the vector of update residuals.", "quantifier": "for all differentiable left/right maps in any dimension, any mix of update methods, any point with non-zero sums", "why_tests_cant": "Row/column and per-row method indexing for all dimensions.", "anchors": ["src/solver_n_dimensional/residuals/values.rs: JacobianValues::normalize", "src/solver_n_dimensional/solver/jacobian/jacobian_analytic.rs"]}
{"id": "C29", "title": "Finite differences are exact on affine models", "statement": "For a model with affine left and right sides and Abs update, the finite-difference Jacobian equals the analytic one for any non-zero perturbations, in exact arithmetic.", "quantifier": "for every dimension, affine map, perturbation vector without zero", "why_tests_cant": "Universal over dimensions and matrices; also pins row/column order.", "anchors": ["src/solver_n_dimensional/solver/jacobian/jacobian_finite_diff.rs"]}
{"id": "C30", "title": "Finite-difference columns do not depend on the order of computation", "statement": "If set_memory(get_memory()) restores whatever the evaluation depends on besides the iteratives, then column i is the difference quotient taken from the reference state, independent of the other columns.", "quantifier": "for every model obeying the memory contract, any dimension", "why_tests_cant": "Path dependence of user models over loops of arbitrary length.", "anchors": ["src/solver_n_dimensional/solver/jacobian/jacobian_finite_diff.rs", "src/solver_n_dimensional/model/model_definition.rs (memory docs)"]}
{"id": "C31", "title": "The perturbed state left by finite differences does not change the Newton step", "statement": "Although the finite-difference loop leaves the model at its last perturbed point, the next iterate proposed without limits equals x - J^-1 F(x) at the reference point x, in exact arithmetic.", "quantifier": "for every function, dimension, perturbation vector, point with invertible finite-difference matrix", "why_tests_cant": "Algebraic identity over all inputs; tests only see that solves converge.", "anchors": ["src/solver_n_dimensional/solver/rootfinder.rs: compute_next_from_inv_jac", "src/solver_n_dimensional/solver/jacobian/jacobian_finite_diff.rs"]}
{"id": "C32", "title": "Step and range limits hold between accepted points with finite differences", "statement": "Between two successive accepted points a variable moves by at most max_step_abs, and the model is never evaluated outside [min_value,max_value].", "quantifier": "for every model without analytic Jacobian", "why_tests_cant": "The violation only shows at a limit and by the size of the perturbation.", "anchors": ["src/solver_n_dimensional/solver/rootfinder.rs: compute_next_from_inv_jac", "src/solver_n_dimensional/solver/jacobian/jacobian_finite_diff.rs"]}
{"id": "C33", "title": "Quasi-Newton updates satisfy the secant equation", "statement": "After an update with step s and residual change y, the new Jacobian maps s to y (the new inverse maps y to s), for all four methods in both forms, when the denominators are non-zero.", "quantifier": "for every dimension, matrix, s, y (and c)", "why_tests_cant": "Universal algebraic identity.", "anchors": ["src/solver_n_dimensional/solver/resolution_method.rs: *_update_*", "src/solver_n_dimensional/solver/jacobian/jacobian_approximation.rs", "src/solver_n_dimensional/solver/jacobian/jacobian_inverse_approximation.rs"]}
{"id": "C34", "title": "Jacobian form and inverse form agree", "statement": "For each of the four methods the inverse-form update of J^-1 is the inverse of the Jacobian-form update of J (Sherman-Morrison), hence both forms propose the same iterates in exact arithmetic.", "quantifier": "for every dimension, invertible J, s, y with non-zero denominators; for whole solves, every model", "why_tests_cant": "Identity over all matrices; equality of whole trajectories.", "anchors": ["src/solver_n_dimensional/solver/resolution_method.rs", "src/solver_n_dimensional/solver/jacobian/*approximation.rs"]}
{"id": "C35", "title": "Broyden's first update is the least change", "statement": "Among all matrices mapping s to y, the Broyden first update is closest to J in Frobenius norm; an already consistent matrix is left unchanged.", "quantifier": "for every dimension, J, s != 0, y and competitor", "why_tests_cant": "Optimality over an infinite set.", "anchors": ["src/solver_n_dimensional/solver/resolution_method.rs: broyden_first_method_udpate_jac"]}
{"id": "C36", "title": "Quasi-Newton updates use the change of the residual function", "statement": "The pair used by a quasi-Newton update is s = x_{i+1}-x_i and y = F(x_{i+1})-F(x_i) as documented.", "quantifier": "for every model, iteration and quasi-Newton method", "why_tests_cant": "Sign errors only show when a residual is negative.", "anchors": ["src/solver_n_dimensional/solver/resolution_method.rs docs L101-105", "src/solver_n_dimensional/solver/rootfinder.rs: update_model L380-382"]}
{"id": "C37", "title": "Quasi-Newton methods converge locally", "statement": "\"All Newton based iterative methods have a local convergence\": from a close enough guess and with enough iterations, every method converges to a simple root.", "quantifier": "for every smooth problem with a simple root, every method, all close guesses", "why_tests_cant": "Convergence is a statement about unbounded iteration counts.", "anchors": ["src/solver_n_dimensional/solver/resolution_method.rs docs L7-8"]}
{"id": "C38", "title": "Newton-Raphson and stationary Newton converge locally", "statement": "For a C1 residual function with invertible Jacobian at a root there is a ball around the root from which, for every tolerance > 0 and large enough max_iter, solve returns Ok with all residuals within tolerance and the model inside the ball; with analytic or small-step finite-difference Jacobians.", "quantifier": "for every dimension, function, root with invertible Jacobian, guess in the ball, tolerance", "why_tests_cant": "Limits and unbounded iteration counts.", "anchors": ["src/solver_n_dimensional/solver/resolution_method.rs docs L7-8", "src/solver_n_dimensional/solver/rootfinder.rs: solve"]}
{"id": "C39", "title": "Affine problems are solved in one iteration", "statement": "With exact arithmetic and inactive limits, an affine system with invertible matrix is solved exactly after one iteration by every method, with analytic or finite-difference Jacobian.", "quantifier": "for every dimension, matrix, right-hand side, guess, method, tolerance >= 0, max_iter >= 1", "why_tests_cant": "Universal over linear systems.", "anchors": ["src/solver_n_dimensional/solver/rootfinder.rs: solve"]}
{"id": "C40", "title": "Newton-Raphson is blind to the orientation and scaling of equations", "statement": "Exchanging left and right of any equations, or multiplying equations by non-zero constants (Abs update), does not change the iterates of Newton-Raphson.", "quantifier": "for every model, dimension, scaling", "why_tests_cant": "Relational, over all models.", "anchors": ["src/solver_n_dimensional/solver/rootfinder.rs: compute_next_from_inv_jac", "src/solver_n_dimensional/residuals/mod.rs"]}
{"id": "C41", "title": "Damping only acts when the error grows", "statement": "With damping on, an iteration in which the maximal error does not grow is identical to the undamped one; when it grows and the Jacobian was just computed, the model is left evaluated at the midpoint of the current and the proposed point.", "quantifier": "for every model, method, iteration", "why_tests_cant": "Relational property over arbitrary models.", "anchors": ["src/solver_n_dimensional/solver/parameters.rs docs L7-30", "src/solver_n_dimensional/solver/rootfinder.rs: damping"]}
{"id": "C42", "title": "A refused quasi-Newton step forces a Jacobian computation", "statement": "With damping on, if the error grew after a step made with an approximated Jacobian, the next iteration recomputes the Jacobian, and the iterate is not damped.", "quantifier": "for every model and quasi-Newton update method", "why_tests_cant": "Multi-iteration history property.", "anchors": ["src/solver_n_dimensional/solver/parameters.rs docs L25-30", "src/solver_n_dimensional/solver/rootfinder.rs: damping"]}
{"id": "C43", "title": "Debugging does not change the resolution", "statement": "With the log active, solve returns the same result and leaves the model in the same state, having made the same state-changing calls, as without.", "quantifier": "for every model, configuration, method", "why_tests_cant": "Relational property; tests never compare both.", "anchors": ["src/solver_n_dimensional/solver/rootfinder.rs: activate_debug, *_to_log", "src/solver_n_dimensional/iteratives/iteratives_base.rs: Display"]}
{"id": "C44", "title": "The log is a faithful numbered record", "statement": "The log written by one solve starts with the parameters, then holds one iteration entry per completed iteration, numbered consecutively, each with the iteratives, residuals and errors of the model at that point; entries are only appended.", "quantifier": "for every model, configuration, number of iterations", "why_tests_cant": "Unbounded sequences of entries.", "anchors": ["src/solver_n_dimensional/solver/log.rs", "src/solver_n_dimensional/solver/rootfinder.rs: parameters_to_log, iteration_to_log, damping_to_log"]}
{"id": "C45", "title": "Every dimension mismatch is rejected at construction", "statement": "RootFinder::new panics exactly when the residuals configuration, the initial guess or the iteratives do not all have problem_size elements; ResidualsConfig::new panics exactly on different lengths.", "quantifier": "for all lengths", "why_tests_cant": "Universal over sizes.", "anchors": ["src/solver_n_dimensional/solver/rootfinder.rs: RootFinder::new", "src/solver_n_dimensional/residuals/config.rs: ResidualsConfig::new"]}
{"id": "C46", "title": "A parsed configuration is always usable", "statement": "Whenever from_xml_finite_diff / from_xml_jacobian return, the iteratives and residual configurations have exactly problem_size entries and every numeric limit passed its constructor check, so RootFinder::new accepts them with a guess of that length.", "quantifier": "for every XML document", "why_tests_cant": "Infinite input space of documents.", "anchors": ["src/solver_n_dimensional/xml_parser/xml_file_fd.rs", "src/solver_n_dimensional/xml_parser/xml_file_jac.rs", "src/solver_n_dimensional/xml_parser/node_*.rs"]}
{"id": "C47", "title": "XML defaults and overrides", "statement": "Each attribute of an iterative/residual node overrides the group default and an absent attribute inherits it, independently for each attribute.", "quantifier": "for every document, node and attribute", "why_tests_cant": "Infinite input space.", "anchors": ["src/solver_n_dimensional/xml_parser/node_iterative_fd.rs", "src/solver_n_dimensional/xml_parser/node_iterative_jac.rs", "src/solver_n_dimensional/xml_parser/node_residual.rs"]}
{"id": "C48", "title": "XML nodes must be numbered consecutively from 0", "statement": "A document is rejected unless the iterative nodes carry ids 0,1,2,... in document order, and likewise the residual nodes.", "quantifier": "for every document", "why_tests_cant": "Infinite input space.", "anchors": ["src/solver_n_dimensional/xml_parser/util.rs: parse_id"]}
{"id": "C49", "title": "XML parsing ignores what it does not know", "statement": "The result depends only on the known attributes: attribute order, unknown attributes and elements after the third child of the root are irrelevant.", "quantifier": "for every document and every such change", "why_tests_cant": "Infinite input space; relational.", "anchors": ["src/solver_n_dimensional/xml_parser/*.rs"]}
{"id": "C50", "title": "Resolution method tags are a bijection", "statement": "Exactly the ten documented tags are accepted and each selects a different method; damping defaults to off.", "quantifier": "for every string", "why_tests_cant": "All strings.", "anchors": ["src/solver_n_dimensional/xml_parser/node_solver.rs: parse_resolution_method, parse_solver_node"]}
{"id": "C51", "title": "Configurations survive a round trip through XML", "statement": "Writing any valid configuration as the documented XML tree and parsing it returns that configuration.", "quantifier": "for every valid configuration, every float rendering that the float parser inverts", "why_tests_cant": "Universal round trip.", "anchors": ["src/solver_n_dimensional/xml_parser/xml_file_fd.rs", "src/solver_n_dimensional/xml_parser/xml_file_jac.rs"]}
{"id": "C52", "title": "default_with_guess", "statement": "default_with_guess builds a solver with problem_size = guess length, tolerance 1e-6 and 50 iterations, and panics exactly when the other configurations have another length; default iteratives and residuals of that length are accepted.", "quantifier": "for all sizes and guesses", "why_tests_cant": "Universal over sizes.", "anchors": ["src/solver_n_dimensional/solver/default.rs", "src/solver_n_dimensional/iteratives/default.rs", "src/solver_n_dimensional/residuals/mod.rs: default_vec_residuals"]}
{"id": "C53", "title": "Function adapters are faithful models", "statement": "UserModelFromFunction and UserModelFromClosure (with or without Jacobian) obey the get/set contract, expose (f(x), 0) as residuals after evaluate, never report an error, and therefore a solve on them can only end with Ok, NonConvergenceError or a non-invertible Jacobian.", "quantifier": "for every user function, guess, configuration and method", "why_tests_cant": "Quantifies over user functions.", "anchors": ["src/solver_n_dimensional/model/model_from_func.rs", "src/solver_n_dimensional/model/model_from_closure.rs"]}
{"id": "C54", "title": "The n-dimensional solver specialises to the scalar Newton method", "statement": "For one equation and one unknown with analytic derivative (and for finite differences), the Newton-Raphson solve visits exactly the points of solver1d / solver1d_fd in exact arithmetic.", "quantifier": "for every scalar function, derivative, guess, tolerance and max_iter", "why_tests_cant": "Equality of whole trajectories.", "anchors": ["util/src/solver_one_dimensional.rs", "src/solver_n_dimensional/solver/rootfinder.rs: solve"]}
{"id": "C55", "title": "solver1d stops correctly", "statement": "solver1d and solver1d_fd return a point with |f| <= tol or have used exactly max_iter iterations, and return the initial guess when it is already within tolerance.", "quantifier": "for every function, guess, tolerance and max_iter", "why_tests_cant": "All functions and iteration counts.", "anchors": ["util/src/solver_one_dimensional.rs"]}
{"id": "C56", "title": "Square roots converge from any positive guess", "statement": "The documented example x^2 - a = 0 converges for every a > 0, every positive initial guess and every positive tolerance, given enough iterations (exact arithmetic, Newton-Raphson).", "quantifier": "for all a > 0, x0 > 0, tol > 0", "why_tests_cant": "Limits and unbounded iteration counts.", "anchors": ["src/solver_n_dimensional/solver/mod.rs example", "src/solver_n_dimensional/solver/rootfinder.rs: solve"]}
{"id": "C57", "title": "Error messages identify the error", "statement": "The texts of the solver errors of different kinds are different and each contains the text of the wrapped model error.", "quantifier": "for all error values", "why_tests_cant": "All payload strings.", "anchors": ["src/solver_n_dimensional/errors.rs: Display", "src/solver_n_dimensional/model/error.rs: Display"]}
{"id": "C58", "title": "A larger budget only continues the resolution", "statement": "If a solve ends for another reason than an exhausted budget, the same solve with a larger max_iter ends with the same result, the same model state and the same solver object; if it ends with NonConvergenceError, the calls it made on the model are the first calls of the solve with the larger budget.", "quantifier": "for every model, configuration, method, history of the solver object, pair of budgets", "why_tests_cant": "Relational property over unbounded executions.", "anchors": ["src/solver_n_dimensional/solver/rootfinder.rs: solve", "src/solver_n_dimensional/solver/parameters.rs: max_iter"]}
{"id": "C59", "title": "A variable inside its range can always move", "statement": "If the value of an iterative variable lies strictly between its bounds and the raw Newton step is not zero, the limited step moves the variable; in particular a variable whose initial guess is zero can leave zero.", "quantifier": "for all accepted parameter sets, values, raw steps; for whole solves with every method", "why_tests_cant": "All values and limits; unbounded executions.", "anchors": ["src/solver_n_dimensional/iteratives/iterative_var.rs: step_limitation"]}
{"id": "C60", "title": "The stored Jacobian and its inverse belong together", "statement": "Whenever a solver stores or logs a Jacobian matrix, the stored inverse is the inverse of that matrix, the logged inverse is the one used for the step, and when the log says that the inverse is more recent there is an inverse.", "quantifier": "for every model, configuration, method, outcome and iteration", "why_tests_cant": "Invariant over unbounded executions.", "anchors": ["src/solver_n_dimensional/solver/jacobian/jacobian_struct.rs: Display, update_jacobian, update_inverse", "src/solver_n_dimensional/solver/rootfinder.rs: jac_to_log"]}
{"id": "C61", "title": "Impossible tolerances are rejected", "statement": "A tolerance that no residual can exceed (NaN) or that no residual can meet (negative) is rejected; with the tolerances accepted an exact solution is recognised.", "quantifier": "for every tolerance, model and configuration", "why_tests_cant": "All floats as tolerance, all models.", "anchors": ["src/solver_n_dimensional/solver/parameters.rs: SolverParameters::new", "src/solver_n_dimensional/solver/rootfinder.rs: solve"]}
{"id": "C62", "title": "A smaller tolerance only continues the resolution", "statement": "A solve that fails (other than by an inaccurate final evaluation) fails in the same way with every smaller tolerance; a successful solve made the first calls of the solve with a smaller tolerance; a problem solved with a tolerance is solved with every larger one (or ends in an inaccurate evaluation).", "quantifier": "for every model, configuration, method, history of the solver object, pair of tolerances", "why_tests_cant": "Relational property over unbounded executions.", "anchors": ["src/solver_n_dimensional/solver/rootfinder.rs: solve"]}
{"id": "C63", "title": "Newton-Raphson converges quadratically near a simple root", "statement": "Near a root with invertible Jacobian of twice continuously differentiable equations, the distance to the root after k iterations of Newton-Raphson with the analytic Jacobian is at most (C e0)^(2^k) / C, where e0 is the distance of the guess and C depends on the equations only.", "quantifier": "for every dimension, model, root, mix of normalizations, guess in the neighbourhood, tolerance, with or without damping", "why_tests_cant": "Asymptotic statement over all smooth systems and all guesses.", "anchors": ["src/solver_n_dimensional/solver/resolution_method.rs: ResolutionMethod::NewtonRaphson", "src/solver_n_dimensional/solver/rootfinder.rs: solve"]}
{"id": "C64", "title": "Stationary Newton converges at the documented rate", "statement": "The documentation states that stationary Newton converges locally linearly with ||x_{n+1} - x_sol|| < ||x_n - x_sol|| * ||x_0 - x_sol||.", "quantifier": "for every dimension, smooth model, simple root, guess in a neighbourhood of the root", "why_tests_cant": "Asymptotic statement over all smooth systems and all guesses.", "anchors": ["src/solver_n_dimensional/solver/resolution_method.rs: UpdateQuasiNewtonMethod documentation, L84-92"]}
{"id": "C65", "title": "The log file can be read back", "statement": "From the text of the log file one can recover, in order, every logged iteration and damping step with its number, largest error, and per variable the iterative, both members and the stopping criterion, and every refused iteration; two logs with the same text recorded the same iterations.", "quantifier": "for every log (list of entries), dimension, configuration, way of writing numbers without blanks, bars, equals signs and line ends", "why_tests_cant": "All logs of all lengths and all numbers, including texts wider than their column.", "anchors": ["src/solver_n_dimensional/solver/log.rs: SolverLog", "src/solver_n_dimensional/residuals/values.rs: get_values_str_eq", "src/solver_n_dimensional/solver/jacobian/jacobian_struct.rs: Display"]}
{"id": "C66", "title": "The tables of the log are aligned", "statement": "In every table written to the log (solver parameters, iteratives, residuals, iterations) the header and each row whose texts fit the columns have the length of the separation line and their bars under its crosses.", "quantifier": "for every parameter set, row, and way of writing numbers", "why_tests_cant": "All numbers and their texts; the tests only check that the file is written.", "anchors": ["src/solver_n_dimensional/solver/log.rs: add_iteration", "src/solver_n_dimensional/solver/parameters.rs: Display", "src/solver_n_dimensional/iteratives/iteratives_base.rs: Display", "src/solver_n_dimensional/residuals/config.rs: Display"]}
{"id": "C67", "title": "The log identifies the configuration", "statement": "Two configurations whose parameters are written to the log in the same way are the same: size, iteration limit, tolerance, damping, resolution method, iterative parameters and normalizations.", "quantifier": "for every pair of configurations of a dimension and injective way of writing numbers", "why_tests_cant": "All pairs of configurations.", "anchors": ["src/solver_n_dimensional/solver/resolution_method.rs: Display", "src/solver_n_dimensional/solver/parameters.rs: Display", "src/solver_n_dimensional/iteratives/iterative_var_fd.rs: Display"]}
{"id": "C68", "title": "The Jacobians of the test cases are the derivatives", "statement": "For every test case of the crate util (Broyden 1965 cases 5 to 10, square2, root_with_high_derivative) the function exported as Jacobian is the Fréchet derivative of the test function at every point.", "quantifier": "for every point, and for cases 5 to 8 every dimension from 2 and all parameters alpha, beta", "why_tests_cant": "All points and dimensions; the tests compare with finite differences at a few points.", "anchors": ["util/src/test_cases/broyden1965.rs: broyden1965_cases5to8_jac", "util/src/test_cases/broyden1965.rs: broyden1965_case9_jac", "util/src/test_cases/broyden1965.rs: broyden1965_case10_jac", "util/src/test_cases/polynom.rs: dsquare", "util/src/test_cases/polynom.rs: root_with_high_derivative_jac"]}
{"id": "C69", "title": "The solutions of the test cases are simple roots", "statement": "The vectors given as solutions of the test cases are roots with invertible Jacobian, hence Newton-Raphson converges quadratically near them. In cases 5 to 8 the construction gives, in every dimension, the only root without positive entry.", "quantifier": "for every test case, every dimension (cases 5 to 8), and every point near the root", "why_tests_cant": "Exact equality of expressions with nested square roots; uniqueness among all points.", "anchors": ["util/src/test_cases/broyden1965.rs: solution_broyden1965_case5", "util/src/test_cases/broyden1965.rs: solution_broyden1965_case8", "util/src/test_cases/broyden1965.rs: solution_broyden1965_case9", "util/src/test_cases/broyden1965.rs: solution_broyden1965_case10"]}
{"id": "C70", "title": "What the documentation says about the test cases holds", "statement": "The approximate values in the comments, the singularities of the Jacobian of case 10 with their table of signs, and the residual, derivative and step of root_with_high_derivative at 1 are as documented.", "quantifier": "for every point (singularities and signs)", "why_tests_cant": "Statements about all points and exact real values.", "anchors": ["util/src/test_cases/broyden1965.rs: module documentation", "util/src/test_cases/broyden1965.rs: comments of the solutions", "util/src/test_cases/polynom.rs: documentation of root_with_high_derivative"]}
{"id": "C71", "title": "Newton-Raphson solves cases 5 to 8 from the documented starting point", "statement": "In exact arithmetic, from (-1, ..., -1), Newton-Raphson without damping increases monotonically to the documented solution and squares the distance in every iteration; with the default tolerance it succeeds within 4 iterations (case 5) or 5 iterations (cases 6 to 8) and the result is within 1e-6 of the documented solution.", "quantifier": "for every dimension from 2, every alpha in [-1, 0), every tolerance, and all limits that do not cut steps within [-1, 0]", "why_tests_cant": "Every dimension, parameter and tolerance; the tests run four instances.", "anchors": ["util/src/test_cases/broyden1965.rs: broyden1965_cases5to8", "tests/solver/newton_raphson/broyden.rs: broyden_case5_jac", "tests/solver/newton_raphson/broyden.rs: broyden_case8_jac", "src/solver_n_dimensional/solver/default.rs: default_with_guess"]}
{"id": "C72", "title": "Newton-Raphson solves case 9 from every guess in two iterations", "statement": "In exact arithmetic without limits and damping, Newton-Raphson on case 9 has the first coordinate exact after one iteration and the solution (1, 1) after two, from every guess, with the analytic Jacobian or with finite differences of any non-zero perturbation.", "quantifier": "for every guess, perturbation and tolerance", "why_tests_cant": "All guesses.", "anchors": ["util/src/test_cases/broyden1965.rs: broyden1965_case9", "tests/solver/newton_raphson/broyden.rs: broyden_case9_fd"]}
{"id": "C73", "title": "Newton-Raphson solves case 10 from every guess beyond the right singularity", "statement": "In exact arithmetic without limits and damping, from every guess whose second coordinate lies beyond the right singularity of the Jacobian (approximately 2.23), Newton-Raphson on case 10 reaches any tolerance, and the result is close to (5, 4).", "quantifier": "for every guess in the half plane and every tolerance", "why_tests_cant": "All guesses; the test from the documented starting point is commented out.", "anchors": ["util/src/test_cases/broyden1965.rs: broyden1965_case10", "tests/solver/newton_raphson/broyden.rs: broyden_case10_jac"]}
{"id": "C74", "title": "Newton-Raphson extracts roots from every positive guess", "statement": "In exact arithmetic without limits and damping, Newton-Raphson on square2 and root_with_high_derivative, and on every equation A (x^p - r^p) = 0 with A and r positive, reaches every tolerance from every positive guess; after the first iteration it approaches the root from above by the factor 1 - 1/p at least.", "quantifier": "for every positive guess, exponent, coefficient and tolerance", "why_tests_cant": "All guesses and exponents.", "anchors": ["util/src/test_cases/polynom.rs: square2", "util/src/test_cases/polynom.rs: root_with_high_derivative", "tests/solver/newton_raphson/polynom.rs"]}
{"id": "C75", "title": "The LU inverse is the inverse", "statement": "LU decomposition with partial pivoting, run on any square matrix over an ordered field, gives a unit lower triangular factor with entries of modulus at most one, an upper triangular factor and a permutation whose product is the matrix; the inverse computed from it is the inverse; it is refused exactly for the matrices with a non-zero vector in the kernel.", "quantifier": "for every dimension, every matrix, every ordered field", "why_tests_cant": "All matrices; pivoting orders beyond the tested ones.", "anchors": ["solver_n_dimensional/solver/jacobian/mod.rs: compute_jacobian_inverse (try_inverse)", "nalgebra LU::try_inverse"]}
{"id": "C76", "title": "Numbers in files are exact", "statement": "Every double, written by the standard formatting used for the log and read by the standard parser used for configuration files, is the same double; the text is the shortest such decimal; the parser accepts exactly the documented grammar and returns the nearest double; every matrix of the log, and hence the log, determines its numbers.", "quantifier": "for every double, including signed zeros, subnormals, infinities and NaN, every text, every matrix and log", "why_tests_cant": "2^64 doubles and all texts.", "anchors": ["solver_n_dimensional/solver/log.rs", "solver_n_dimensional/xml_parser/util.rs"]}
{"id": "C77", "title": "Configuration files keep every double and ordered limits", "statement": "Every valid configuration in double precision survives being written to XML and read again; so does every configuration read from an accepted file; in every accepted file the limits are ordered and the steps are positive.", "quantifier": "for every configuration, every document", "why_tests_cant": "All documents and all spellings of numbers.", "anchors": ["solver_n_dimensional/xml_parser/xml_file_fd.rs", "solver_n_dimensional/xml_parser/xml_file_jac.rs", "solver_n_dimensional/iteratives/iteratives_fd.rs"]}
{"id": "C78", "title": "Relative criteria work with functions", "statement": "With the function adapters (right side zero), a solve with a relative stopping criterion succeeds when the function is small, and a relative update method gives a usable Jacobian.", "quantifier": "for every function, Jacobian, configuration, history of the solver", "why_tests_cant": "That a criterion can never be met, whatever the function and the budget, is a statement about all runs.", "anchors": ["solver_n_dimensional/residuals/mod.rs: normalization, deriv_normalization", "solver_n_dimensional/model/model_from_func.rs"]}
{"id": "C79", "title": "Affine systems are solved whatever the update method", "statement": "In exact arithmetic, without limits and damping, Newton-Raphson with absolute or adaptive update residuals solves every affine system with an invertible matrix from every guess.", "quantifier": "for every matrix, right side, guess, tolerance, budget and choice of absolute or adaptive per equation", "why_tests_cant": "All systems and guesses; divergence for every budget.", "anchors": ["solver_n_dimensional/residuals/mod.rs: NormalizationMethod::Adapt", "solver_n_dimensional/residuals/values.rs: normalize"]}
{"id": "C80", "title": "Overflow is not success", "statement": "A solve does not succeed where a side of an equation is infinite, or where finite sides differ and only their sum overflows.", "quantifier": "for every model, configuration and state, in floating point", "why_tests_cant": "Overflowing functions are not among the tests; the statement is about all models and all tolerances.", "anchors": ["solver_n_dimensional/residuals/mod.rs: normalization", "solver_n_dimensional/solver/rootfinder.rs: solve"]}
{"id": "C81", "title": "The units of the variables do not matter", "statement": "Expressing the variables in other units (values, guess, limits, perturbations multiplied by factors) leaves the solve unchanged with Newton-Raphson, stationary Newton, Broyden's second and Greenstadt's first method: same model states, verdict, iterations and log in the new units. Broyden's first and Greenstadt's second method need a common unit for all variables; with different units they give other results.", "quantifier": "for every model, configuration, method, non-zero factors, solver history; exact arithmetic", "why_tests_cant": "A relation between two whole runs for all models and all factors.", "anchors": ["solver_n_dimensional/solver/resolution_method.rs: update formulas", "solver_n_dimensional/iteratives/iterative_var.rs: step_limitation", "solver_n_dimensional/iteratives/iterative_var_fd.rs: compute_perturbation", "solver_n_dimensional/solver/rootfinder.rs: solve"]}
{"id": "C82", "title": "The order of the variables and of the equations does not matter", "statement": "Renumbering the equations, or the variables, of a problem leaves the solve unchanged: same model states, verdict, iterations; matrices, steps and log are renumbered.", "quantifier": "for every model, configuration, method, permutations, solver history; exact arithmetic", "why_tests_cant": "A relation between two whole runs for all models and all permutations.", "anchors": ["solver_n_dimensional/solver/jacobian/jacobian_finite_diff.rs", "solver_n_dimensional/solver/resolution_method.rs: update formulas", "solver_n_dimensional/solver/rootfinder.rs: solve"]}
{"id": "C83", "title": "Finite differences are first-order accurate", "statement": "An entry of the finite-difference Jacobian differs from the partial derivative of the update residual by at most L |p| / 2, where p is the perturbation of the column and L a Lipschitz constant of that derivative along the perturbed segment; with the crate's parameters by at most L (dx_abs + dx_rel |x|) / 2. The bound is attained by x^2. Newton-Raphson with finite differences near a simple root multiplies the distance to the root by at most C (e0 + h) in each iteration, h bounding the perturbations.", "quantifier": "for every model obeying the memory contract, point, perturbation, normalization of the update residuals; for every simple root of a smooth model; exact arithmetic", "why_tests_cant": "An error bound for all smooth models and all perturbations; tests compare one entry with one number.", "anchors": ["solver_n_dimensional/solver/jacobian/jacobian_finite_diff.rs: jacobian_evaluation", "solver_n_dimensional/iteratives/iterative_var_fd.rs: compute_perturbation", "solver_n_dimensional/solver/rootfinder.rs: solve"]}
{"id": "C84", "title": "Newton-Raphson converges whenever the guess meets the conditions of Kantorovich", "statement": "If the Jacobian at the guess is invertible, the first step is at most eta, the Jacobian preconditioned by its inverse at the guess is omega-Lipschitz within 2 eta of the guess, and omega eta <= 1/2, then Newton-Raphson succeeds for every tolerance with a suitable iteration limit, and a root lies within 2 eta / 2^k of the result after k iterations. No root is presupposed.", "quantifier": "for every function, Jacobian, guess, eta, omega meeting the conditions, every tolerance and configuration with limits that do not act near the guess; exact arithmetic", "why_tests_cant": "Convergence from checkable conditions at the guess, for all functions.", "anchors": ["solver_n_dimensional/solver/rootfinder.rs: solve", "solver_n_dimensional/solver/rootfinder.rs: compute_newton_raphson_step"]}
{"id": "C85", "title": "A success certifies a root nearby", "statement": "Where a solve with absolute criteria returns Ok and the equations are well conditioned (bounded inverse Jacobian beta, Lipschitz Jacobian gamma, beta^2 gamma tol < 1/2), there is exactly one root within 2 beta tol of the result. In binary64 the same holds of the equations that were meant, with the tolerance increased by the rounding error of the function at the result.", "quantifier": "for every model, method, configuration, solver history; exact arithmetic, and binary64 for functions", "why_tests_cant": "Tests know the root; this is what a user who does not know it may conclude from Ok.", "anchors": ["solver_n_dimensional/solver/rootfinder.rs: solve", "solver_n_dimensional/residuals/residuals_config.rs: evaluate_stopping_residuals"]}
{"id": "C86", "title": "Newton-Raphson converges globally on convex problems", "statement": "If each equation is convex and the inverse of the Jacobian has no negative entry, Newton-Raphson with an analytic Jacobian converges from every guess for every tolerance, and from the second point on approaches the root from above. With finite differences, whatever the size of the perturbations and with or without damping, one increasing convex equation is solved from every guess above the root within an explicit number of iterations.", "quantifier": "for every such system, guess, tolerance, configuration with inactive limits; exact arithmetic", "why_tests_cant": "Global convergence for a class of problems, from infinitely many guesses.", "anchors": ["solver_n_dimensional/solver/rootfinder.rs: solve", "solver_n_dimensional/solver/jacobian/jacobian_finite_diff.rs: jacobian_evaluation"]}
{"id": "C87", "title": "A perturbation is not lost to rounding", "statement": "In binary64, with finite parameters and dx_rel at least the machine epsilon 2^-52, the perturbed variable x + compute_perturbation(x) is strictly larger than x for every finite x, with both methods. The constructor does not ask for this bound: with an accepted smaller dx_rel the finite differences of every function are zero at some guess and the solve fails with a Jacobian that is not invertible.", "quantifier": "for every accepted parameter set and every finite double, subnormal numbers included; the refutation for every function of one unknown and every configuration around the parameter set", "why_tests_cant": "Absorption depends on the magnitude of the variable, over the whole range of doubles.", "anchors": ["solver_n_dimensional/iteratives/iterative_var_fd.rs: compute_perturbation", "solver_n_dimensional/iteratives/iterative_var_fd.rs: new", "solver_n_dimensional/solver/jacobian/jacobian_finite_diff.rs: jacobian_evaluation"]}
{"id": "C88", "title": "The practical example of the documentation is solved", "statement": "The three equations of the crate's documentation have exactly one solution, (0, -1, 1). It is a simple root: Newton-Raphson converges to it quadratically from nearby guesses, with finite differences as well, for every model that computes the example, and a success means that the solution is near. Refuted in part: the sides of the second and third equation vanish at the solution, so that a relative criterion on them accepts next to nothing (in floating point, sides of opposite signs are never accepted except through NaN), and for every tolerance the criteria hold at a point with first component above 4/tol^2.", "quantifier": "for every model of the example, guess near the solution, tolerance, mixture of criteria; uniqueness over every ordered field; the statement on opposite signs for every model in floating point", "why_tests_cant": "The example is not run by any test, and its failure with relative criteria is a matter of all tolerances.", "anchors": ["lib.rs: Practical example (L12-35)", "solver_n_dimensional/residuals/mod.rs: NormalizationMethod", "solver_n_dimensional/solver/rootfinder.rs: solve"]}
{"id": "C89", "title": "Affine systems with relative update residuals are solved", "statement": "Newton-Raphson solves A x = y (constant right side set on the function adapter, A invertible) with relative update residuals from every guess. What holds: the exact course is known, the ratio of the distance between the sides to twice the right side is squared in each iteration; it converges when the sides at the guess differ by less than 200 % of the right side. Otherwise the code diverges, although with absolute update residuals one iteration suffices.", "quantifier": "for every dimension, matrix, right side, guess, tolerance, budget, mixture of absolute and relative update residuals; exact arithmetic", "why_tests_cant": "The boundary between convergence and divergence is exact and concerns all guesses and budgets.", "anchors": ["solver_n_dimensional/residuals/mod.rs: deriv_normalization", "solver_n_dimensional/solver/rootfinder.rs: solve", "solver_n_dimensional/model/model_from_func.rs: UserModelFromFunctionAndJacobian"]}
{"id": "C90", "title": "Evaluations start from the memory of the last accepted point", "statement": "For a model with memory, the perturbed evaluations of a finite-difference Jacobian and the evaluation of the proposed point start from the memory left by the last accepted point, also after a refused step.", "quantifier": "for every model whose get_memory/set_memory obey the contract, every method, arithmetic, solver state and outcome", "why_tests_cant": "The path of hidden state through executions of any length, for all models; the tests contain no model with memory.", "anchors": ["solver_n_dimensional/solver/jacobian/jacobian_finite_diff.rs: compute_jacobian_from_finite_difference", "solver_n_dimensional/model/model_definition.rs: get_memory, set_memory", "solver_n_dimensional/solver/rootfinder.rs: damping"]}
{"id": "C91", "title": "A singular Jacobian is reported", "statement": "A solve ends with the error of a Jacobian that is not invertible exactly when the matrix computed (or updated) in its last pass is singular; in particular from a guess outside of the tolerance where the Jacobian is singular.", "quantifier": "for every model, dimension, method, state and pass, in exact arithmetic; binary64 is decided by counterexamples in both directions", "why_tests_cant": "Equivalence over all matrices and executions; in binary64 it fails, in both directions, for small integer matrices that the tests do not contain.", "anchors": ["solver_n_dimensional/solver/jacobian/jacobian_struct.rs: compute_inverse", "solver_n_dimensional/solver/jacobian/jacobian_struct.rs: update_jacobian_with_exact_value", "solver_n_dimensional/errors.rs: SolverInternalError"]}
{"id": "C92", "title": "Finite differences survive rounding", "statement": "In binary64 every finite entry of a finite-difference Jacobian is the slope of the chord between the two points at which the residual was computed, up to a relative error of 2.23e-9 with the default parameters; its distance from the derivative is bounded by curvature times displacement, evaluation errors over displacement, and this rounding part.", "quantifier": "for every model obeying the memory contract, dimension, residual method, finite variable and accepted finite parameters with dx_rel >= 2^-52", "why_tests_cant": "A bound over all finite doubles and all computed functions; tests compare a few entries with a coarse tolerance.", "anchors": ["solver_n_dimensional/solver/jacobian/jacobian_finite_diff.rs: compute_jacobian_from_finite_difference", "solver_n_dimensional/iteratives/iterative_var_fd.rs: compute_perturbation"]}
{"id": "C93", "title": "Square roots in binary64", "statement": "In binary64, Newton-Raphson solves x^2 = a from every guess g between 2^-200 and 2^200 within N iterations as soon as (g + a/g)^2 / 3^N + 2^-47 a is within the tolerance, and the number returned satisfies the equation up to 33/32 of the tolerance. With the defaults of the library every a up to 2^26 is covered. The term in a is needed: for a = 2^33 + 2^-17 no solve with the default tolerance succeeds at a number.", "quantifier": "for every double a and g in the range, every tolerance and number of iterations; the limit on the tolerance for every method, guess, configuration and model of the equation", "why_tests_cant": "A convergence bound with rounding over 10^38 pairs of doubles; the tests solve a = 2 from one guess.", "anchors": ["solver_n_dimensional/solver/rootfinder.rs: solve", "solver_n_dimensional/solver/default.rs: default_with_guess", "solver_n_dimensional/iteratives/iterative_var.rs: step_limitation", "util/src/test_cases/polynom.rs: square2"]}
{"id": "C94", "title": "Dimensions of the model and of the solver", "statement": "With dynamic dimensions, a model whose vectors all have problem_size entries is solved exactly as with static dimensions, and Ok means that all its equations hold. A model with fewer equations panics at the first reading of the residuals. A model with more equations never gets past its first Jacobian. Ok for a model with more equations would have to mean that they all hold: this fails, the surplus equations are ignored and a solve that starts at a solution of the configured ones returns Ok. In a model with more variables, those beyond the configured ones are proposed as zero in every step; with fewer variables the step panics.", "quantifier": "for every problem_size, dynamic model, length of its vectors, configuration, method and guess; the function adapters for every size", "why_tests_cant": "All tests use models of the configured length; the claim is about every combination of lengths and about the equality of two whole runs.", "anchors": ["solver_n_dimensional/solver/rootfinder.rs: solve", "solver_n_dimensional/residuals/config.rs: evaluate_stopping_residuals", "solver_n_dimensional/residuals/values.rs: normalize", "solver_n_dimensional/solver/jacobian/jacobian_finite_diff.rs: compute_jacobian_from_finite_difference", "solver_n_dimensional/model/model_from_func.rs: UserModelFromFunction"]}
{"id": "C95", "title": "One equation in binary64, evaluated with limited accuracy", "statement": "For one equation phi(x) = 0 whose model computes phi in binary64 with an error of at most eps, near a simple root rho: Newton-Raphson and stationary Newton, with a computed derivative or with the finite differences of the code, succeed from every double near enough. N iterations suffice as soon as the tolerance exceeds M (R / 2^N + 2 delta) + eps, where delta = 2 eps / mu + 2^-51 sigma, sigma a bound of |rho| and R (plus half of the largest perturbation for finite differences), and mu and M bound the slope. The point returned is within (tolerance + eps) / mu of the root.", "quantifier": "for every function with a slope that varies by at most a quarter (Newton) or a sixteenth, every model that computes it, every guess within R, tolerance, and number of iterations; with default parameters for finite differences as well", "why_tests_cant": "Quantifies over all functions, all models with bounded evaluation errors, and all doubles of an interval.", "anchors": ["solver_n_dimensional/solver/rootfinder.rs: solve", "solver_n_dimensional/solver/jacobian/jacobian_finite_diff.rs: compute_jacobian_from_finite_difference", "solver_n_dimensional/iteratives/iterative_var_fd.rs: compute_perturbation", "solver_n_dimensional/iteratives/iterative_var.rs: step_limitation"]}
{"id": "C96", "title": "Systems in binary64, evaluated with limited accuracy", "statement": "For a system Phi(x) = 0 of n equations whose model computes Phi in binary64 with an error of at most eps in each equation, near a root rho around which Phi is almost linear: Newton-Raphson with a Jacobian and stationary Newton with a Jacobian or with finite differences succeed from every finite guess near enough, provided that the linear algebra returns an approximate inverse of the slope with row sums at most beta (everywhere near for Newton-Raphson, at the guess for stationary Newton). N iterations suffice as soon as the tolerance exceeds L (R / 2^N + 2 delta) + eps, where delta = 2 beta eps + 2^-52 sigma, sigma a bound of |rho| and R. The point returned is within 4/3 beta (tolerance + eps) of the root. The matrix-vector product of nalgebra is accurate enough for this for every n up to 2^40.", "quantifier": "for every dimension, almost linear system, model that computes it with bounded errors, approximate inverse, guess, tolerance and number of iterations", "why_tests_cant": "Quantifies over all systems, all dimensions, all models with bounded evaluation errors, and all vectors of doubles near the root.", "anchors": ["solver_n_dimensional/solver/rootfinder.rs: solve", "solver_n_dimensional/solver/rootfinder.rs: compute_newton_raphson_step", "solver_n_dimensional/solver/jacobian/jacobian_finite_diff.rs: compute_jacobian_from_finite_difference", "solver_n_dimensional/iteratives/iterative_var.rs: step_limitation"]}
{"id": "C97", "title": "Systems in binary64 with the LU inverse", "statement": "The LU inverse with partial pivoting in binary64: if A has entries of at most alpha, its inverse has row sums of at most beta, 2048 n^5 3^n 2^-53 (alpha beta)^2 <= 1, and J is a finite matrix of doubles whose rows differ from those of A by at most 1 / (16 beta), then the inverse of J is found, is finite, has row sums of at most 5/4 beta and inverts A up to 1/8. Finite differences with perturbations between lo and hi, of a function computed with errors of at most eps, have rows within an explicit bound of A. Therefore Newton-Raphson and stationary Newton, with a Jacobian or with finite differences, converge in binary64 under hypotheses on the system and on the accuracy of its evaluation only; with the default solver and default finite differences this is stated with all constants.", "quantifier": "for every dimension, matrix, system, model with bounded errors, guess and perturbations within the stated bounds", "why_tests_cant": "Quantifies over all matrices of doubles below a condition number and over all systems and models near a root.", "anchors": ["solver_n_dimensional/solver/jacobian/jacobian_struct.rs: compute_inverse", "solver_n_dimensional/solver/jacobian/jacobian_finite_diff.rs: compute_jacobian_from_finite_difference", "solver_n_dimensional/solver/rootfinder.rs: solve", "solver_n_dimensional/solver/default.rs: default_with_guess"]}
{"id": "C98", "title": "Newton steps in binary64 are exact Newton steps up to an explicit error, and converge quadratically", "statement": "At any finite point where the real Jacobian A has entries of at most alpha, its inverse B has row sums of at most beta, 2048 n^5 3^n 2^-53 (alpha beta)^2 <= 1, and the model computes residuals and Jacobian with errors of at most eps and eta, a Newton-Raphson pass of the solver with the LU inverse succeeds and moves to a finite point that differs from the exact Newton iterate x - B phi by at most beta (3/2 beta eta + 48 n^4 3^n 2^-53 alpha beta) M + 2 beta eps + 2^-52 X, where M and X bound the residuals and the exact iterate. If this holds within R of a root and the linearization misses the root by at most gamma times the square of the distance, with 4 beta gamma R <= 1, then from every finite guess within R the solve succeeds after at most N iterations as soon as the tolerance is above L (2 R / 2^(2^N) + F) + eps, with an explicit floor F: quadratic convergence up to rounding.", "quantifier": "for every dimension, system, model with bounded errors, point and guess within the stated bounds", "why_tests_cant": "Quantifies over all systems, models and points; the bound is on the difference from exact arithmetic, which a test cannot observe.", "anchors": ["solver_n_dimensional/solver/rootfinder.rs: solve", "solver_n_dimensional/solver/rootfinder.rs: compute_newton_raphson_step", "solver_n_dimensional/solver/jacobian/jacobian_struct.rs: compute_inverse"]}
{"id": "C99", "title": "Case 9 is solved in binary64 from every guess in a box", "statement": "In binary64 with nalgebra's linear algebra, Newton-Raphson with the Jacobian of the crate solves case 9 of Broyden's tests, 10 (y - x^2) = 0, 1 - x = 0, from every finite guess in [-32, 32]^2 within 3 iterations, for every tolerance from 5e-7 to 1/2; the result is finite, satisfies both equations up to the tolerance plus 1e-9, and is within 3 times that of (1, 1). The solver of default_with_guess is an instance, and the guess (-1.2, 1) of the crate is in the box.", "quantifier": "for every pair of doubles in the box, every tolerance in the range", "why_tests_cant": "There are about 10^37 pairs of doubles in the box; the test suite runs one.", "anchors": ["util/src/test_cases/broyden1965.rs: broyden1965_case9", "util/src/test_cases/broyden1965.rs: broyden1965_case9_jac", "solver_n_dimensional/solver/rootfinder.rs: solve", "solver_n_dimensional/solver/default.rs: default_with_guess"]}
{"id": "C100", "title": "The program with its side effects computes what the functional model computes", "statement": "Modelled as an imperative program (fields assigned one after the other, the log written to a file in single writes, every call of a user method and every file operation able to fail): when solve returns, result, solver fields and model state are those of the functional model, the log file is longer by exactly the text of the log, and no other file has changed. A panic of the crate is the panic the functional model predicts. When nothing fails and the log file exists, the converse holds too. After activate_debug the file holds exactly the text of the log, whatever it held before.", "quantifier": "for every dimension, configuration, user model, state and file system, and every pattern of failures", "why_tests_cant": "Quantifies over all models, states, file systems and failures; a test runs one.", "anchors": ["solver_n_dimensional/solver/rootfinder.rs: solve", "solver_n_dimensional/solver/rootfinder.rs: activate_debug", "solver_n_dimensional/solver/log.rs: add_content", "solver_n_dimensional/solver/log.rs: new"]}
{"id": "C101", "title": "What a panic leaves behind", "statement": "When solve panics, in the crate, in a method of the user's model or while writing the log, at whatever point: debug mode and path of the log are kept, no other file is touched, nothing is written without debug mode, and the log file is extended by complete entries and a beginning of one more entry. If the iteration counter has grown by j + 1, these entries begin with everything logged by the j completed iterations; with debug mode on, the k-th state in them has the number of its iteration and is the state of the model after k iterations.", "quantifier": "for every dimension, configuration, user model, state, file system and every pattern of failures", "why_tests_cant": "Quantifies over all points at which a call or a write can fail.", "anchors": ["solver_n_dimensional/solver/rootfinder.rs: solve", "solver_n_dimensional/solver/rootfinder.rs: iteration_to_log", "solver_n_dimensional/solver/log.rs: add_content"]}
{"id": "C102", "title": "A log which breaks off can be read", "statement": "Whatever first part of a log file is left, leaving out the last line if it is incomplete, reading it gives the events of the first entries, completely and in order, and nothing or a part of the next event, in which nothing is wrong: the number is right, the largest error is right or missing together with all rows, and the rows are the first rows. Hence after a panic of whatever kind all completed iterations can be read in the log.", "quantifier": "for every log, every point at which it breaks off, and every panic", "why_tests_cant": "Quantifies over all logs and all points in them.", "anchors": ["solver_n_dimensional/solver/log.rs: add_new_iteration", "solver_n_dimensional/solver/log.rs: add_iteration", "solver_n_dimensional/solver/log.rs: add_content"]}
{"id": "C103", "title": "A failed activation of the debug mode leaves the solver as it was", "statement": "When activate_debug panics because the file cannot be created or written, a caller who catches the panic has the solver as it was before. (False: debug is set before the file is created. A solver without a log then panics in every solve with a usable first evaluation. All other fields are kept, and a solver with a log goes on with it, in debug mode.)", "quantifier": "for every solver state, path and failure", "why_tests_cant": "Quantifies over all later solves; the tests of the crate never let a file operation fail.", "anchors": ["solver_n_dimensional/solver/rootfinder.rs: activate_debug", "solver_n_dimensional/solver/log.rs: new", "solver_n_dimensional/solver/rootfinder.rs: parameters_to_log"]}
{"id": "C104", "title": "Every panic has a cause and no failure is swallowed", "statement": "When solve returns, no file operation it has done has failed, and without debug mode it has done none. When it panics in a file operation, debug mode is on and either the log file is missing, and nothing was written, or exactly the last operation failed. When it panics in the user's model, the method named has panicked in some state and left the model as it is found; no file operation has failed. When the crate itself panics, no file operation has failed. With debug mode on and the log file removed, solve never returns a result unless the first evaluation is unusable.", "quantifier": "for every configuration, model, solver state, file system and schedule of failures", "why_tests_cant": "The point at which a write or a call fails is arbitrary; tests of the crate never let one fail.", "anchors": ["solver_n_dimensional/solver/rootfinder.rs: solve", "solver_n_dimensional/solver/log.rs: add_content", "solver_n_dimensional/solver/rootfinder.rs: parameters_to_log"]}
{"id": "C105", "title": "The solver is usable after a caught panic", "statement": "After a panic of the user's model, of the log or of the crate has been caught, a later solve of a well behaved model does not panic in the crate. (False for the methods which update the Jacobian or its inverse: after a panic in the first iteration Broyden's method unwraps steps which are not there. True for Newton-Raphson and stationary Newton after any history, and for all methods when the panic came before the first iteration. Newton-Raphson then gives what a new solver gives with the iterations that are left.)", "quantifier": "for every history of solves, panics and activations, every model and every schedule of failures", "why_tests_cant": "Quantifies over all histories and all points of failure.", "anchors": ["solver_n_dimensional/solver/rootfinder.rs: solve", "solver_n_dimensional/solver/rootfinder.rs: evaluate_jacobian_quasi_newton_step", "solver_n_dimensional/solver/jacobian/jacobian_struct.rs: update_jacobian"]}
{"id": "C106", "title": "The log with the feature additional_log_info can be read back", "statement": "With the feature additional_log_info the head of the log file also tells the system, the host, the user, the version of the compiler and the time. When none of these values contains a line break, reading the file gives every iteration, damping and refusal and nothing else, the same as without the feature, and every value can be looked up behind its key. The values are not escaped: one with a line break can forge an iteration.", "quantifier": "for all values of the runner, all configurations and all sequences of log entries", "why_tests_cant": "Quantifies over all names of hosts and users and all logs; the feature is off in the tests.", "anchors": ["solver_n_dimensional/solver/log.rs: write_time", "solver_n_dimensional/solver/log.rs: write_user_infos", "solver_n_dimensional/solver/log.rs: write_rustc_info", "solver_n_dimensional/solver/log.rs: new"]}
{"id": "C107", "title": "The loops of the test functions compute the equations of the literature", "statement": "The functions of cases 5 to 8 and their Jacobians are loops that assign the entries of outputs one after the other, each from the one before. For every vector of length at least 2 they return, without a panic, a vector (matrix) of the same length whose entry i is the sum of the terms 2 x_(j+1) - (3 + alpha x_j) x_j - beta for j up to i (with x_n = 0), and below dimension 2 they panic with an index. Cases 9 and 10 panic below dimension 2 and ignore entries beyond the second; square2 panics unless there is one variable, root_with_high_derivative panics without a variable.", "quantifier": "for all lengths, all vectors and all parameters", "why_tests_cant": "Quantifies over all dimensions and vectors; the tests evaluate the functions in dimensions 2, 5, 10 and 20.", "anchors": ["util/src/test_cases/broyden1965.rs: broyden1965_cases5to8", "util/src/test_cases/broyden1965.rs: broyden1965_cases5to8_jac", "util/src/test_cases/broyden1965.rs: broyden1965_case9", "util/src/test_cases/broyden1965.rs: broyden1965_case10", "util/src/test_cases/polynom.rs: square2", "util/src/test_cases/polynom.rs: root_with_high_derivative"]}
{"id": "C108", "title": "The Debug text of the solver shows its complete state", "statement": "Two root finders have the same Debug text, with {:?} or with {:#?} at any depth, if and only if they agree in the configuration (parameters, guess, iteratives, residuals) and in all of the mutable state except the log (debug flag, counter, accuracy flag, Jacobian with its inverse and flags, stored steps and residuals). The same holds for parameters, iteratives, residual configurations, residual values and Jacobian values on their own. Numbers in these texts are parsed back to the same f64, signed zeros included. Unlike Display, Debug tells whether the Jacobian or its inverse is updated. {:#?} differs from {:?} in spaces, line ends and commas only.", "quantifier": "for all solver states, dimensions, numbers and both modes", "why_tests_cant": "Quantifies over all states and pairs of states; the repository has no test of the Debug implementations.", "anchors": ["solver_n_dimensional/solver/rootfinder.rs: fmt", "solver_n_dimensional/solver/parameters.rs: fmt", "solver_n_dimensional/solver/jacobian/jacobian_struct.rs: fmt", "solver_n_dimensional/iteratives/iteratives_base.rs: fmt"]}
{"id": "C109", "title": "Stationary Newton converges from a guess that meets checkable conditions, even with a wrong matrix", "statement": "In exact arithmetic, with absolute residuals, no damping and limits that do not act near the guess: if the guess meets the conditions of Kantorovich with omega eta < 1/2, then for every tolerance some number of iterations is enough for stationary Newton to succeed, a root lies within 2 eta of the guess, and after k iterations the distance to it is at most 2 eta (2 omega eta)^k, although the Jacobian is evaluated at the guess only. The matrix need not be the Jacobian: if the matrix M returned at the guess, or computed there by finite differences, replaces the Jacobian up to a factor q < 1 within rho of the guess and the first step has length at most (1 - q) rho, then the solve succeeds and the distance to the root, which exists and is the only one within rho, is at most rho q^k. Nothing is assumed about roots.", "quantifier": "for all functions, dimensions, guesses, matrices and tolerances that meet the conditions", "why_tests_cant": "Quantifies over all functions and tolerances; tests check that chosen functions converge from chosen guesses.", "anchors": ["solver_n_dimensional/solver/rootfinder.rs: solve", "solver_n_dimensional/solver/rootfinder.rs: compute_newton_raphson_step", "solver_n_dimensional/solver/jacobian/jacobian_finite_diff.rs: evaluate_jacobian_from_finite_difference"]}
{"id": "C110", "title": "Configuration files are read the same in every layout, and every configuration survives as a file", "statement": "The text of a configuration file is read as the element tree it lays out, whatever the declaration, white space, comments, kind of quotes, empty-element or closing tags and text between tags; a text lays out one tree only, and a text which lays out no tree is refused. Hence two files with the same tree give the same configuration or the same panic. Every valid configuration in double precision (with infinities and subnormals) has a text, and from any file with any layout of it the configuration is read back unchanged. Whatever the XML parser is, a configuration comes only from a file which can be read, is well formed, and whose tree contains it; otherwise the panic names the first of these that failed.", "quantifier": "for all texts that lay out a tree, all file systems and all configurations", "why_tests_cant": "Quantifies over all layouts and configurations; the tests read three files.", "anchors": ["solver_n_dimensional/xml_parser/xml_file_fd.rs: from_xml_finite_diff", "solver_n_dimensional/xml_parser/xml_file_jac.rs: from_xml_jacobian"]}
{"id": "C111", "title": "Broyden's two methods converge locally in any dimension, and the solver follows them while no residual is negative", "statement": "Near a simple root of a twice continuously differentiable function, Broyden's first and second method of the literature keep their matrices invertible and halve a bound of the distance to the root at every step. With absolute residuals, exact arithmetic and no damping, the solver with BroydenFirst or BroydenSecond, updating the Jacobian or its inverse, returns exactly the points of the method of the literature, and converges for every tolerance, as long as no residual is negative at these points. (C37 shows that this condition cannot be dropped.)", "quantifier": "for all dimensions, all such functions and roots, all close guesses, all tolerances", "why_tests_cant": "Convergence is a statement about unbounded iteration counts, for all functions and dimensions.", "anchors": ["solver_n_dimensional/solver/rootfinder.rs: solve", "solver_n_dimensional/solver/resolution_method.rs: broyden_first_method_udpate_jac", "solver_n_dimensional/solver/resolution_method.rs: broyden_first_method_udpate_inv_jac", "solver_n_dimensional/solver/resolution_method.rs: broyden_second_method_udpate_jac", "solver_n_dimensional/solver/resolution_method.rs: broyden_second_method_udpate_inv_jac", "solver_n_dimensional/solver/resolution_method.rs docs L7-8"]}
{"id": "C112", "title": "The derived equality of the settings", "statement": "`==` on the settings of iteratives (`IterativeParams`, `IterativeParamsFD`, and slices of them) holds exactly when the perturbation method is the same and every number is at most and at least its counterpart, that is no number is NaN and the numbers agree up to the sign of a zero. The relation is symmetric and transitive, and a setting equals itself exactly when it holds no NaN. Every setting the constructor accepts equals itself, and equal accepted settings give the same solves. Equality of resolution methods, perturbation and normalization methods and residual configurations is identity.", "quantifier": "all settings over binary64 numbers including NaN, infinities and both zeros; all iterates and raw steps; all methods and configurations", "why_tests_cant": "The tests compare a handful of finite settings. The exceptional values (NaN accepted by the constructor, signed zeros as bounds) and the interplay of equality with the solver range over all numbers and functions.", "anchors": ["solver_n_dimensional/iteratives/iterative_var.rs: IterativeParams", "solver_n_dimensional/iteratives/iterative_var_fd.rs: IterativeParamsFD", "solver_n_dimensional/solver/resolution_method.rs: ResolutionMethod", "solver_n_dimensional/residuals/config.rs: ResidualsConfig"]}
{"id": "C113", "title": "Broyden's methods are faster than every linear rate", "statement": "Near a simple root of a twice continuously differentiable function, in any dimension, Broyden's first and second methods of the literature converge superlinearly: the quotient of successive distances to the root tends to zero. The solver follows them while no residual is negative (C111), and then for every factor below one there is a constant K such that every tolerance that is the m-th power of the factor is reached within m + K iterations.", "quantifier": "all dimensions, all functions with a simple root, all guesses near the root, all factors, all tolerances that are powers of the factor, all configurations with absolute residuals, without damping and with limits inactive near the root", "why_tests_cant": "A superlinear rate is a statement about the limit of an infinite sequence for every function and guess; tests see a few iterations of a few systems until rounding stops them.", "anchors": ["solver_n_dimensional/solver/resolution_method.rs: UpdateQuasiNewtonMethod::BroydenFirst", "solver_n_dimensional/solver/resolution_method.rs: UpdateQuasiNewtonMethod::BroydenSecond", "solver_n_dimensional/solver/rootfinder.rs: solve"]}
{"id": "C114", "title": "Broyden's methods without a Jacobian converge locally, from the displaced point", "statement": "On a function without a Jacobian, in exact arithmetic with absolute residuals and no damping, the solver with BroydenFirst or BroydenSecond (either form) computes exactly the points of Broyden's method of the literature started at the guess with its last coordinate displaced, with the matrix of the difference quotients at the guess, as long as no residual is negative at these points. Near a simple root, with small displacements and limits that do not act, it therefore converges, halving the distance, and for every factor below 1 every further iteration eventually gains that factor.", "quantifier": "all dimensions, functions, simple roots, guesses and displacements close enough, tolerances, limits inactive near the root, both forms of both methods", "why_tests_cant": "The claim is about every function, every small displacement and all tolerances; tests run finitely many of each, and in rounded arithmetic.", "anchors": ["solver_n_dimensional/solver/rootfinder.rs: solve", "solver_n_dimensional/solver/rootfinder.rs: update_model", "solver_n_dimensional/solver/jacobian/jacobian_finite_diff.rs: compute_jacobian_from_finite_difference", "solver_n_dimensional/solver/jacobian/jacobian_approximation.rs: approximate_jacobian", "solver_n_dimensional/solver/jacobian/jacobian_inverse_approximation.rs: approximate_inv_jacobian"]}
{"id": "C115", "title": "Every call of a benchmark solves the problem", "statement": "The benchmarks build one solver and call solve on it again and again; each of these calls iterates from the guess to a solution, as a call on a new solver does. In particular the unwrap in static_types.rs never panics, and broyden_case8.rs times resolutions. The state put into the model between two calls is what makes the calls comparable.", "quantifier": "Every number of calls, every sequence of models, every method and arithmetic for the bound on the total work; binary64 for the two benchmarks.", "why_tests_cant": "The benchmarks are not run by the tests and discard the result of solve, so nothing reports that later calls do no work; the total over all sequences of calls cannot be enumerated.", "anchors": ["solver_n_dimensional/solver/rootfinder.rs: solve", "benches/square2/static_types.rs: solve_problem", "benches/square2/dynamic_types.rs: run", "benches/broyden_case8.rs: solvers_comparison"]}
{"id": "C116", "title": "Damping improves convergence", "statement": "The documentation says to activate the damping to improve convergence: the full step is taken as long as the error is reduced, and a factor is applied otherwise. So with damping no iteration makes the error grow, a solve that succeeds without damping succeeds with it, and bad steps do not keep the solver from converging.", "quantifier": "Every function of one variable whose derivative is bounded and bounded away from zero, every guess, budget and tolerance, in exact arithmetic; binary64 for the counterexamples about growth and failure.", "why_tests_cant": "Tests with damping run a few problems from one guess; whether the error can grow or the method can cycle for ever is a statement about all functions and all budgets.", "anchors": ["solver_n_dimensional/solver/parameters.rs: SolverParameters", "solver_n_dimensional/solver/rootfinder.rs: update_model", "solver_n_dimensional/solver/rootfinder.rs: damping"]}
{"id": "C117", "title": "A nearly linear equation is solved from every guess with every dx", "statement": "For one equation whose slopes vary by less than a factor two, Newton-Raphson with finite differences and stationary Newton, with the derivative or with a finite difference, reach every tolerance from every guess, and each iteration gains the same factor whatever the displacements dx are, as long as they are not zero. The equation may have corners. The factor two cannot be improved.", "quantifier": "Every function with chords of slopes between mu and M < 2 mu, every guess, displacement rule, tolerance and budget, in exact arithmetic without limits and damping.", "why_tests_cant": "Quantifies over all functions, guesses and displacements, and needs a bound on the number of iterations for each tolerance.", "anchors": ["solver_n_dimensional/solver/rootfinder.rs: solve", "solver_n_dimensional/solver/jacobian/jacobian_finite_diff.rs: compute_jacobian_from_finite_difference", "solver_n_dimensional/solver/resolution_method.rs: QuasiNewtonMethod"]}
{"id": "C118", "title": "A nearly linear system is solved from every guess with every dx", "statement": "For a system that is a linear map with invertible matrix plus a part with a small enough Lipschitz constant, Newton-Raphson and stationary Newton, with a Jacobian close to the linear part or with finite differences, reach every tolerance from every guess; each iteration gains a fixed factor, and with finite differences the factor does not depend on the displacements dx, as long as they are not zero.", "quantifier": "Every dimension, system, guess, displacement rule, tolerance and budget, in exact arithmetic without limits; Newton-Raphson with a Jacobian also with damping.", "why_tests_cant": "Quantifies over all systems of all dimensions, all guesses and displacements, with a bound on the iterations for each tolerance.", "anchors": ["solver_n_dimensional/solver/rootfinder.rs: solve", "solver_n_dimensional/solver/jacobian/jacobian_finite_diff.rs: compute_jacobian_from_finite_difference", "solver_n_dimensional/solver/resolution_method.rs: QuasiNewtonMethod"]}
{"id": "C119", "title": "Stationary Newton solves a convex equation from above, and may cycle from below", "statement": "For one increasing convex equation and a guess at or above the root, stationary Newton, with the derivative at the guess or with a finite difference of any size, succeeds within an explicit number of iterations (distance to the root times the kept slope, divided by the tolerance), and its points stay between the root and the guess. From below the root this fails: there is such an equation on which it alternates between two points for ever.", "quantifier": "Every increasing convex function with a root, guess above it, displacement, tolerance and budget, in exact arithmetic without damping; the counterexample for every budget, every displacement up to 2 and every tolerance below 4.", "why_tests_cant": "Quantifies over all convex functions, guesses and displacements, and over all budgets for the failure.", "anchors": ["solver_n_dimensional/solver/rootfinder.rs: solve", "solver_n_dimensional/solver/resolution_method.rs: QuasiNewtonMethod", "solver_n_dimensional/solver/jacobian/jacobian_finite_diff.rs: compute_jacobian_from_finite_difference"]}
{"id": "C120", "title": "On one convex equation Newton-Raphson converges linearly from every guess, damped or not", "statement": "For one equation whose graph lies above its tangents, which all rise, Newton-Raphson reaches every tolerance from every guess on either side of the root, with and without damping, and the residuals stay below a geometric sequence that depends only on the function and the guess. The same holds with forward differences without damping, for all positive displacements below a bound on which the sequence then depends too.", "quantifier": "Every such function with a root, guess, tolerance and large enough budget, in exact arithmetic without limits, with a derivative with and without damping, with forward differences without damping.", "why_tests_cant": "Quantifies over all convex functions and guesses, with half steps that the code does not compare again.", "anchors": ["solver_n_dimensional/solver/rootfinder.rs: solve", "solver_n_dimensional/solver/rootfinder.rs: damping", "solver_n_dimensional/solver/jacobian/jacobian_finite_diff.rs: compute_jacobian_from_finite_difference"]}
{"id": "C121", "title": "The one-dimensional solver converges from every guess on convex and on nearly linear equations", "statement": "solver1d, and solver1d_fd with every positive dx below a bound, reach every tolerance from every guess on an equation whose graph lies above its rising tangents, at a linear rate. On an equation whose slopes vary by less than the factor two they gain a fixed factor in each iteration, solver1d_fd for every dx other than 0. Otherwise the returned number carries no sign of a failure: on an equation without a root the whole budget is spent and a number is returned.", "quantifier": "Every such function, guess, displacement, tolerance and large enough budget, in exact arithmetic.", "why_tests_cant": "Quantifies over all convex and nearly linear functions, all guesses and displacements, with a bound on the iterations for each tolerance.", "anchors": ["util/src/solver_one_dimensional.rs: solver1d", "util/src/solver_one_dimensional.rs: solver1d_fd"]}
