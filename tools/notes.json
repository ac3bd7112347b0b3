{
 "C01": {
  "status": "proved",
  "note": "All operation sequences, including failing operations; explicit buffer growth."
 },
 "C02": {
  "status": "proved",
  "note": "For traces of successful submissions (Spec/History.lean). C02_scalars_in_arrays covers scalar criteria whose values arrive as arrays."
 },
 "C03": {
  "status": "proved",
  "note": "All three function types."
 },
 "C04": {
  "status": "proved",
  "note": "Counters after every trace."
 },
 "C05": {
  "status": "proved",
  "note": "Over the reals with the Euclidean norm."
 },
 "C06": {
  "status": "partial",
  "note": "False for negative indices (witness C06_violated_by_negative_index); proved for non-negative indices."
 },
 "C07": {
  "status": "partial",
  "note": "Proved for duplicate free index lists, with and without averaging. False as soon as an index is repeated: C07_violated_whenever_repeated says for all such lists what is returned instead (fewer rows of values than vectors, or ValueError)."
 },
 "C08": {
  "status": "partial",
  "note": "Proved for scalar criteria with arbitrary (also failing) results and for vector criteria whose results all have the same width. Vector criteria that raise after a first successful evaluation: C09_vector_request_partial says exactly when the evaluations of a request are recorded; they are not if one of several raises (C08_violated_vector_batch)."
 },
 "C09": {
  "status": "partial",
  "note": "Proved for scalar criteria. For vector criteria false when an evaluation of a batch of several fails, or the first one fails (witnesses). Complete characterisation once an evaluation has succeeded: C09_vector_request_partial (a request with an exception and at least two results raises ValueError and leaves the history unchanged; every other request is recorded)."
 },
 "C10": {
  "status": "proved",
  "note": "All completion orders; the batch evaluator's own order contract is the modelled behaviour of the external package. With counts that are all zero there are no tasks and no workers (C10_zero_workers_possible)."
 },
 "C11": {
  "status": "proved",
  "note": "Classic: exact iff. Line search: accepted implies improved; conversely an improving point is accepted unless a new value is -inf or the candidate's value is NaN (then the code rejects)."
 },
 "C12": {
  "status": "proved",
  "note": "All four deciders, all options."
 },
 "C13": {
  "status": "proved",
  "note": "All four deciders; includes the consequence for the radius."
 },
 "C14": {
  "status": "proved",
  "note": "Generic ordered field, IEEE infinities."
 },
 "C15": {
  "status": "proved",
  "note": "All samplers that return the requested number of points."
 },
 "C16": {
  "status": "partial",
  "note": "False of the code (witness C16_violated_beyond_bound: line points are not clipped). Proved if the farthest line point is feasible or the candidate is not on the border."
 },
 "C17": {
  "status": "partial",
  "note": "Proved for accepted steps; after rejected steps the reported value is stale (witness)."
 },
 "C18": {
  "status": "proved",
  "note": "'Not cut off' is expressed through the returned numbers."
 },
 "C19": {
  "status": "proved",
  "note": "All inputs."
 },
 "C20": {
  "status": "partial",
  "note": "False for finite max_radius_to_step_ratio (general witness); proved otherwise, by induction over iterations. C20_radius_in_a_run_partial lifts the limits to all runs of the optimizer. For whole calls: C20_call_partial (the values in force of min_radius and max_radius) and C20_default_call_partial (no options for the radius: a tenth of the largest parameter in the first iteration, then between 1e-6 and 1e6)."
 },
 "C21": {
  "status": "proved",
  "note": "Includes convergence to min_radius over Archimedean fields. C21_in_a_run lifts the rule to consecutive iterations of all runs; C21_more_evaluations for iterations after which points are evaluated more often. C21_unsuccessful_steps_in_a_run: in runs without noise, unsuccessful iterations in a row shrink the radius geometrically down to min_radius. C21_default_call: the rule in numbers for whole calls with default options for the radius."
 },
 "C22": {
  "status": "partial",
  "note": "Proved for start values within the limits; witness for a start value above the limit. C22_in_a_run_partial lifts the limits to all runs of the optimizer. For whole calls: C22_call_partial, and C22_default_call_partial (between 1 and 30, starting with 1)."
 },
 "C27": {
  "status": "proved",
  "note": "Any mixture of finite and infinite bounds; sharp characterisation of the shape."
 },
 "C28": {
  "status": "partial",
  "note": "Proved for feasible centers; witness for an infeasible center."
 },
 "C29": {
  "status": "proved",
  "note": "Includes when the cube is non-degenerate; witness for fixed parameters (degenerate cube)."
 },
 "C30": {
  "status": "proved",
  "note": "Against Mathlib's Lebesgue measure."
 },
 "C60": {
  "status": "partial",
  "note": "C60_next_multiple for the arithmetic, C60_evaluations_at_start for the evaluations at the start. C60_full_batches_in_a_run_partial and C60_call_partial for runs and calls whose sample_increment is a multiple of the batch size. False otherwise, in particular with the default sample_increment of one and batch_size > 1: rounds against stagnation evaluate a single point (C60_violated_by_stagnation_rounds)."
 },
 "C70": {
  "status": "partial",
  "note": "False for the zero vector (witness); exact characterisation otherwise. The consequence for a call: with the defaults every call that starts at zero raises LinAlgError in the first fit, for all criteria (C70_violated_call_from_zero)."
 },
 "C75": {
  "status": "partial",
  "note": "False for bounds given on one side only (two witnesses); proved for both sides or none."
 },
 "C23": {
  "status": "proved",
  "note": "All point lists, indices and numbers of points to drop."
 },
 "C24": {
  "status": "proved",
  "note": "drop_worst_points, drop_excess and the simple filters keep the center under the stated conditions; the exact exceptions (limit zero, clustering) are theorems of their own."
 },
 "C25": {
  "status": "proved",
  "note": "All inputs."
 },
 "C26": {
  "status": "proved",
  "note": "All inputs; the loop of the code is unbounded, the model's fuel is proved sufficient."
 },
 "C61": {
  "status": "proved",
  "note": "All four deciders for a criterion without noise; with noise the stored-value part (C61_reported_values). C61_call: for whole calls with arbitrary arguments (the built-in filters always select stored points, builtin_filterSelectsR)."
 },
 "C62": {
  "status": "proved",
  "note": " C62_call: for whole calls with arbitrary arguments."
 },
 "C63": {
  "status": "partial",
  "note": "False as stated: the first iteration runs even if the start evaluations already exhaust the limit (C63_violated_first_iteration). Proved: every further iteration starts below the limits, and the overshoot is bounded by one iteration: without noise C63_total_evaluations_partial, with noise and for all four deciders C63_total_evaluations_with_noise_partial, given a bound on the number of points that the filter keeps. discard_all and drop_excess have such a bound (C63_filters_that_keep_few); keep_all and clustering keep as many points as lie in the search region. For whole calls: C63_call_partial (arbitrary arguments, every built-in sampler) and C63_default_call_partial (the bound in numbers for default options)."
 },
 "C64": {
  "status": "partial",
  "note": "False as stated: witness C64_violated_budget_exceeded; the time limit is never read. The bound that does hold is C63_total_evaluations_partial."
 },
 "C65": {
  "status": "proved",
  "note": "That the message names a criterion that holds between the last two states says nothing about the units in which it is measured: see C107 for the gradient. C65_call: for whole calls, with the tolerances that the user passed."
 },
 "C66": {
  "status": "proved",
  "note": ""
 },
 "C67": {
  "status": "proved",
  "note": "C67_call: for whole calls with arbitrary arguments. C67_new_points_are_new (C67_new_points_of_a_run_that_returns, C67_call_new_points): what a state calls new comes later in the history than every point that an earlier state mentions."
 },
 "C68": {
  "status": "partial",
  "note": "False with batch size two or more: the line search of the decider leaves the bounds (C68_violated_by_line_search). Also false with the default options and one core: gqtpar may return steps of norm 1 + k_easy, and they are not clipped to the bounds (C68_violated_by_default_solver). Proved for the decider without line search and subsolvers that stay in the region."
 },
 "C69": {
  "status": "partial",
  "note": "False: the stored model used for residuals is never updated (C69_violated_old_model_is_never_updated, C69_violated_witness). For the built in components the old model is therefore constant (C69_violated_start_model_is_constant)."
 },
 "C31": {
  "status": "partial",
  "note": "Proved for spheres, for linear models, for vector models in boxes without second order terms. False otherwise: move_model scales only the columns of the Hessian in boxes (C31_violated_in_boxes) and scalar models without square terms raise (C31_violated_for_linear_scalar_models)."
 },
 "C32": {
  "status": "partial",
  "note": "False if the first model has no square terms and the second has (C32_violated); proved in all other cases."
 },
 "C33": {
  "status": "proved",
  "note": " C33_predictions_of_many_points: one row per point, in order, for arrays of points."
 },
 "C34": {
  "status": "proved",
  "note": "numpy.linalg.lstsq and the square root enter through contracts (LstsqSpec, RootSpec); a least squares solver that meets the contract exists (exists_lstsq)."
 },
 "C35": {
  "status": "proved",
  "note": "numpy.linalg.lstsq and the square root enter through contracts (LstsqSpec, RootSpec). C35_fit_in_a_run states it for the fits of a run, with the evaluations read from the history."
 },
 "C36": {
  "status": "proved",
  "note": ""
 },
 "C37": {
  "status": "proved",
  "note": ""
 },
 "C38": {
  "status": "partial",
  "note": "False if all finite values of a residual are equal (C38_violated_for_equal_values): infinite values become +-1. Proved otherwise."
 },
 "C39": {
  "status": "proved",
  "note": "Also stated for the candidate that the acceptance decision of a run sees (C39_expected_improvement_in_a_run)."
 },
 "C40": {
  "status": "partial",
  "note": "False for the default solver gqtpar: C40_violated_slack (a step of norm 1.1 leaves the ball and the bounds) and C40_violated_zero_gradient (a step of norm 2). Proved: boxes with arbitrary solvers, balls if the solver stays in the ball, and for gqtpar that a converged step has norm at most 1 + k_easy if the gradient is not zero."
 },
 "C41": {
  "status": "proved",
  "note": ""
 },
 "C42": {
  "status": "proved",
  "note": "minimize_trust_cg: the result lies in the trust region, its model value is at most that of every earlier iterate and at most the value of the Cauchy point; any gradient, any symmetric Hessian, any radius > 0, exact arithmetic with a square root satisfying SqrtSpec. The iteration limit 2 n of the code is part of the model (see C102)."
 },
 "C43": {
  "status": "partial",
  "note": "False as stated: for a concave model Steihaug-Toint returns x=-2 in a region of radius one, and for a zero Hessian it divides by zero (C43_violated, C43_violated_linear_model). Proved part: positive curvature along all directions used."
 },
 "C52": {
  "status": "proved",
  "note": "scipy.optimize.minimize enters through the contract ScipySpec (result inside the bounds it was given). For the solver with a norm constraint SLSQP enters through SlsqpSpec (inside the bounds; constraint met up to a tolerance if success is reported). If SLSQP does not report success, the candidate of this solver can be outside of the trust region (C52_norm_constraint_outside)."
 },
 "C73": {
  "status": "partial",
  "note": "False for Steihaug-Toint (C73_violated_steihaug: the numba version divides by zero where the numpy version returns) and for ties in the step to the sphere of gqtpar, which depend on the order of np.roots (C73_violated_step_tie). Proved: conjugate gradient and trsbox without exception; Steihaug-Toint whenever the numba version returns; gqtpar for ordered roots; bntr with each of the three inner solvers whenever the numba version returns, with the text of the message for its number. Not compared: what bntr for numpy does after a division by zero."
 },
 "C44": {
  "status": "proved",
  "note": "Beyond the statement: the initial bracket contains every true multiplier, and the lower bound stays valid in whole runs."
 },
 "C45": {
  "status": "partial",
  "note": "The optimality conditions are sufficient (C45_sufficient) and boundary steps have norm one; the clause on results with lambda = 0 is false (C45_violated_interior: the minimizer 0.9 is moved to 1). Proved instead: the model value of a result with success is within the factor 1 - k_hard of the best value on the ball as long as reused factors belong to a positive factor (C45_near_optimal_partial), which is always so unless the model is positive definite (C45_near_optimal_without_convexity); the share min(1 - k_hard, 0.47) holds for all symmetric models without further conditions (C45_near_optimal; C45_numpy_version under the contracts of C73)."
 },
 "C76": {
  "status": "partial",
  "note": "Proved for vectors, values and lists of points, with IndexError for indices out of range. False for a single negative index of get_fvecs/get_fvals, which raises KeyError (C76_violated_single_negative)."
 },
 "C53": {
  "status": "partial",
  "note": "Proved for the three built in samplers, for all regions with feasible center, all nonzero draws and all optimizers that return no zero row. False for an optimizer that returns a zero row (NaN points, C53_violated_by_zero_row) and for negative n_points in two samplers (they raise)."
 },
 "C54": {
  "status": "partial",
  "note": "Proved for all draws, criteria, existing points and optimizers without zero rows, against every random candidate. With a zero row the sample is NaN (C53_violated_by_zero_row)."
 },
 "C77": {
  "status": "proved",
  "note": "C77_pairs_with_a_new_point over any field; C77_soft_minimum over the reals with logsumexp = log(sum(exp))."
 },
 "C78": {
  "status": "partial",
  "note": "Holds when the optimization improved the criterion; false when the start sample is kept (C78_violated_when_start_is_kept)."
 },
 "C55": {
  "status": "partial",
  "note": "Proved up to two parameters. False for every number of parameters from three on (C55_violated_from_three_parameters): features are written row by row, coefficients read column by column."
 },
 "C79": {
  "status": "proved",
  "note": "Uses only G pinv(G) G = G."
 },
 "C80": {
  "status": "partial",
  "note": "Up to two parameters; false with three (C80_violated_three_parameters: the constant is 9/2 although no Lagrange polynomial exceeds 7/2 on the cube), because of C55. Optimizer assumed to find the maximum (contract shown satisfiable over the reals)."
 },
 "C81": {
  "status": "partial",
  "note": "Up to two parameters and square interpolation systems; false with three (C81_violated_three_parameters: the volume is multiplied by 3, the recorded constant is 9/2), because of C55."
 },
 "C82": {
  "status": "proved",
  "note": "Added after a surviving mutation (sample sizes swapped)."
 },
 "C83": {
  "status": "partial",
  "note": "Proved for balls; false for boxes (C83_violated_in_boxes): nearness is relative to the coordinates of the border."
 },
 "C84": {
  "status": "proved",
  "note": "Added after a surviving mutation (labeled points counted as neighbors)."
 },
 "C56": {
  "status": "partial",
  "note": "Proved for names and callables with a __name__; callables without __name__ (functools.partial) are refused with AttributeError (C56_violated_by_callables_without_name)."
 },
 "C57": {
  "status": "partial",
  "note": "Full characterization of when a component is built and what it receives; the optional warning about redundant arguments raises AttributeError (C57_violated_warnings)."
 },
 "C58": {
  "status": "proved",
  "note": "Including exactly when the update succeeds."
 },
 "C59": {
  "status": "partial",
  "note": "All listed guarantees but the positive search radius factor for NaN, which is accepted (C59_violated_nan_factor)."
 },
 "C85": {
  "status": "partial",
  "note": "Proved for options with float defaults; sampler option hardness has an integer default and is truncated (C85_violated_hardness)."
 },
 "C86": {
  "status": "partial",
  "note": "All names but the cube solvers fallback_cube and fallback_multistart (C86_violated_cube_fallbacks)."
 },
 "C87": {
  "status": "partial",
  "note": "Proved for samplers with trustregion as first parameter; otherwise false (C87_violated_parameter_order)."
 },
 "C88": {
  "status": "partial",
  "note": "Proved for at least one core and the default sample size; zero and negative values are accepted (C88_violated_sizes)."
 },
 "C89": {
  "status": "proved",
  "note": ""
 },
 "C90": {
  "status": "partial",
  "note": "Between the two sizes the sum of squared second order coefficients is minimal, which is not the Frobenius norm of the Hessian: C90_violated_frobenius_norm. Requires that the first n+1 points are poised."
 },
 "C91": {
  "status": "proved",
  "note": "Added after a surviving mutation (sign of the determinant objective)."
 },
 "C92": {
  "status": "proved",
  "note": "Added after a surviving mutation (uniform draws in the ball)."
 },
 "C71": {
  "status": "partial",
  "note": "Weighted average, covariance, undefined and empty cases proved; fails when min_n_evals admits a point with a single evaluation (C71_violated_single_evaluation) and is not claimed for infinite values."
 },
 "C72": {
  "status": "proved",
  "note": "Generator and solvers enter by contract (DrawsSpec; solvers that do not fail); instances for default least squares and scalar components."
 },
 "C46": {
  "status": "proved",
  "note": "For every inner solver, all tolerances and all numbers of iterations, on the model of bntr_fast (exact numbers, finite bounds)."
 },
 "C47": {
  "status": "proved",
  "note": "The inner loop ends after at most 35 passes, for every inner solver; a result with more fuel is the same (bntrInner_mono)."
 },
 "C48": {
  "status": "partial",
  "note": "Violated: C48_violated is a convex model on the unit cube for which the default solver (without the initial gradient descent) returns a point that is worse than the start. Proved: an accepted step decreases the value unless predicted and actual change are at most one, and steps that the bounds do not cut off do not increase the value."
 },
 "C49": {
  "status": "proved",
  "note": "The norm of the direction is zero iff the bounds and the first order conditions hold; the solver stops at once at such points."
 },
 "C50": {
  "status": "proved",
  "note": "Each parameter is in exactly one class, the classes mean what their names say, and without free parameters the point is stationary."
 },
 "C93": {
  "status": "partial",
  "note": "Violated: C93_violated is a run with one iteration of the initial gradient descent that reports success and a value that the model does not have at the reported point. Proved when the gradient descent is switched off or a step of the main loop was accepted."
 },
 "C94": {
  "status": "partial",
  "note": "Violated: C94_violated_zero_division (from a corner of the box) and C94_violated_from_the_center (a convex model and the center of the box as start; the gradient descent divides by zero in its first pass, with numbers that are exact in floating point arithmetic). Proved without the initial gradient descent and from a start strictly between the bounds, with the conjugate gradient method; with the gradient descent the claim is false also there."
 },
 "C95": {
  "status": "proved",
  "note": "For the arguments that the model of process_arguments covers; C57 and C58 say what building a component and storing an option mean."
 },
 "C51": {
  "status": "partial",
  "note": "Violated: C51_violated_stop_iteration (uncaught StopIteration), C51_violated_bounds (a bound that was not active at first is not looked at again), C51_violated_threshold. Proved: returned points are in the region and descend; they are optimal if they satisfy the bounds; they satisfy the bounds for up to two parameters; the solver returns if the bounds are met in the order of the parameters."
 },
 "C96": {
  "status": "partial",
  "note": "Optimality for up to two parameters (for more the solver of the subproblem violates bounds, C51) and up to the threshold for zero; refusal of infeasible centers in general. Whether it returns: always with one parameter (C96_returns_one_parameter); with two it can raise StopIteration (C96_violated_raises)."
 },
 "C74": {
  "status": "proved",
  "note": "Exact arithmetic with an exact square root. `index_active_bound` is unassigned in the fast version if no bound restricts the angle; the model uses the empty value numba initializes it with. C74_total_reduction ties the number used by the stopping rules to the true reduction of the model."
 },
 "C97": {
  "status": "partial",
  "note": "Violated: the last comparison for bad agreement tests tau_2 where tau_1 is meant, so the radius can grow after a step with bad agreement (C97_violated_growth in a step of the solver, C97_violated_after_increase after an increase of the criterion). Everything else is proved, with the exceptional set stated in terms of the two reductions."
 },
 "C98": {
  "status": "partial",
  "note": "tranquiloR models the main loop with components that may raise. Proved: it returns for all components that are safe on what the loop gives them, and the built in components are (contracts of numpy and scipy, nonzero normal draws, aggregator that fits to the model type, in noisy runs a noisy decider with at least two evaluations per point and finite evaluations, so that the noise can be estimated and simulated, search_radius_factor >= 0, max_radius_to_step_ratio infinite as in the defaults). Arbitrary subsolvers are allowed with retry_subproblem_with_fallback. Runs that return inherit C61, C62, C63, C65, C67, C68. False for fixed parameters (lower = upper): every run raises LinAlgError (C98_violated_by_fixed_parameter), and for the initial radius zero (C98_violated_by_zero_radius); also false for accept_noisy without noise and for a line search whose additional values are all NaN (C98_violated_outside_the_hypotheses)."
 },
 "C99": {
  "status": "partial",
  "note": "draw_exploration_sample with scipy's draws, low discrepancy sequences and distributions as parameters with contracts (numbers in [0, 1), positive for Sobol' as its first point is skipped). Proved: every refused argument (C99_refuses, C99_value_error, C99_uniform_refuses); the uniform sample has n_samples rows in the box whose positions between the bounds are the drawn numbers; the triangular sample stays in the box and follows the triangular distribution with mode x if lower < upper and x is within the bounds. Violated: with the triangular distribution a fixed parameter or an x outside of the bounds silently gives NaN (C99_violated_fixed_parameter, C99_violated_outside). The multistart fallback solver, which uses the sample, returns points of the cube (C99_multistart). scipy's own check of seeds is not modelled."
 },
 "C100": {
  "status": "proved",
  "note": "Exact arithmetic; determinant and logarithm are Mathlib's. Regions with a side of length zero, where the unit coordinates are NaN or infinite, are excluded by a hypothesis."
 },
 "C101": {
  "status": "partial",
  "note": "The functions that compute the plotted data are modelled, drawing is not. Proved for runs without noise that evaluate each point once (EvaluatesOnce): the record of the evaluations has the points in the positions by which the run refers to them; markers, star, sample points with labels, circle and distances are those of the run. Proved in general: the shown rho, the cluster ratio, the Fekete criterion, the labels, the columns, the rows found in a cube, the indices of points that are in the history once, and exactly when the search for a point ends. Violated: with repeated evaluations the plots show other points than the run means (C101_violated_repeated_evaluations); with one parameter they raise (C101_violated_one_parameter); for a dictionary of results with a dictionary of iterations the results are not processed (C101_violated_dictionaries); for results of the nag algorithms a point that is in the history twice makes the plots raise (C101_violated_duplicates) and the search for a point that is at least one away from all others never ends (C101_violated_endless)."
 },
 "C102": {
  "status": "proved",
  "note": "Exact arithmetic. All residuals of a run are orthogonal to each other, so there are at most as many passes with a residual above the tolerance as there are dimensions. Hypotheses: the square root contract, a symmetric Hessian, a tolerance that is not negative."
 },
 "C103": {
  "status": "proved",
  "note": "Exact arithmetic, criterion without noise. Hypotheses: those of C98 (so that the run returns), the contract of np.linalg.lstsq, fit_ols or fit_tranquilo with penalties that are not zero, and that the data of an evaluated point are its residuals. The condition on the model points is a hypothesis for each iteration; it is not claimed that the samplers always meet it. The models are also shown to be those that the subsolver was given."
 },
 "C104": {
  "status": "proved",
  "note": "Refinement between the object of history.py (buffers, index mapper, counters) together with the wrapped criterion, and the log over which the main loop is modelled: for single calls (C104_calls), for all iterations of a run (C104_whole_run) and for the result of runs in which components may raise (C104_returned_history). The batch evaluator is assumed to return the results of the criterion in the order of the arguments (C10). Criteria that raise although they are vector valued are outside (they are not carried out, see C08 and C09)."
 },
 "C105": {
  "status": "partial",
  "note": "Proved for runs without noise (C105_failures_without_noise_partial). Violated with noise and accept_noisy: an evaluation that fails at a point that counts for the estimate of the noise makes the estimated variance NaN, and the conversion of the number of evaluations to an integer raises ValueError; for every criterion with a failing evaluation of the start point the first iteration raises (C105_violated_noisy). Violated also with accept_naive_noisy, which does not use that estimate: the covariance of the noise is NaN, and the simulated draws for the number of evaluations raise LinAlgError (C105_violated_naive_noisy; assumes that numpy's multivariate_normal raises it for a covariance with NaN). Limit of the model: if a model is fitted as a correction of the start model (residualize, the default of the tranquilo fitter) and the start point fails, the first fit has infinite targets; what np.linalg.lstsq makes of them is not modelled, so these runs are excluded by a hypothesis. Vector valued criteria that raise are C08."
 },
 "C106": {
  "status": "partial",
  "note": "C106_default_call_returns: a call without options, bounds and noise returns for each criterion and whatever the subsolvers do. C106_call_returns_partial: all valid combinations of options. Excluded by hypotheses, because the claim is false there: the start vector zero (initial radius zero, C70; C106_violated_from_zero: all valid options raise LinAlgError), fixed parameters (C106_violated_by_fixed_parameter), the line search (leaves the bounds, C68; may raise), the fallback solvers as solvers for boxes (C86), with bounds a solver for balls that leaves the ball (gqtpar can, C40; C106_violated_default_solver: a call with the default options and valid bounds that returns parameters outside of the bounds), noise with the classic decider or with failing evaluations (C105). Calls with option bundles are C119 (C119_call_with_options_returns). Naming the model type that belongs to the function type changes nothing (C106_named_model_type); all other model types raise (C106_other_model_types), so that a call that names one returns if and only if the combination is supported (C106_call_with_model_type_returns_partial). Not covered: components given by the user."
 },
 "C107": {
  "status": "partial",
  "note": "C107_gradient_message_partial: the message bounds the product of the gradient with the radii of the trust region at the center of the last region, not the gradient; the claim follows for spheres of radius at least one. C107_slope_of_the_criterion: for exactly modelled criteria the tested number is radius * |gradient of the criterion|. C107_violated_default_call: a call with default options for x/100 started at 1e-5 stops after one step with the gradient message although the slope is 0.01 everywhere."
 },
 "C108": {
  "status": "proved",
  "note": "Library functions enter through the contract GqSpec (triangular solves in exact arithmetic)."
 },
 "C109": {
  "status": "partial",
  "note": "Proved for fit_ols, fit_tranquilo and fit_ridge, as raw fitters with weights and (order) for the fits of a run with infinite values and residualizing. False for fit_powell: C109_violated_powell. np.linalg.lstsq enters through LstsqSpec (shortest least squares solution)."
 },
 "C110": {
  "status": "proved",
  "note": "C110_linear_convergence for all built in settings (bounds or not) under a contract for the subsolvers (a share kappa of the largest possible decrease on convex models; C45_near_optimal gives such a share for gqtpar, C111 for conjugate gradients) and under the hypothesis of C103 that the model points of every iteration determine the polynomials; C110_model_points shows that the hypothesis is met in all runs with one parameter and the settings named there; C110_one_iteration is the case of exact solvers. The example puts everything together for (x - 3) ** 2."
 },
 "C111": {
  "status": "proved",
  "note": "C111_half_of_possible_progress for every positive semidefinite Hessian and every point of the ball, with the tolerance term; C111_without_tolerance; C111_numba_version. C111_half_is_sharp shows that one half cannot be improved. The proof builds a dual point from the orthogonal residuals of C102. Exact arithmetic; np.sqrt by its contract."
 },
 "C112": {
  "status": "proved",
  "note": "C45_near_optimal (share min(1 - k_hard, 0.47) for all symmetric models), C112_success (explicit number of iterations on positive definite models), C112_success_moderate_gradient and C112_default_options (maxiter = 200), C112_total_correctness (both together). Exact arithmetic; LAPACK by its contract GqSpec, which is met (gqSpec_exists). C123 extends the total correctness to all Hessians."
 },
 "C113": {
  "status": "proved",
  "note": "C113_units_of_the_criterion for arbitrary components that respect the units (two runs are compared by a simulation through every part of the loop, exceptions included); C113_builtin_components and C113_same_answer for the built in components without noise, with the contract of np.linalg.lstsq; C113_exact_solvers shows that solvers that find a minimizer qualify. The exceptions named in the statement are needed: C113_violated_relative_tolerances (whole runs), C113_violated_infinite_values, C113_violated_small_improvements (decider noisy), C113_violated_singular_value_estimate (gqtpar)."
 },
 "C114": {
  "status": "proved",
  "note": "C114_origin_and_unit_of_parameters for arbitrary components that do not depend on the place (simulation of two runs, exceptions included); C114_builtin_components and C114_same_answer for the built in components with and without noise; C114_origin_without_bounds for all deciders; C114_subsolvers shows that gqtpar and the fallback solvers only see the unit region. The exceptions named in the statement are needed: C114_violated_relative_tolerance (whole runs), C114_violated_default_radius, C114_violated_border, C114_violated_small_unit."
 },
 "C115": {
  "status": "proved",
  "note": "C115_longer_run_begins_with_shorter for arbitrary components (exceptions included), C115_ended_run_is_not_changed for higher limits, C115_longer_run_is_not_worse for deterministic criteria and filters that select points; C115_call_that_may_run_longer for calls, including the processing of the arguments, with finite tolerances."
 },
 "C116": {
  "status": "proved",
  "note": "C116_criterion_value (sums of XVal, also infinite and NaN), C116_order_of_residuals (whole runs with the built in components, any fitter, aggregator, filter, sampler, solver, exceptions included), C116_call (including the processing of the arguments). np.linalg.lstsq is called once per column in the model; that a column of the solution only depends on its column of the right hand side is part of its contract. Noisy runs are excluded: the draws of multivariate_normal are assigned to residuals by position. Exact arithmetic: floating point sums depend on the order."
 },
 "C117": {
  "status": "proved",
  "note": "C117_iterations_with_a_promise for arbitrary components (the bound is (p + 1) * k + q: k successful steps use up the distance to the lower bound, p reductions undo an expansion, q reductions lead from the start radius to the least radius). C117_flat_model and C117_small_gradient for the built in components without bounds; C117_default_solver shows that gqtpar meets the condition on the solver when it reports success. The accuracy of the models is a hypothesis on the run: the code has no criticality step that would improve a model with a misleadingly small gradient, so the theorem says that a flat model or a small gradient is reached, not that the last iterate is stationary."
 },
 "C118": {
  "status": "proved",
  "note": "C118_run_uses_the_arguments. The names and defaults are repeated in Spec/CallUses from options.py; the tables of the model are not used. Values that are not numbers where the loop expects numbers (for instance a float min_n_evals in a NamedTuple) are outside of what tranquiloCall models, the theorem is about calls that return a run. Components that are functions of the user are covered by C57 (what they receive), not here. The default of hardness is the integer 1, so a user's hardness=0.5 is converted to 0; StoredAs says so."
 },
 "C119": {
  "status": "proved",
  "note": "C119_exceptions_come_early for all arguments, C119_call_with_options_returns for calls with option bundles whose entries have known names and values of the right kind (OptionKind). StaysInBall is needed if there are bounds (C40, C68). Sane values: Spec/SaneCall; that violations lead to late exceptions is shown by the witnesses of C68, C70, C98."
 },
 "C120": {
  "status": "partial",
  "note": "C120_model_error for every number of parameters. C120_small_gradient (sums, identity) and C120_least_squares turn it into a bound on the length of runs: accuracy of the models, a hypothesis of C117, follows from poisedness of the model points and smoothness. C120_one_parameter removes the hypothesis on the points for one parameter (two points per model, filter discard_all, hull sampler). Missing: C120_poisedness_constant_partial needs at most two parameters, because from three on get_poisedness_constant does not return the constant (C55). The code does not measure poisedness during a run, so for more than one parameter it is a hypothesis on the run. Fits with fewer points than coefficients (minimum norm solutions) are not covered."
 },
 "C121": {
  "status": "proved",
  "note": "C121_order_of_parameters for arbitrary components that treat the parameters alike (simulation of two runs, exceptions included); C121_builtin_components and C121_same_answer for the built in components with and without noise, with the contract of np.linalg.lstsq. C121_call for calls, including the processing of the arguments, with built in components other than the powell fitter. C121_bntr and C121_bntr_subsolver for bntr_fast with conjugate gradients, C121_fallback_subsolvers under an assumption on scipy. gqtpar is not covered: its failed factorizations and its estimate of the smallest singular value go through the parameters one by one, so its result depends on the order within its tolerances. C121_violated_same_seed: with a fixed seed the draws stay in place. Exact arithmetic: floating point sums depend on the order."
 },
 "C122": {
  "status": "proved",
  "note": "C122_same_evaluations_same_run for whole calls (the environment Externals.withCriterion takes function values, vectors of evaluations and their averages from one criterion); C122_nothing_known_elsewhere and C122_no_certificate are the consequence for points that were not evaluated. Calls that raise are not covered: the model does not keep the history of a call that raises."
 },
 "C123": {
  "status": "proved",
  "note": "C123_total_correctness (all symmetric Hessians, compiled version), C123_numpy_version (under the contracts of C73). Over the reals, exact arithmetic; LAPACK by its contract GqSpec. The number of iterations is not explicit here; C112 has an explicit one for positive definite models."
 },
 "C124": {
  "status": "partial",
  "note": "False of the code. C124_violated_zero_gradient: for every Hessian that is not positive definite the result is the start vector without success or a point of norm two; C124_violated_flat: no success for any limit on singular convex models; C124_violated_diagonal: no success for any limit on diagonal models with a curvature that is not positive, so saddle points and maxima are not left. Proved: positive definite Hessians (C124_positive_definite_partial)."
 },
 "C125": {
  "status": "proved",
  "note": "For all lists of traces (C125_legend, C125_names_once, C125_name_shown). A name whose first trace is hidden is not listed at all, also if a later trace with that name is to be listed."
 },
 "C126": {
  "status": "proved",
  "note": "C126_check describes the check, C126_move and C126_fit the fitted models, C126_aggregate the aggregated ones and C126_states whole runs."
 },
 "C127": {
  "status": "partial",
  "note": "C127_without_bounds for arbitrary components without a preferred direction (simulation of two runs, exceptions included); C127_with_bounds for boxes without fixed parameters and components that do not raise, without line search. C127_builtin_without_bounds and C127_same_answer_with_bounds for the built in components with the contract of np.linalg.lstsq; C127_call for calls without bounds, including the processing of the arguments. C127_conjugate_gradients and C127_fallback_subsolvers for the subsolvers (the latter under an assumption on scipy), C127_default_radius. Partial because the property is false of the default subsolvers: C127_violated_bntr (the convergence test of bntr treats lower and upper bounds differently), C127_violated_stationary (a solver that leaves a stationary point has a preferred direction), C127_violated_same_seed (with a fixed seed the draws are not mirrored). Not covered: gqtpar (its estimate of the smallest singular value breaks ties by a sign), powell fitter, calls with bounds, fixed parameters. Exact arithmetic."
 },
 "C128": {
  "status": "proved",
  "note": "C128_geometry_of_residuals for the built in components and C128_call for calls including the processing of the arguments; C128_criterion_value and C128_likelihood_value: the recorded values are the same. C128_signs, C128_added_zeros, C128_split, C128_rotation: the special cases of the statement have orthonormal columns. Assumed: np.linalg.lstsq returns the shortest least squares solution (LstsqSpec), at least one residual, exact arithmetic. C128_violated_undefined shows why the residuals must be finite."
 },
 "C129": {
  "status": "partial",
  "note": "C129_without_bounds_partial for arbitrary components, C129_builtin_partial and C129_same_answer_partial for the built in components. Missing: that gqtpar does not depend on the axes (its first guess for the multiplier does, so it can only hold up to tolerances); this is an assumption. C129_conjugate_gradients: conjugate gradients meet it; C129_exact_subsolver: so does every exact solver where the minimizer is unique. False with the defaults: C129_violated_default_radius, C129_violated_relative_tolerance, C129_violated_quadratic. Assumed: LstsqSpec, exact arithmetic. With bounds that no region reaches, before and after the rotation, the same holds (C129_far_bounds_partial, C129_builtin_far_bounds_partial)."
 },
 "C130": {
  "status": "partial",
  "note": "C130_stays_at_the_minimum and C130_region_shrinks hold (C130_builtin: for all runs with built-in components and safe settings, without further hypotheses on the components); the recognition of the minimum is false: C130_violated_required_improvement (for all runs with a positive required improvement) and C130_violated_rejected_steps (defaults, criterion |x|). What is true of it: C130_convergence_needs_the_start_again_partial. Exact arithmetic."
 },
 "C131": {
  "status": "partial",
  "note": "True with a given batch size (C131_cores_do_not_matter_partial), false without (C131_violated_cores_alone); C131_default_batch_size says exactly how the cores act then, C131_too_many_cores which calls raise, C131_requests the same for single requests with a batch evaluator whose results do not depend on the number of workers."
 },
 "C132": {
  "status": "proved",
  "note": "C132_far_bounds for all components that see bounds only through the shape of the region (builtin_seesBalls: the built-in ones do), C132_call and C132_unreached_bounds for whole calls, C132_points_are_not_enough for the last sentence. Exact arithmetic."
 },
 "C133": {
  "status": "partial",
  "note": "C133_call_partial for all calls (C133_every_point_once_partial for runs with any components): every stored point is evaluated exactly once, in the order of the points. False for vectors (C133_violated_same_vector): the candidate of the subsolver can be a vector that was sampled before; it is stored and evaluated a second time. Missing: that the stored vectors are different, which the code does not ensure."
 },
 "C134": {
  "status": "partial",
  "note": "C134_states_describe_iterations_partial for runs with any components, C134_call_partial for whole calls: all documented relations except the one for the candidate, for every pair of consecutive states; the candidate is the solution of the subproblem if there is no line search (or batch size one) and its value is finite. The remaining sentence is false of the code: C134_violated_by_line_search (the best point on the line is stored) and C134_violated_by_failed_evaluation (the current point is stored, with rho minus infinity). The index fields are C67, indices that refer to stored points C62. C134_states_report_evaluations and C134_call_reports_evaluations: the reported number of evaluations of the acceptance step, for all deciders."
 },
 "C135": {
  "status": "proved",
  "note": "C135_evaluations_stay_near and C135_distance_from_start for any components that stay within q radii; C135_builtin_run for the built in components (contracts: Euclidean norm, random numbers, solvers for balls that leave the ball at most by the factor q, and only if there are no bounds); C135_call for whole calls, where the largest radius is the larger of the initial radius and max_radius. C135_bounds_are_attained: a run that reaches the sum of the radii, and a line search that goes eight radii away."
 },
 "C136": {
  "status": "proved",
  "note": "C136_states_report_the_steps and C136_accepted_iff for runs with any components; C136_call for whole calls, where min_improvement is the option that the user passed. C136_noisy_decider_needs_evaluations: with n_max = 0 the noisy decider never evaluates the proposal and rejects an improving step. The subproblem is the one for the stored model on the stored trust region."
 },
 "C137": {
  "status": "partial",
  "note": "False as stated: C137_violated_by_samples (a point sampled for the model has the value 0, the result the value 1) and C137_violated_default_call (a call with default options). C137_better_points_are_samples_partial for runs with any components and C137_call_partial for whole calls: a point of the history that is better than the result by more than min_improvement was returned by the sampler for the trust region of an iteration."
 },
 "C138": {
  "status": "proved",
  "note": "C138_first_criterion_ends_the_run for runs with any components that select points, C138_call for whole calls with arbitrary arguments. The converse (messages are truthful) is C65. Steps that are not accepted are not checked by the code, and the claim does not say more."
 },
 "C139": {
  "status": "proved",
  "note": "C139_accepted_steps for runs with any components that select points, C139_call for whole calls with a positive batch size and a named acceptance decider. Uses C138 (no criterion is overlooked) and C61 (never worse). Rejected steps are limited by the radius, see C21 and C117."
 }
}