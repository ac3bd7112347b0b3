{"id": "C01", "title": "Stored parameter vectors are never lost or overwritten", "statement": "If add_xs returned index i for a vector x, then after any further sequence of add_xs / add_evals calls (including ones that raise) get_xs(i) still returns x; add_xs returns the next consecutive indices, in the order of the rows.", "quantifier": "all finite sequences of History operations with any batch sizes, in particular those that cross buffer growth", "why_tests_cant": "The buffers are over-allocated and grown by a data dependent rule; a test only reaches a few sizes and interleavings.", "anchors": ["src/tranquilo/history.py: History.add_xs, History.get_xs, _add_entries_to_array"]}
{"id": "C02", "title": "Every evaluation can be read back at the point it belongs to", "statement": "After any sequence of successful operations get_fvecs(i) returns exactly the evaluations submitted for index i, in submission order, whatever was submitted for other points in between and however often the buffer grew.", "quantifier": "all finite operation sequences, all indices, all batch sizes", "why_tests_cant": "Depends on the interplay of buffer growth, n_fun and the index mapper over an unbounded history.", "anchors": ["src/tranquilo/history.py: History.add_evals, History.get_fvecs, _extract_from_indices, _add_entries_to_array"]}
{"id": "C03", "title": "Scalar function values agree with the stored vectors", "statement": "get_fvals(i) is entry by entry the aggregate (value / sum / sum of squares, depending on functype) of get_fvecs(i).", "quantifier": "all functypes, all operation sequences, all points", "why_tests_cant": "fvecs and fvals live in two separately grown buffers that could drift apart after any number of operations.", "anchors": ["src/tranquilo/history.py: History.__init__, History.add_evals, History.get_fvals"]}
{"id": "C04", "title": "Evaluation counters are exact", "statement": "get_n_fun equals the number of submitted evaluations and equals the sum of get_n_evals over all points; get_n_xs equals the number of vectors added.", "quantifier": "all finite operation sequences", "why_tests_cant": "A counter identity over histories of any length; tests compare counters after a handful of operations.", "anchors": ["src/tranquilo/history.py: get_n_fun, get_n_xs, get_n_evals, add_xs, add_evals"]}
{"id": "C05", "title": "Region queries are exact", "statement": "get_x_indices_in_region returns, in ascending order and without repetition, exactly the indices of stored vectors whose euclidean distance to the center is at most the radius; before the first evaluation it returns nothing.", "quantifier": "all histories, all centers and radii", "why_tests_cant": "Quantifies over all point sets and regions including the closed boundary.", "anchors": ["src/tranquilo/history.py: get_x_indices_in_region"]}
{"id": "C06", "title": "A rejected add_evals leaves the history unchanged", "statement": "When add_evals raises (unknown index, wrong number of evaluations) all later reads give the same answers as if the call had not been made.", "quantifier": "all histories, all index lists and evaluation lists for which the call raises", "why_tests_cant": "Requires every failure point of the call, including those in the middle of the mapper update.", "anchors": ["src/tranquilo/history.py: History.add_evals"]}
{"id": "C07", "title": "Model data lines up row by row", "statement": "get_model_data(indices, average=True) returns xs and fvecs of the same length whose k-th rows are the vector with the k-th index and the mean of its evaluations; with average=False row k of xs is the vector at which row k of fvecs was evaluated.", "quantifier": "all histories, all index lists", "why_tests_cant": "A row mismatch needs a particular pattern of repeated or unequally evaluated indices.", "anchors": ["src/tranquilo/history.py: get_model_data, get_xs, get_fvecs"]}
{"id": "C08", "title": "Evaluation requests are carried out exactly", "statement": "A call of the wrapped criterion with a dict index -> count evaluates the user's function exactly count times at each requested point, and at no other, and appends the results to the history of exactly those points.", "quantifier": "all dicts of requests, all histories, all (possibly failing) criteria", "why_tests_cant": "Any mix of counts and indices, and results of any kind.", "anchors": ["src/tranquilo/wrap_criterion.py: get_wrapped_criterion", "src/tranquilo/history.py: add_evals"]}
{"id": "C09", "title": "A failing criterion never stops the optimization", "statement": "Exceptions raised by the user's function are recorded as +inf, NaN results are recorded as +inf, other values (also infinite ones) are recorded unchanged; the recorded values never contain NaN.", "quantifier": "all criteria, functypes and batches of results, with failures in any positions", "why_tests_cant": "Failure positions inside a batch are combinatorial.", "anchors": ["src/tranquilo/wrap_criterion.py: get_wrapped_criterion"]}
{"id": "C10", "title": "Parallel evaluation does not change what is recorded", "statement": "The recorded evaluations depend only on the criterion and the request, not on the number of cores or on the order in which workers finish; never more workers than tasks are requested, and at least one if there is a task.", "quantifier": "all core counts, all completion orders", "why_tests_cant": "Schedules cannot be enumerated by tests.", "anchors": ["src/tranquilo/wrap_criterion.py: get_wrapped_criterion"]}
{"id": "C11", "title": "Accepted means improved (deterministic criteria)", "statement": "With the classic decider (and with the line search decider) a step is marked accepted iff the new point's finite function value is lower than the current one by at least min_improvement; with the default options the accepted value never exceeds the current one.", "quantifier": "all states, candidates, and criteria including infinite values", "why_tests_cant": "Covers all value combinations including +-inf.", "anchors": ["src/tranquilo/acceptance_decision.py: _accept_classic, _accept_simple, accept_classic_line_search, _get_acceptance_result"]}
{"id": "C12", "title": "A rejected step changes nothing, and step lengths are what they say", "statement": "If a step is rejected then the point, its history index and its function value after the step are the ones before, and the step length is 0. In every decision the reported step length is the distance between the points before and after it, and the relative step length is the ratio of the step length to the radius.", "quantifier": "all deciders, states and candidates", "why_tests_cant": "Each decider has several branches that build the result separately; tests see one branch and a few values each, not every combination of border, noise and infinite values.", "anchors": ["src/tranquilo/acceptance_decision.py: _get_acceptance_result and all deciders"]}
{"id": "C13", "title": "Points with non-finite values are never accepted", "statement": "No decider ever accepts a point whose recorded (mean) value is infinite; the reported rho is then -inf so that the region shrinks.", "quantifier": "all deciders, states and candidate values", "why_tests_cant": "Needs the interaction of infinities with comparisons in each branch.", "anchors": ["src/tranquilo/acceptance_decision.py: _accept_simple, accept_noisy, accept_classic_line_search"]}
{"id": "C14", "title": "Sign and thresholds of rho", "statement": "For a nonnegative expected improvement, rho > 0 iff the actual improvement is positive, rho >= t (t>0) iff actual >= t * expected and not both are zero, and a step with zero expected improvement is never classified between the finite thresholds. In general, also for infinite actual improvements, rho > 0 iff the actual improvement is positive and the expected one is not negative, or both are negative.", "quantifier": "all improvements and thresholds", "why_tests_cant": "Continuum of inputs, division by zero special cases.", "anchors": ["src/tranquilo/acceptance_decision.py: calculate_rho"]}
{"id": "C15", "title": "The line search takes the best point it has paid for", "statement": "The line search decider with batch_size b > 1 performs exactly b evaluations, all at distinct new indices, and if it accepts then the accepted value is the minimum over all points it evaluated.", "quantifier": "all batch sizes, candidates on or off the border, all samplers returning the requested number of points, all criteria", "why_tests_cant": "Combinatorics of batch size, border and failing evaluations.", "anchors": ["src/tranquilo/acceptance_decision.py: accept_classic_line_search, _generate_alpha_grid, _sample_on_line, _generate_speculative_sample"]}
{"id": "C16", "title": "Line search points respect the parameter bounds", "statement": "Every point the line search decider evaluates satisfies the user's lower and upper bounds.", "quantifier": "all regions, bounds and candidates", "why_tests_cant": "Bounds may be violated only for special candidate positions.", "anchors": ["src/tranquilo/acceptance_decision.py: _sample_on_line, _generate_alpha_grid, accept_classic_line_search"]}
{"id": "C17", "title": "Noisy acceptance never makes the reported value worse than the refreshed value", "statement": "In noisy mode the accepted mean is at least min_improvement better than the refreshed mean of the current point, and the value reported after a step is the mean of all evaluations at the reported point.", "quantifier": "all states, evaluation results and sample sizes", "why_tests_cant": "Refreshing the current point while keeping the old value needs particular random draws.", "anchors": ["src/tranquilo/acceptance_decision.py: accept_noisy"]}
{"id": "C18", "title": "Noisy acceptance test has the requested power", "statement": "Unless cut off by n_max, the evaluation numbers chosen for the acceptance test make the standard error of the difference of means small enough for the requested power, that is var/(n1+existing) + var/n2 <= (effect / (z_conf + z_power))^2.", "quantifier": "all noise variances, existing evaluation numbers, improvements, quantiles and limits", "why_tests_cant": "A continuum of inputs with two branches and two roundings.", "anchors": ["src/tranquilo/acceptance_sample_size.py: get_acceptance_sample_sizes, _get_optimal_sample_sizes, _compute_factor"]}
{"id": "C19", "title": "Acceptance sample sizes respect the limits", "statement": "The number of candidate evaluations is between n_min and n_max and the current point never gets more than n_max evaluations in total through this mechanism (existing ones permitting).", "quantifier": "all inputs including infinite factors and zero noise", "why_tests_cant": "Continuum of inputs plus rounding.", "anchors": ["src/tranquilo/acceptance_sample_size.py: get_acceptance_sample_sizes"]}
{"id": "C20", "title": "The trust region radius stays within its limits", "statement": "After every iteration min_radius <= radius <= max_radius.", "quantifier": "all option values with min<=max, all sequences of rhos and step lengths", "why_tests_cant": "Any number of iterations and any real values.", "anchors": ["src/tranquilo/adjust_radius.py: adjust_radius", "src/tranquilo/tranquilo.py: _internal_tranquilo"]}
{"id": "C21", "title": "Radius moves in the right direction", "statement": "The radius is never enlarged after a step with rho below rho_increase or a small step; it is never reduced by the rho rule when rho >= rho_decrease or when the number of evaluations was just increased; after enough unsuccessful iterations in a row it is at min_radius.", "quantifier": "all radii, options and iteration sequences", "why_tests_cant": "Sequences of arbitrary length.", "anchors": ["src/tranquilo/adjust_radius.py: adjust_radius"]}
{"id": "C22", "title": "Number of evaluations per point stays within its limits", "statement": "In noisy mode the number of evaluations per point stays between min_n_evals and max_n_evals, changes by at most one per iteration and is reported as increased exactly if it grew.", "quantifier": "all sequences of simulated rhos and options", "why_tests_cant": "Unbounded sequences; options where the start value lies outside of the limits.", "anchors": ["src/tranquilo/adjust_n_evals.py: adjust_n_evals", "src/tranquilo/process_arguments.py: _process_n_evals_per_point"]}
{"id": "C23", "title": "Filtering drops exactly what it should", "statement": "drop_worst_points removes exactly n_to_drop points, keeps the order and the pairing of points and indices, and removes points outside of the trust region first.", "quantifier": "all point sets, all numbers to drop up to the number of points", "why_tests_cant": "All geometric configurations, ties included.", "anchors": ["src/tranquilo/filter_points.py: drop_worst_points"]}
{"id": "C24", "title": "The current point survives filtering", "statement": "The trust region center is kept by the filters drop_excess, keep_all, discard_all and by drop_worst_points whenever at least one point remains.", "quantifier": "all point sets containing the center, all limits", "why_tests_cant": "All geometric configurations, ties (duplicate points) included.", "anchors": ["src/tranquilo/filter_points.py: discard_all, keep_all, drop_excess, drop_worst_points, keep_cluster_centers"]}
{"id": "C25", "title": "drop_excess bounds the model size", "statement": "After drop_excess at most floor(target_size * n_max_factor) points remain, and nothing is dropped if there were not more.", "quantifier": "all point sets and targets", "why_tests_cant": "The bound has to hold for every number of points, target and factor, with rounding; tests use a few sizes.", "anchors": ["src/tranquilo/filter_points.py: drop_excess"]}
{"id": "C26", "title": "Clustering covers all points with separated centers", "statement": "cluster assigns every point to exactly one cluster whose center is within epsilon of it, the centers are themselves members of their cluster, centers are further than epsilon apart, and the procedure terminates.", "quantifier": "all finite point sets and epsilons >= 0", "why_tests_cant": "All geometric configurations and sizes; termination.", "anchors": ["src/tranquilo/clustering.py: cluster, _cluster"]}
{"id": "C27", "title": "A spherical trust region never touches the bounds", "statement": "Whenever a region has shape 'sphere' the whole closed ball satisfies the user's bounds strictly; whenever it has shape 'cube', some bound is within the radius of the center.", "quantifier": "all centers, radii, bounds with any mixture of finite and infinite entries and any dimension", "why_tests_cant": "All dimensions and bound patterns, including missing lower or upper bounds.", "anchors": ["src/tranquilo/region.py: _get_shape, _any_bounds_binding", "src/tranquilo/bounds.py: Bounds, _any_finite"]}
{"id": "C28", "title": "A cubic trust region lies inside the bounds", "statement": "Every point returned by map_from_unit of a cube shaped region satisfies the bounds and lies in the cube; if the center satisfies the bounds then it is a point of the cube.", "quantifier": "all regions, all unit points (also outside of the unit cube)", "why_tests_cant": "Clipping, recentering and rescaling interact differently for every pattern of active bounds; tests use a few patterns in two or three dimensions.", "anchors": ["src/tranquilo/region.py: Region.map_from_unit, _create_cube_bounds, _map_from_unit_cube"]}
{"id": "C29", "title": "Unit space mapping is a bijection", "statement": "map_from_unit(map_to_unit(x)) = x for all points of the region and map_to_unit(map_from_unit(u)) = u for all u in the unit ball / cube; the region is mapped onto the unit ball / cube.", "quantifier": "all regions with positive radius and non-degenerate cube, all points", "why_tests_cant": "Continuum of regions and points.", "anchors": ["src/tranquilo/region.py: map_to_unit, map_from_unit and helpers"]}
{"id": "C30", "title": "Cube and ball have the same volume", "statement": "The cube that replaces a ball near the bounds has, before clipping at the bounds, the same volume as the ball; radius and volume functions are inverse to each other.", "quantifier": "all dimensions and radii", "why_tests_cant": "The formula involves the Gamma function and the dimension; tests can only compare floating point numbers for some dimensions.", "anchors": ["src/tranquilo/volume.py", "src/tranquilo/region.py: _get_cube_bounds"]}
{"id": "C31", "title": "Moving a surrogate model to another region does not change its predictions", "statement": "For every x, the moved model evaluated at the unit coordinates of x in the new region predicts the same value as the original model at the unit coordinates of x in the old region.", "quantifier": "all quadratic models, all pairs of regions (spheres and cubes), all points", "why_tests_cant": "Continuum of models and regions; error only shows for cubes with unequal edges and nonzero interactions.", "anchors": ["src/tranquilo/models.py: move_model, _scale_model, _shift_scalar_model, _shift_vector_model"]}
{"id": "C32", "title": "Adding models adds predictions", "statement": "add_models(m1, m2) predicts the sum of both predictions at every point, and rejects models of different type, shift or scale.", "quantifier": "all models and points", "why_tests_cant": "A continuum of models and all None/array combinations of second order terms.", "anchors": ["src/tranquilo/models.py: add_models, _predict_scalar, _predict_vector"]}
{"id": "C33", "title": "The fitted coefficients are used consistently", "statement": "The model assembled from a coefficient vector predicts exactly the inner product of the coefficients with the features used for fitting (linear and quadratic), and its second order terms are symmetric.", "quantifier": "all dimensions, coefficients and points", "why_tests_cant": "Ordering of triangular terms must agree for every dimension.", "anchors": ["src/tranquilo/fit_models.py: _build_feature_matrix, _quadratic_features, _reshape_square_terms_to_hess, _fitter_template", "src/tranquilo/models.py: _predict_vector"]}
{"id": "C34", "title": "Least squares fits minimize the stated objective", "statement": "fit_ols returns coefficients minimizing the (weighted) sum of squared prediction errors; fit_tranquilo minimizes the same sum over all coefficient vectors (scaling does not change the set of minimizers) and among the minimizers the penalty weighted norm; fit_ridge minimizes squared errors plus penalties.", "quantifier": "all samples, responses, weights and penalties", "why_tests_cant": "Optimality is a comparison with a continuum of other coefficient vectors, for all data including rank deficient samples.", "anchors": ["src/tranquilo/fit_models.py: fit_ols, fit_tranquilo, fit_ridge, _fit_ridge, _add_weighting"]}
{"id": "C35", "title": "Models interpolate when they can", "statement": "If some model of the requested type fits all data exactly then the fitted model (ols, tranquilo, with or without residualizing against an old model) reproduces the data at all sample points.", "quantifier": "all samples and responses", "why_tests_cant": "Interpolation has to hold for every sample that can be interpolated, with all combinations of residualizing and model type.", "anchors": ["src/tranquilo/fit_models.py: _fitter_template, fit_ols, fit_tranquilo"]}
{"id": "C36", "title": "Number of parameters is the number of features", "statement": "n_free_params equals the number of columns of the feature matrix for every dimension and model type; unknown model types raise ValueError.", "quantifier": "all dimensions", "why_tests_cant": "An identity between a closed formula and an enumeration for every dimension; tests check some dimensions.", "anchors": ["src/tranquilo/models.py: n_free_params, n_second_order_terms, n_interactions", "src/tranquilo/fit_models.py: _build_feature_matrix"]}
{"id": "C37", "title": "Aggregated models predict the aggregated criterion", "statement": "For every x the aggregated model predicts: the residual model (scalar), the sum (likelihood, quadratic), the sum of squared predictions (least squares); the least squares model is convex.", "quantifier": "all vector models, all dimensions, all points", "why_tests_cant": "Equality of two functions on a continuum, for all residual models and dimensions.", "anchors": ["src/tranquilo/aggregate_models.py"]}
{"id": "C38", "title": "Infinite values are replaced by bad but finite values", "statement": "Before fitting, finite entries are unchanged, all entries become finite, +inf/NaN become worse (larger) than every finite entry of the column and -inf smaller.", "quantifier": "all matrices with arbitrary positions of infinite entries", "why_tests_cant": "Positions and equal values (all finite entries equal, a single finite entry, none) are easily missed.", "anchors": ["src/tranquilo/handle_infinity.py: clip_relative"]}
{"id": "C39", "title": "Expected improvement is never negative and always honest", "statement": "solve_subproblem returns expected_improvement >= 0, and it equals the model's predicted decrease from the center to the returned point (also when clipped, when the solver failed and when the fallback was used).", "quantifier": "all models, regions and (possibly failing) solvers", "why_tests_cant": "A solver may return anything, also infeasible points or an exception; tests see the results of the built in solvers on a few models.", "anchors": ["src/tranquilo/solve_subproblem.py: _solve_subproblem_template"]}
{"id": "C40", "title": "The candidate stays inside the trust region and the bounds", "statement": "The point returned by solve_subproblem lies in the trust region and satisfies the parameter bounds.", "quantifier": "all models and regions, all built in solvers and options", "why_tests_cant": "Solver tolerances allow overshoot only in special cases.", "anchors": ["src/tranquilo/solve_subproblem.py: _solve_subproblem_template", "src/tranquilo/subsolvers/gqtpar_fast.py"]}
{"id": "C41", "title": "Exceptions in a subsolver are recovered", "statement": "With retry_subproblem_with_fallback=True an exception in the selected solver leads to the fallback solver's answer, with False the exception reaches the caller; nothing else raises.", "quantifier": "all solvers and exceptions", "why_tests_cant": "The exception may come from any solver on any model; tests provoke a few.", "anchors": ["src/tranquilo/solve_subproblem.py: _solve_subproblem_template"]}
{"id": "C42", "title": "Truncated conjugate gradient stays in the region and never increases the model", "statement": "minimize_trust_cg returns a step of norm at most the radius with model value at most 0 after at most 2n iterations.", "quantifier": "all gradients, symmetric Hessians (also indefinite), radii, dimensions", "why_tests_cant": "Iterative algorithm on a continuum of inputs.", "anchors": ["src/tranquilo/subsolvers/_conjugate_gradient.py", "src/tranquilo/subsolvers/_conjugate_gradient_fast.py"]}
{"id": "C43", "title": "Steihaug-Toint stays in the region", "statement": "minimize_trust_stcg returns a step of norm at most the radius.", "quantifier": "all gradients, symmetric Hessians, radii", "why_tests_cant": "Iterative algorithm, indefinite Hessians.", "anchors": ["src/tranquilo/subsolvers/_steihaug_toint.py"]}
{"id": "C44", "title": "gqtpar brackets the Lagrange multiplier", "statement": "Starting from the Gershgorin based bounds, 0 <= lower <= candidate <= upper holds for the initial damping factor, and the update rule returns a factor inside the bracket it is given.", "quantifier": "all gradients and symmetric Hessians", "why_tests_cant": "An inequality between quantities computed in different ways for a continuum of gradients and Hessians.", "anchors": ["src/tranquilo/subsolvers/gqtpar_fast.py: _get_initial_guess_for_lambdas, _get_new_lambda_candidate, _compute_gershgorin_bounds"]}
{"id": "C45", "title": "gqtpar solutions are global minimizers", "statement": "A point x and a factor lambda >= 0 with (H + lambda I) x = -g, H + lambda I positive semidefinite and lambda(1-|x|) = 0 is a global minimizer of the model on the unit ball; in particular when gqtpar stops with lambda = 0 inside the ball the result is a global minimizer of the model, and boundary steps have norm exactly one.", "quantifier": "all models", "why_tests_cant": "Global optimality is a comparison with a continuum of points, for a continuum of models.", "anchors": ["src/tranquilo/subsolvers/gqtpar_fast.py: _find_new_candidate_and_update_parameters, _compute_smallest_step_len_for_candidate_vector"]}
{"id": "C46", "title": "bntr iterates stay within the bounds", "statement": "The vector returned by bntr satisfies the bounds it was given if the start vector does.", "quantifier": "all models, bounds, options, numbers of iterations, conjugate gradient methods", "why_tests_cant": "An invariant of an iteration of any length with several kinds of steps.", "anchors": ["src/tranquilo/subsolvers/bntr.py", "src/tranquilo/subsolvers/bntr_fast.py: _apply_bounds_to_x_candidate"]}
{"id": "C47", "title": "bntr terminates", "statement": "The inner loop of bntr, which has no iteration limit, terminates: each rejected trial step reduces the radius until the minimal radius is reached and then the solver stops.", "quantifier": "all models and bounds, all results of the inner solver", "why_tests_cant": "Termination of a loop without an iteration limit cannot be observed by tests.", "anchors": ["src/tranquilo/subsolvers/bntr.py: bntr, _update_trustregion_radius_conjugate_gradient"]}
{"id": "C48", "title": "bntr never accepts a worse point", "statement": "Each accepted step of bntr decreases the model value.", "quantifier": "all models and bounds", "why_tests_cant": "Only wrong for steps whose predicted and actual reductions lie in a special range that tests hardly hit.", "anchors": ["src/tranquilo/subsolvers/bntr.py: _update_trustregion_radius_conjugate_gradient"]}
{"id": "C49", "title": "bntr's convergence measure vanishes exactly at stationary points", "statement": "The Fischer-Burmeister direction is zero iff the point satisfies the bounds and the first order conditions of the bound constrained problem.", "quantifier": "all points, gradients and bounds lower < upper or lower = upper", "why_tests_cant": "An equivalence between a number being zero and a system of conditions, on a continuum of inputs.", "anchors": ["src/tranquilo/subsolvers/bntr.py: _get_fischer_burmeister_direction_vector, _get_fischer_burmeister_scalar"]}
{"id": "C50", "title": "Active set classification is a partition", "statement": "Each parameter is classified as exactly one of active at lower bound, active at upper bound, fixed, or free, and free parameters can move in the descent direction.", "quantifier": "all points in the bounds and gradients", "why_tests_cant": "All combinations of positions and gradient signs.", "anchors": ["src/tranquilo/subsolvers/bntr.py: _get_information_on_active_bounds", "src/tranquilo/subsolvers/bntr_fast.py"]}
{"id": "C51", "title": "The linear trsbox solver respects region and bounds and does not crash", "statement": "minimize_trsbox_linear returns a point with lower <= x <= upper and norm at most the radius with g'x <= 0 for every input.", "quantifier": "all gradients, bounds containing zero, radii, dimensions", "why_tests_cant": "Iterative algorithm over all activation orders.", "anchors": ["src/tranquilo/subsolvers/linear_subsolvers.py: minimize_trsbox_linear and helpers"]}
{"id": "C52", "title": "Fallback solvers are feasible", "statement": "The fallback sphere solvers return points in the unit ball (inscribed cube, reparametrized; with the norm constraint up to the tolerance of the inner optimizer, if this reports success), the fallback cube solver returns a point of the unit cube, and the multistart cube solver returns the best of its runs. The inner optimizers get the prediction of the model as criterion and the derivatives that belong to it.", "quantifier": "all dimensions and all results of the inner optimizer that respect its own bounds", "why_tests_cant": "The result of the inner optimizer is arbitrary within its bounds, and the inscribed cube depends on the dimension; tests see a few results in a few dimensions.", "anchors": ["src/tranquilo/subsolvers/fallback_subsolvers.py"]}
{"id": "C53", "title": "Sampled points lie in the feasible region", "statement": "All built in samplers return exactly n_points points, all in the trust region and within the bounds (on its hull for hull samplers); none for n_points <= 0.", "quantifier": "all regions, random draws (nonzero), optimizer results", "why_tests_cant": "Random draws and optimizer results are arbitrary.", "anchors": ["src/tranquilo/sample_points.py"]}
{"id": "C54", "title": "Optimal sampling is never worse than its starting sample", "statement": "The Fekete criterion (determinant) of the returned optimal_hull sample is at least that of the random start sample.", "quantifier": "all optimizer results and criteria", "why_tests_cant": "The result of the inner optimizer is arbitrary; tests only see the ones it happens to return.", "anchors": ["src/tranquilo/sample_points.py: _optimal_hull_sampler"]}
{"id": "C55", "title": "Lagrange polynomials are evaluated with the right coefficients", "statement": "The polynomial maximized by get_poisedness_constant is the Lagrange polynomial represented by the coefficient row, for every number of parameters.", "quantifier": "all dimensions, coefficients, points", "why_tests_cant": "Index order mismatch that only appears from three parameters on.", "anchors": ["src/tranquilo/poisedness.py: _scaled_polynomial_features, _reshape_coef_to_square_terms"]}
{"id": "C56", "title": "Component lookup", "statement": "Built in names give the registered function, unknown names raise ValueError, callables are used as they are, anything else raises TypeError.", "quantifier": "all names, dictionaries and objects", "why_tests_cant": "Every possible name and every kind of object can be passed; tests try a few.", "anchors": ["src/tranquilo/get_component.py: _get_function_and_name"]}
{"id": "C57", "title": "Components receive exactly the arguments they declare", "statement": "A processed component is called with: the arguments given at call time that are in its signature, otherwise the option value; options come from the user if given, else the default; arguments it does not declare are dropped and missing mandatory arguments are reported when the component is built.", "quantifier": "all signatures, options and call arguments", "why_tests_cant": "Combinatorics of signatures, options and arguments.", "anchors": ["src/tranquilo/get_component.py"]}
{"id": "C58", "title": "Option bundles are updated, not replaced", "statement": "update_option_bundle changes exactly the fields the user named, converts values to the type of the default, and raises ValueError for unknown fields.", "quantifier": "all bundles and user dicts", "why_tests_cant": "Any subset of the fields may be given by the user, with values of any type.", "anchors": ["src/tranquilo/options.py: update_option_bundle"]}
{"id": "C59", "title": "Argument validation and defaults are consistent", "statement": "process_arguments either raises a documented error or yields batch_size >= n_cores, n_evals_per_point >= 1, n_evals_at_start >= 1, positive search radius factor, a supported functype/model_type combination, and a fitter that can handle the default sample size.", "quantifier": "all argument combinations", "why_tests_cant": "The defaults of one argument depend on the values of others; the combinations are too many for tests.", "anchors": ["src/tranquilo/process_arguments.py", "src/tranquilo/options.py"]}
{"id": "C60", "title": "Batches are full", "statement": "next_multiple(n, base) is the smallest multiple of base that is at least n, so all rounds of new points are full batches and n_evals_at_start is rounded up to full batches. Observably: on a criterion without noise the number of evaluations is one for the start vector, plus one for the candidate of each iteration, plus a multiple of batch_size; with the line search and a batch size above one it is one plus a multiple of batch_size.", "quantifier": "All n and base >= 1; all runs and calls that return, all options, numbers of parameters and iterations.", "why_tests_cant": "An arithmetic statement about all integers.", "anchors": ["src/tranquilo/process_arguments.py: next_multiple", "src/tranquilo/tranquilo.py: _internal_tranquilo", "src/tranquilo/acceptance_decision.py: accept_classic_line_search"]}
{"id": "C61", "title": "The returned solution is the best accepted point and never worse than the start", "statement": "For deterministic criteria the reported criterion values of the iterations never increase and the returned value is their minimum; in particular it is at most the value at the start point.", "quantifier": "all criteria, samplers, fitters, solvers, options, numbers of iterations", "why_tests_cant": "All runs of an iterative algorithm with arbitrary components.", "anchors": ["src/tranquilo/tranquilo.py: _internal_tranquilo", "src/tranquilo/acceptance_decision.py"]}
{"id": "C62", "title": "The returned solution is consistent with the history", "statement": "solution_x is the vector stored in the history at the accepted index, solution_criterion is a value recorded there (deterministic case), in every state of the run candidate and accepted indices are valid and refer to candidate_x and x.", "quantifier": "all runs: all criteria, components, options and numbers of iterations", "why_tests_cant": "An invariant of runs of any length with arbitrary criteria and components; tests look at the end of a few runs.", "anchors": ["src/tranquilo/tranquilo.py: _internal_tranquilo, State"]}
{"id": "C63", "title": "Iteration and evaluation limits", "statement": "A run performs at most max_iter iterations, starts an iteration only if fewer than max_eval evaluations were used, and therefore uses at most max_eval - 1 evaluations plus those of one iteration.", "quantifier": "all runs and option values", "why_tests_cant": "The limits interact with the points that one iteration may evaluate, which depends on the whole run before; tests see a few runs.", "anchors": ["src/tranquilo/tranquilo.py: _internal_tranquilo"]}
{"id": "C64", "title": "The evaluation budget is a hard limit", "statement": "A run never uses more than stopping_max_criterion_evaluations evaluations and never more time than stopping_max_time.", "quantifier": "all runs and option values", "why_tests_cant": "Whether an iteration exceeds the budget depends on how many points it wants to evaluate, which depends on the run before.", "anchors": ["src/tranquilo/tranquilo.py: _internal_tranquilo", "src/tranquilo/options.py: StopOptions"]}
{"id": "C65", "title": "Termination messages are truthful", "statement": "The message names a convergence criterion only if this criterion holds between the last two states and the last step was accepted; the evaluation message only if the limit was reached; no message means the iteration limit was reached.", "quantifier": "all runs and tolerances", "why_tests_cant": "Messages are determined by the last two states of a run of any length; tests see the messages of a few runs.", "anchors": ["src/tranquilo/tranquilo.py: _is_converged, _internal_tranquilo"]}
{"id": "C66", "title": "Stagnation handling terminates and is bounded", "statement": "Dropping points to enlarge the step ends after at most len - target steps and never goes below the target size; replacing points ends after max_trials rounds with at most sample_increment evaluations batches each.", "quantifier": "all solver results", "why_tests_cant": "Loops depending on arbitrary solver results.", "anchors": ["src/tranquilo/tranquilo.py: _internal_tranquilo lines 177-270"]}
{"id": "C67", "title": "Model points are accounted for", "statement": "In every state the model's points split into new and old used ones, old points split into used and discarded ones, all are valid history indices with at least n_evals_per_point evaluations.", "quantifier": "all runs: all criteria, components, options and numbers of iterations", "why_tests_cant": "An invariant of the index sets over runs of any length with arbitrary components.", "anchors": ["src/tranquilo/tranquilo.py: _internal_tranquilo, _concatenate_indices, _get_additional_eval_info"]}
{"id": "C68", "title": "All evaluated points respect the parameter bounds", "statement": "If the start vector satisfies the bounds then the criterion is only ever evaluated at points within the bounds.", "quantifier": "all runs with built in components", "why_tests_cant": "A single infeasible evaluation in any iteration of any run violates it; tests check a few runs.", "anchors": ["src/tranquilo/tranquilo.py", "src/tranquilo/region.py", "src/tranquilo/sample_points.py", "src/tranquilo/solve_subproblem.py", "src/tranquilo/acceptance_decision.py"]}
{"id": "C69", "title": "Residualizing uses the previous model", "statement": "With residualize=True each fit uses the model of the previous iteration as old model.", "quantifier": "all runs with residualize=True, all fitters", "why_tests_cant": "Which model is passed in which iteration is not visible in the result of a run.", "anchors": ["src/tranquilo/tranquilo.py: _internal_tranquilo (state.vector_model)", "src/tranquilo/fit_models.py: _fitter_template"]}
{"id": "C70", "title": "Default start radius is usable", "statement": "The default initial radius is positive and within [min_radius, max_radius] for every start vector.", "quantifier": "all start vectors", "why_tests_cant": "Only special start vectors (zero, tiny or huge) are affected.", "anchors": ["src/tranquilo/options.py: get_default_radius_options, RadiusOptions"]}
{"id": "C71", "title": "Variance estimate is a weighted average of sample variances", "statement": "The estimated noise variance is a convex combination of the sample variances of points close to the trust region that have at least min_n_evals evaluations (or the most evaluated ones), is nonnegative and defined whenever some used point has two evaluations; it is zero iff there is no variation.", "quantifier": "all histories, regions and option values", "why_tests_cant": "The estimate depends on the whole history, on the distances of all points and on the numbers of evaluations.", "anchors": ["src/tranquilo/estimate_variance.py: _estimate_variance_classic"]}
{"id": "C72", "title": "Simulated rhos are consistent", "statement": "simulate_rho_noise returns rho_noise_n_draws values, and without noise and with an exact fitter each equals one when the model promises an improvement.", "quantifier": "all models, samples and solvers", "why_tests_cant": "A continuum of models, samples and draws; tests check shapes.", "anchors": ["src/tranquilo/rho_noise.py: simulate_rho_noise"]}
{"id": "C73", "title": "Fast and slow subsolvers agree", "statement": "Every subsolver that exists in a version for numba and in a version for numpy (bntr, gqtpar, conjugate gradient, Steihaug-Toint, trsbox) returns the same vector, value, number of iterations and flag in both versions.", "quantifier": "all models, radii, bounds and start vectors in the box, all inner solvers", "why_tests_cant": "Agreement of two implementations on a continuum of inputs; tests compare them on fixed examples, and differences appear only in special branches.", "anchors": ["src/tranquilo/subsolvers/bntr.py: bntr", "src/tranquilo/subsolvers/bntr_fast.py: bntr_fast", "src/tranquilo/subsolvers/gqtpar.py: gqtpar", "src/tranquilo/subsolvers/gqtpar_fast.py: gqtpar_fast", "src/tranquilo/subsolvers/_conjugate_gradient.py", "src/tranquilo/subsolvers/_conjugate_gradient_fast.py", "src/tranquilo/subsolvers/_steihaug_toint.py", "src/tranquilo/subsolvers/_steihaug_toint_fast.py", "src/tranquilo/subsolvers/_trsbox.py", "src/tranquilo/subsolvers/_trsbox_fast.py"]}
{"id": "C74", "title": "trsbox stays in the region and makes progress", "statement": "For a symmetric Hessian and bounds that contain the center, the quadratic trsbox solver always returns, the point is within the bounds and within the trust region, the model is not larger there than at the center, and it is not larger than at any feasible point along the steepest descent direction without the components that leave the box at once; so it is strictly smaller than at the center unless that direction vanishes. (Steps of length up to 1e-30 are treated as zero.)", "quantifier": "all gradients, symmetric Hessians (definite or not), bounds around the center, radii and dimensions", "why_tests_cant": "The solver mixes conjugate gradient steps, active bounds and turns along the boundary; tests compare a handful of stored solutions.", "anchors": ["src/tranquilo/subsolvers/_trsbox_fast.py: minimize_trust_trsbox_fast, _perform_alternative_trustregion_step, _calc_upper_bound_on_tangent, _calc_greatest_criterion_reduction, _update_tangent", "src/tranquilo/subsolvers/_trsbox.py: minimize_trust_trsbox"]}
{"id": "C75", "title": "One sided bounds are accepted", "statement": "Passing only lower bounds or only upper bounds works like passing infinite bounds on the other side: no exception is raised and the shape of the trust region is determined by the given side.", "quantifier": "all bounds, given on one side, both sides or not at all; all centers and radii", "why_tests_cant": "Tests always pass both arrays or none; the failure depends on which side is missing and whether the given side binds.", "anchors": ["src/tranquilo/region.py:_any_bounds_binding", "src/tranquilo/bounds.py:Bounds", "src/tranquilo/process_arguments.py:process_arguments"]}
{"id": "C76", "title": "History reads follow numpy indexing", "statement": "get_xs, get_fvecs and get_fvals accept every integer that indexes a 1d numpy array of n_xs entries: index -k reads the k-th last point, lists may mix signs, and all other integers raise IndexError.", "quantifier": "all finite sequences of History operations, all integers and lists of integers", "why_tests_cant": "Tests read a few fixed indices of one history; the claim is about every reachable history and every index, including the interplay of normalised and original keys.", "anchors": ["src/tranquilo/history.py: History.get_xs, History.get_fvecs, History.get_fvals, _extract_from_indices"]}
{"id": "C77", "title": "The distance criterion of optimal sampling ignores exactly the pairs of existing points", "statement": "The distance criterion of the optimal sampler is a soft minimum of the squared distances of exactly those pairs of points that contain at least one new point; after division by the hardness it differs from the smallest such distance by at most log(number of pairs)/hardness.", "quantifier": "all new and existing points, any number of them, all hardness factors > 0", "why_tests_cant": "Depends on the position of pairs in a flattened distance matrix, for any number of new and existing points.", "anchors": ["src/tranquilo/sample_points.py: _minimal_pairwise_distance_on_hull"]}
{"id": "C78", "title": "Information returned by the optimal sampler describes the returned sample", "statement": "With return_info=True the reported criterion values are those of the reported start and optimal parameters, and the returned points are the image of the reported optimal parameters.", "quantifier": "all regions, start samples, optimizer results", "why_tests_cant": "Only wrong when the optimizer makes the sample worse.", "anchors": ["src/tranquilo/sample_points.py: _optimal_hull_sampler"]}
{"id": "C79", "title": "Rows of the Lagrange matrix are the Lagrange polynomials of the sample", "statement": "For a sample whose interpolation conditions are linearly independent, the polynomial represented by the i-th row is one at the i-th point and zero at all other points.", "quantifier": "all dimensions, sample sizes and samples with independent conditions", "why_tests_cant": "Tests check a few fixed samples.", "anchors": ["src/tranquilo/poisedness.py: _lagrange_poly_matrix, _scaled_polynomial_features"]}
{"id": "C80", "title": "The poisedness constant is the maximum of the Lagrange polynomials", "statement": "get_poisedness_constant returns the largest absolute value of the Lagrange polynomials on the unit ball or cube, together with a point of the region and the index where it is attained; it is at least one for samples in the region; other shapes raise a ValueError.", "quantifier": "all samples, dimensions and shapes, given an optimizer that finds the maximum", "why_tests_cant": "Universally quantified over samples and over points of the region.", "anchors": ["src/tranquilo/poisedness.py: get_poisedness_constant"]}
{"id": "C81", "title": "improve_poisedness improves the geometry and stays in the region", "statement": "improve_poisedness keeps the number of points, keeps all points in the unit region, records one constant per replacement and never reduces the volume (absolute determinant of the interpolation conditions), which each replacement multiplies by the recorded constant.", "quantifier": "all poised samples in the region with as many points as coefficients, all numbers of iterations", "why_tests_cant": "Any number of iterations and samples.", "anchors": ["src/tranquilo/poisedness.py: improve_poisedness"]}
{"id": "C82", "title": "The noisy acceptance step spends its evaluations where the power calculation wants them", "statement": "After a noisy acceptance decision the candidate has between n_min and n_max evaluations, the current point at most n_max unless it had more before, no other point was evaluated, and unless n_max is hit the variance of the difference of the two means is small enough for the requested power and confidence.", "quantifier": "all histories, states, noise levels, quantiles and limits", "why_tests_cant": "Needs the interplay of sample size formula, existing evaluations and evaluation request for all inputs.", "anchors": ["src/tranquilo/acceptance_decision.py: accept_noisy", "src/tranquilo/acceptance_sample_size.py: get_acceptance_sample_sizes"]}
{"id": "C83", "title": "A line search happens exactly for candidates near the border of the region", "statement": "With more than one evaluation per batch, the decider evaluates points at two, four and eight times the step (as many as fit in the batch) iff the distance of the candidate to the border of the trust region is at most a tenth of the radius; all remaining evaluations go to sampled points around the candidate.", "quantifier": "all regions, candidates, batch sizes", "why_tests_cant": "Whether a point counts as on the border depends on the geometry of region, bounds and candidate; tests use a few positions.", "anchors": ["src/tranquilo/acceptance_decision.py: accept_classic_line_search, _is_on_border, _sample_on_line, _generate_alpha_grid"]}
{"id": "C84", "title": "Clusters are chosen greedily", "statement": "Each cluster contains all points near its center that are in no earlier cluster, and no point outside the earlier clusters has more of those points near it than a cluster (with more than one point) has members.", "quantifier": "all finite point sets with symmetric distances and all epsilons >= 0", "why_tests_cant": "All geometric configurations and sizes.", "anchors": ["src/tranquilo/clustering.py: _cluster"]}
{"id": "C85", "title": "Numeric options keep their value", "statement": "A number the user sets for a numeric option of a component reaches that component with the same value.", "quantifier": "all option bundles, fields and numbers", "why_tests_cant": "All numbers and fields; tests use values of the same type as the default.", "anchors": ["src/tranquilo/options.py: update_option_bundle, SamplerOptions", "src/tranquilo/get_component.py: get_component"]}
{"id": "C86", "title": "Every registered component name can be used", "statement": "Each built-in name of a sampler, filter, fitter, subsolver, variance estimator or acceptance decider can be selected, and the resulting component accepts the arguments with which the optimizer calls it, whatever the user options for it.", "quantifier": "all built-in names, all accepted user options, all values of call arguments", "why_tests_cant": "Option dictionaries and call values are unbounded.", "anchors": ["src/tranquilo/sample_points.py: get_sampler", "src/tranquilo/filter_points.py: get_sample_filter", "src/tranquilo/fit_models.py: get_fitter", "src/tranquilo/solve_subproblem.py: get_subsolver", "src/tranquilo/acceptance_decision.py: get_acceptance_decider", "src/tranquilo/estimate_variance.py: get_variance_estimator"]}
{"id": "C87", "title": "The parameter order of user components does not matter", "statement": "A user supplied sampler may declare its parameters in any order: all calls of the optimizer bind the region to the parameter called trustregion.", "quantifier": "all user samplers that are accepted and all calls", "why_tests_cant": "User components may declare parameters in any order; tests use the order of the built in ones.", "anchors": ["src/tranquilo/acceptance_decision.py: accept_classic_line_search, _generate_speculative_sample", "src/tranquilo/get_component.py: get_component"]}
{"id": "C88", "title": "Accepted sizes are positive", "statement": "After the arguments were accepted the number of points per batch and the target sample size are positive.", "quantifier": "all argument combinations", "why_tests_cant": "All integers can be passed for sizes; tests pass sensible ones.", "anchors": ["src/tranquilo/process_arguments.py: process_arguments, _process_n_cores, _process_batch_size, _process_sample_size"]}
{"id": "C89", "title": "The defaults are accepted", "statement": "For each of the three problem types, each non-empty start vector, with and without noise and for each number of cores the arguments without further options are accepted, and give the documented defaults: one evaluation per point, batches as large as the number of cores, quadratic models on 2n+1 points for scalar functions and linear ones on n+1 or n+2 points otherwise, and an initial radius of a tenth of the largest parameter in absolute value.", "quantifier": "all problem types, start vectors, numbers of cores", "why_tests_cant": "A statement about all start vectors, dimensions and numbers of cores.", "anchors": ["src/tranquilo/process_arguments.py: process_arguments", "src/tranquilo/options.py: get_default_radius_options, get_default_sample_size, get_default_batch_size"]}
{"id": "C90", "title": "Powell's fit", "statement": "fit_powell fits a linear least squares model on at most n+1 points and an unrestricted least squares model on at least as many points as coefficients; in between it passes through the data (if possible) and has the Hessian of smallest Frobenius norm among the quadratics that do.", "quantifier": "all samples, data and dimensions", "why_tests_cant": "Continuum of samples and of competing interpolants.", "anchors": ["src/tranquilo/fit_models.py: fit_powell, _fit_minimal_frobenius_norm_of_hessian, _get_current_fit_minimal_frobenius_norm_of_hessian, _get_feature_matrices_minimal_frobenius_norm_of_hessian"]}
{"id": "C91", "title": "The optimal sampler maximizes its criterion", "statement": "With an optimizer that finds global optima, the points of the optimal hull sampler maximize the determinant criterion among all samples on the hull; with the distance criterion they maximize the soft minimum of distances, or are one of the random start samples.", "quantifier": "all regions, draws, existing points, sizes and optimizers with that contract", "why_tests_cant": "Continuum of competing samples.", "anchors": ["src/tranquilo/sample_points.py: _optimal_hull_sampler, _determinant_on_hull, _minimal_pairwise_distance_on_hull"]}
{"id": "C92", "title": "Random samples have no preferred direction", "statement": "Rotating the normal draws rotates the points sampled in or on a ball around its center; mirroring the uniform draws mirrors the points sampled in or on a box.", "quantifier": "all regions, draws, rotations and reflections", "why_tests_cant": "Distributional symmetry cannot be observed in finitely many draws.", "anchors": ["src/tranquilo/sample_points.py: _interior_sampler, _hull_sampler, _draw_from_distribution, _project_onto_unit_hull"]}
{"id": "C93", "title": "bntr reports the value at the reported point", "statement": "The criterion value that bntr returns is the value of the model at the returned point.", "quantifier": "all models, bounds, options and numbers of iterations", "why_tests_cant": "The values agree after each accepted step of the main loop; they differ only when the solver stops right after the initial gradient descent.", "anchors": ["src/tranquilo/subsolvers/bntr_fast.py: _take_preliminary_gradient_descent_step_and_check_for_solution, _perform_gradient_descent_step", "src/tranquilo/subsolvers/bntr.py"]}
{"id": "C94", "title": "bntr returns a result", "statement": "bntr_fast does not raise an exception for a model with square terms and a start vector within the bounds.", "quantifier": "all models with symmetric square terms, bounds, start vectors within the bounds, options", "why_tests_cant": "The failing divisions need start points at a bound or special values of the reductions.", "anchors": ["src/tranquilo/subsolvers/bntr_fast.py: bntr_fast, _take_preliminary_gradient_descent_step_and_check_for_solution, _update_trustregion_radius_conjugate_gradient"]}
{"id": "C95", "title": "Arguments and options the user sets are used", "statement": "If the arguments are accepted then the numbers, names and flags that the user sets (maxiter, maxfun, n_cores, batch_size, n_evals_at_start, n_evals_per_point, sample_size, search_radius_factor, model_type, model_fitter, residualize) are the ones the optimizer works with, options for the radius, the stagnation and the noise are stored under the name the user gave and all others keep their default, and each component is built from the name and the options given for it.", "quantifier": "all arguments that are accepted", "why_tests_cant": "There are far too many combinations of arguments; tests look at the default arguments and at single deviations.", "anchors": ["src/tranquilo/process_arguments.py: process_arguments", "src/tranquilo/options.py: update_option_bundle"]}
{"id": "C96", "title": "The geometry improving step maximizes the Lagrange polynomial", "statement": "improve_geomtery_trsbox_linear refuses a center outside the bounds; otherwise it returns a point within the bounds and within the trust region around the center at which the absolute value of the linear Lagrange polynomial is largest.", "quantifier": "all centers, linear models, bounds, radii and dimensions", "why_tests_cant": "Optimality quantifies over all points of the region; tests compare with a few stored results.", "anchors": ["src/tranquilo/subsolvers/linear_subsolvers.py: improve_geomtery_trsbox_linear, minimize_trsbox_linear"]}
{"id": "C97", "title": "The radius of the descent phase follows the agreement", "statement": "In the gradient descent phase of the box solver bntr the trust region radius is never divided by more than 16; it is not reduced when the actual reduction is close to the predicted one, grows at most by a factor of five, and is not enlarged when prediction and reduction disagree (by more than half of the prediction).", "quantifier": "all radii, gradients, predicted and actual reductions", "why_tests_cant": "The factor is chosen from seven cases of two real quotients; tests run a few models end to end and do not look at the radius.", "anchors": ["src/tranquilo/subsolvers/bntr_fast.py: _update_trustregion_radius_and_gradient_descent", "src/tranquilo/subsolvers/bntr.py: _update_trustregion_radius_and_gradient_descent"]}
{"id": "C98", "title": "A run with built in components returns", "statement": "A minimization that starts within the bounds, with built in filter, sampler, fitter, aggregator and acceptance decider and accepted options, returns a result instead of raising: after at most maxiter iterations, at a point within the bounds, having evaluated the criterion only within the bounds. Exceptions of user supplied components are not swallowed.", "quantifier": "all criterion functions, start points, bounds, radii, option values, random draws and iteration counts; arbitrary subsolvers when retry_subproblem_with_fallback is set", "why_tests_cant": "Whether an exception is reached depends on the whole history of sampled points, filters, fits and radii; tests only see single runs.", "anchors": ["src/tranquilo/tranquilo.py: _internal_tranquilo", "src/tranquilo/filter_points.py: get_sample_filter, keep_cluster_centers, drop_excess", "src/tranquilo/sample_points.py: get_sampler", "src/tranquilo/fit_models.py: _fitter_template, fit_powell", "src/tranquilo/aggregate_models.py: get_aggregator", "src/tranquilo/solve_subproblem.py: _solve_subproblem_template", "src/tranquilo/acceptance_decision.py: get_acceptance_decider"]}
{"id": "C99", "title": "Exploration samples stay in the box", "statement": "draw_exploration_sample refuses non-finite bounds, unknown sampling methods and distributions and unusable seeds with an error; otherwise it returns n_samples finite points within the bounds. With the uniform distribution the relative position between the bounds is the drawn number; with the triangular distribution the coordinates follow the triangular distribution between the bounds with mode x. The multistart solver that uses the sample returns a point within the bounds.", "quantifier": "all start points, bounds, numbers of samples, methods, distributions, seeds and draws", "why_tests_cant": "The draws come from a random or quasi random generator; tests see a few seeds.", "anchors": ["src/tranquilo/exploration_sample.py: draw_exploration_sample", "src/tranquilo/utilities.py: get_rng", "src/tranquilo/subsolvers/fallback_subsolvers.py: robust_cube_solver_multistart"]}
{"id": "C100", "title": "The criterion of D-optimality measures how well a sample spans the trust region", "statement": "The geometry criterion of a sample is the logarithm of the determinant of X'X in unit coordinates; it is never NaN, minus infinity exactly for degenerate samples (in particular for fewer points than parameters), does not depend on the order of the points, and is never lowered by a further point.", "quantifier": "all regions whose sides are not of length zero, nonempty samples and dimensions", "why_tests_cant": "Invariance and monotonicity relate the values for infinitely many samples; there is one test value.", "anchors": ["src/tranquilo/geometry.py: log_d_quality_calculator", "src/tranquilo/visualize.py: _get_fekete_criterion"]}
{"id": "C101", "title": "Diagnostic plots show the points of a run", "statement": "For states of a tranquilo run the visualisation labels each plotted point as new, existing or discarded according to its role in the run. The plotted points and criterion values are those of the run: markers are at the points and values that the run refers to, the circle is the trust region, distances are relative to the radius, and ratios of acceptance, clusters and the Fekete criterion are those of the states. For results of other supported algorithms it finds, for every accepted point and model point, the position of this point in the history.", "quantifier": "all runs of tranquilo and their states; all histories, points and dimensions", "why_tests_cant": "The search loops until a point is found; whether it ends and what it returns depends on all points of the history. Tests only check that a figure is returned.", "anchors": ["src/tranquilo/visualize.py: visualize_tranquilo, _plot_criterion, _plot_sample_points, _plot_rhos, _plot_clusters_points_ratio, _plot_distances_from_center, _get_fekete_criterion, _find_indices_in_trust_region, _find_index, _get_model_indices, _process_results, _get_sample_points"]}
{"id": "C102", "title": "The conjugate gradient solver is never ended by its iteration limit", "statement": "The step that minimize_trust_cg (and its numba version) returns is on the boundary of the trust region, or the gradient of the model at the step is not longer than max(gtol_abs, gtol_rel * |gradient|). The limit of two times the dimension is never the reason why the solver ends. If the model is convex and the step is inside of the trust region, no point of the trust region is better by more than twice the radius times that tolerance.", "quantifier": "all dimensions, gradients, symmetric Hessians (also indefinite ones), radii and tolerances that are not negative, in exact arithmetic", "why_tests_cant": "That the limit is large enough follows from the orthogonality of all residuals of a run, for every dimension and Hessian; tests see a few small models, and a solver that stops early still returns a step that reduces the model.", "anchors": ["src/tranquilo/subsolvers/_conjugate_gradient.py: minimize_trust_cg, _update_vectors_for_next_iteration, _get_distance_to_trustregion_boundary", "src/tranquilo/subsolvers/_conjugate_gradient_fast.py: minimize_trust_cg_fast"]}
{"id": "C103", "title": "Criteria that the model class contains are modelled exactly", "statement": "If the residuals of the criterion are polynomials of the model type (affine residuals for least squares with linear models, quadratic functions for quadratic models), then in every iteration whose model points determine such polynomials the fitted model equals the criterion everywhere. The reported rho is then exactly one if the proposal of the subsolver is better than the current point, and -inf otherwise. A proposal that is better by at least min_improvement leads to an accepted step to a point that is at least as good as the proposal.", "quantifier": "all such criteria, dimensions, numbers of residuals, start points, radii, bounds without fixed parameters, numbers of iterations; fit_ols and fit_tranquilo, with and without residualize; all acceptance deciders but the noisy one", "why_tests_cant": "The claim joins the maps to the unit region, the fit, the update with the previous model, the aggregation, the subsolver and the decision; an inconsistency in one of them for some shape of the region still lets most runs converge, only with a rho that is wrong.", "anchors": ["src/tranquilo/fit_models.py: fit_ols, fit_tranquilo, get_fitter", "src/tranquilo/aggregate_models.py: aggregator_identity, aggregator_sum, aggregator_least_squares_linear", "src/tranquilo/region.py: Region.map_to_unit, Region.map_from_unit", "src/tranquilo/acceptance_decision.py: _accept_simple, accept_classic_line_search, calculate_rho", "src/tranquilo/tranquilo.py: _internal_tranquilo"]}
{"id": "C104", "title": "What the optimizer reads from the history is what it recorded, over whole runs", "statement": "For every run of the optimizer, with any criterion that returns a number or raises (scalar criteria) or returns a vector of the right length (likelihood and least squares criteria), deterministic or noisy: all calls that add points and all evaluations succeed on the history object, add_xs returns the next consecutive indices, and at every point of the run the history answers each query (points by index, values by index, vectors of evaluations, numbers of evaluations, points in a region, counters) with exactly what was added and recorded before, in that order. In particular the history in the result contains every evaluation of the run: the k-th recorded evaluation is the k-th result of the criterion at the point under whose index it is stored, with NaN and exceptions recorded as infinite.", "quantifier": "all criteria that fit to the function type, all numbers of parameters and residuals, all components, options, starting points and bounds; all iterations; all index lists and regions that are queried", "why_tests_cant": "Tests check single calls on small histories and a few runs; that buffers which are enlarged in the middle of an arbitrarily long run, with repeated evaluations of old points in any order, never mix up, lose or duplicate anything is a statement about all sequences of calls that the optimizer can make.", "anchors": ["src/tranquilo/history.py: History.add_xs, History.add_evals, History.get_xs, History.get_fvals, History.get_fvecs, History.get_n_evals, History.get_x_indices_in_region", "src/tranquilo/wrap_criterion.py: get_wrapped_criterion", "src/tranquilo/tranquilo.py: _internal_tranquilo", "src/tranquilo/acceptance_decision.py: _accept_simple, accept_classic_line_search, accept_noisy"]}
{"id": "C105", "title": "Evaluations that fail now and then do not end the optimization", "statement": "If the criterion raises or returns NaN or an infinite number at some of the points where it is evaluated, the optimization goes on: minimize does not raise because of it, and the result is the start point or a point with a finite criterion value within the bounds.", "quantifier": "all scalar criteria and all sets of evaluations that fail; all options with which a run with a criterion that never fails returns; all start points within the bounds, all radii; runs with and without noise", "why_tests_cant": "Tests let a single evaluation fail in one run; whether a failure in an arbitrary evaluation, at a point that is kept as model point or used to estimate the noise in a later iteration, can make some later step raise depends on all sequences of failures.", "anchors": ["src/tranquilo/wrap_criterion.py: get_wrapped_criterion", "src/tranquilo/handle_infinity.py: clip_relative", "src/tranquilo/estimate_variance.py: _estimate_variance_classic", "src/tranquilo/acceptance_sample_size.py: get_acceptance_sample_sizes", "src/tranquilo/acceptance_decision.py: accept_noisy", "src/tranquilo/tranquilo.py: _internal_tranquilo"]}
{"id": "C106", "title": "A call with built in components returns a point within the bounds", "statement": "minimize with built in samplers, filters, fitters, subsolvers and acceptance deciders, with their default options, returns for each of the three function types: it raises no exception, the returned parameters and all evaluated points are within the bounds, and the returned parameters are one of the evaluated points. In particular a call without any options returns.", "quantifier": "all three function types; all start vectors and bounds; all combinations of names of built in components; noise or not; all numbers of cores, batch sizes, sample sizes, search radius factors, evaluations per point and at the start, tolerances, limits and seeds; all criteria, all random draws; all results and exceptions of the subsolvers", "why_tests_cant": "Tests call the optimizer with a few combinations of options on a few criteria; whether the options that the processing of the arguments passes to the components, and what the components produce, fit together in each iteration of each run is a statement about all combinations and all runs.", "anchors": ["src/tranquilo/tranquilo.py: _tranquilo, _internal_tranquilo", "src/tranquilo/process_arguments.py: process_arguments", "src/tranquilo/get_component.py: get_component", "src/tranquilo/options.py"]}
{"id": "C107", "title": "The gradient tolerance is a tolerance for the gradient", "statement": "If a run stops with the message that the norm of the gradient is below the tolerance, then the norm of the gradient of the model with respect to the parameters, at the point where the message appears, is below this tolerance.", "quantifier": "all runs with built in components that stop with this message, all tolerances, criteria and bounds", "why_tests_cant": "Tests check that runs on a few smooth functions with a minimum stop near it; whether the message can appear far away from any minimum depends on the radii that the trust region takes in all possible runs.", "anchors": ["src/tranquilo/tranquilo.py: _is_converged", "src/tranquilo/models.py: ScalarModel", "src/tranquilo/region.py: Region.map_to_unit"]}
{"id": "C108", "title": "gqtpar's estimate of the smallest singular value is attained", "statement": "For the triangular factor of the shifted Hessian the estimate of the smallest singular value comes with a direction of length one whose image has exactly that length, so that the estimate is never below the smallest singular value; the direction solves a system whose right hand side has only entries 1 and -1, with signs chosen greedily.", "quantifier": "all upper triangular factors with positive diagonal, all dimensions", "why_tests_cant": "Tests compare the estimate with the singular values of a few matrices; that it is an upper bound attained in the returned direction is a statement about all matrices.", "anchors": ["src/tranquilo/subsolvers/gqtpar_fast.py: _estimate_condition, _estimate_smallest_singular_value"]}
{"id": "C109", "title": "Models depend on the data, not on their order, and weights count points", "statement": "The model fitted to a sample does not change if the points are given in another order; giving a point the weight k is the same as having it k times in the sample, weight zero the same as leaving it out; multiplying all weights with the same positive number does not change fits without a penalty.", "quantifier": "all built in fitters, model types, samples, responses (also infinite ones inside a run), orders and weights", "why_tests_cant": "Tests fit a few samples in one order; the claim compares fits over all permutations and weights, also for samples that do not determine the model.", "anchors": ["src/tranquilo/fit_models.py: fit_ols, fit_tranquilo, fit_ridge, fit_powell, _add_weighting, _fitter_template"]}
{"id": "C110", "title": "Convex criteria that the models can represent are minimized at a linear rate", "statement": "For a convex criterion whose residuals are polynomials of the model type (least squares with affine residuals, or quadratic criteria with quadratic models), without noise and with default acceptance and radius options, every iteration reduces the distance of the criterion value from its minimum within the bounds by at least a fixed share, which depends only on the quality of the subsolver, the initial radius and the size of the level set of the start. With an exact subsolver and a first trust region that contains a minimizer, one iteration suffices.", "quantifier": "all convex criteria with polynomial residuals, all starts within the bounds, all initial radii, all built in filters, samplers and fitters that interpolate, all subsolvers that guarantee a share of the possible decrease on convex models, any number of iterations in which the model points determine the polynomials", "why_tests_cant": "A rate of convergence is a statement about all criteria, all starts and all numbers of iterations; a test observes single runs and cannot exclude a start from which the optimizer stalls.", "anchors": ["src/tranquilo/tranquilo.py: _internal_tranquilo", "src/tranquilo/solve_subproblem.py: _solve_subproblem_template", "src/tranquilo/acceptance_decision.py: _accept_simple", "src/tranquilo/adjust_radius.py: adjust_radius", "src/tranquilo/fit_models.py: _fitter_template"]}
{"id": "C111", "title": "On convex models the conjugate gradient solver makes at least half of the possible progress", "statement": "If the Hessian of the model is positive semidefinite, the step that minimize_trust_cg (and its numba version) returns reduces the model by at least half of the reduction that any other point of the trust region achieves, up to half of the radius times max(gtol_abs, gtol_rel * |gradient|). One half is the best share: for every larger one there is a convex model with two parameters where the step misses it.", "quantifier": "all dimensions, gradients, symmetric positive semidefinite Hessians (also singular ones), radii and tolerances that are not negative, all points of the trust region, in exact arithmetic", "why_tests_cant": "The claim compares the step with the unknown best point of the trust region, for every convex model of every dimension; tests on a few models see shares close to one. The models where the share is close to one half are nearly degenerate.", "anchors": ["src/tranquilo/subsolvers/_conjugate_gradient.py: minimize_trust_cg, _update_vectors_for_next_iteration, _get_distance_to_trustregion_boundary", "src/tranquilo/subsolvers/_conjugate_gradient_fast.py: minimize_trust_cg_fast"]}
{"id": "C112", "title": "On positive definite models gqtpar ends with success, and a success is a near minimizer", "statement": "If the gradient is not treated as zero, a result of gqtpar_fast (and of gqtpar) with success reduces the model by at least the share min(1 - k_hard, 0.47) of the reduction that any point of the unit ball achieves. If the Hessian is positive definite, success is reported whenever maxiter is large enough; with curvature at least a > 0 in all directions and a gradient that is not longer than the computed bound for the curvature, maxiter >= log(|gradient| / a) / log(1 + k_easy) suffices, so that the default options suffice up to |gradient| = 10**8 a.", "quantifier": "all dimensions, gradients above the threshold, symmetric Hessians (positive definite for termination), tolerances with 0 <= k_hard <= 1 and k_easy >= 0 (positive for termination), all Cholesky factorizations and triangular solvers that meet their contract, in exact arithmetic", "why_tests_cant": "The loop updates the factor by Newton steps, by a bracket and with factorizations of older factors; that no convex model makes it cycle, stall or stop at a poor point concerns infinitely many models and iterations, and the best point of the ball is unknown to a test.", "anchors": ["src/tranquilo/subsolvers/gqtpar_fast.py: gqtpar_fast, _find_new_candidate_and_update_parameters, _update_candidate_and_parameters_when_candidate_within_trustregion, _compute_newton_step, _get_new_lambda_candidate, _get_initial_guess_for_lambdas", "src/tranquilo/subsolvers/gqtpar.py: gqtpar"]}
{"id": "C113", "title": "The units of the criterion do not matter", "statement": "If the criterion is replaced by c * f + d with c > 0 and the options with units (minimal improvement, absolute tolerances) are converted, a run does the same: it raises the same exception or none, stores the same points in the same order, evaluates them equally often, accepts and rejects the same candidates, uses the same radii, ends for the same reason at the same point, and all recorded values are those of the first run in the new units. For the built in components this holds for scalar criteria and sums of contributions (with d = 0, or with any d if models are fitted as corrections), and for least squares if the residuals are multiplied by a number. Excepted are criteria with infinite values, relative tolerances for criterion and gradient other than zero, and subsolvers that depend on units.", "quantifier": "all criteria, factors c > 0, constants d, filters, samplers, fitters, aggregators (scalar, sum, least squares), deciders, options, bounds, start points, radii and numbers of iterations; all components that respect the units in the first form", "why_tests_cant": "A test compares two runs of one problem; the claim relates every run to all its rescaled versions through every decision of the loop, and one absolute constant in a rarely used branch breaks it.", "anchors": ["src/tranquilo/tranquilo.py: _internal_tranquilo, _is_converged", "src/tranquilo/acceptance_decision.py: accept_classic, accept_naive_noisy, accept_noisy, accept_classic_line_search, calculate_rho", "src/tranquilo/acceptance_sample_size.py: get_acceptance_sample_sizes", "src/tranquilo/fit_models.py: get_fitter", "src/tranquilo/aggregate_models.py: get_aggregator", "src/tranquilo/solve_subproblem.py: get_subsolver", "src/tranquilo/handle_infinity.py: clip_relative"]}
{"id": "C114", "title": "Origin and unit of the parameters do not matter", "statement": "If every parameter vector x is written as s * x + a with s > 0, and the criterion, the start vector, the bounds, the initial radius, the smallest and largest radius and the absolute tolerance for the parameters are converted, a run does the same: it raises the same exception or none, visits the same points (in the new coordinates) in the same order, evaluates them equally often with the same results, accepts and rejects the same candidates, and ends for the same reason at the same point. This holds for all built in filters, samplers, fitters, aggregators and deciders, with and without noise, if the initial radius is given. Excepted are a relative tolerance for the parameters other than zero and the test of the line search (with more than one point per batch) whether a candidate is on the border; for a shift of the origin without bounds that test does not matter either.", "quantifier": "all criteria, shifts a, factors s > 0, bounds, start vectors, radii other than zero, options, random numbers, numbers of iterations, and all subsolvers that only see the model on the unit region; all components that do not depend on the place in the first form", "why_tests_cant": "A test compares two runs of one problem, and rounding makes them differ. The claim relates every run to all its moved versions through every decision of the loop; one coordinate that is used where a difference is meant breaks it only for some problems.", "anchors": ["src/tranquilo/tranquilo.py: _internal_tranquilo, _is_converged", "src/tranquilo/region.py: Region, _map_to_unit_cube, _map_from_unit_cube, _map_to_unit_sphere, _map_from_unit_sphere, _get_shape", "src/tranquilo/models.py: VectorModel.move, add_models", "src/tranquilo/sample_points.py: get_sampler", "src/tranquilo/filter_points.py: get_sample_filter", "src/tranquilo/acceptance_decision.py: accept_classic_line_search, _is_on_border", "src/tranquilo/options.py: get_default_radius"]}
{"id": "C115", "title": "Limits and tolerances only cut a run", "statement": "Raising stopping_max_iterations or stopping_max_criterion_evaluations, lowering convergence tolerances or disabling convergence only lets a run go on: if the longer run returns, so does the shorter one, and the points, values and states of the shorter run are the first ones of the longer run, in the same order. An exception of the shorter run is also raised by the longer one. A run that converged is the same under higher limits, and a run that ended because of the number of evaluations is the same with more iterations. With a deterministic criterion the value at the result of the longer run is not worse.", "quantifier": "all components, criteria, start points, radii, bounds, pairs of settings that only differ in the rules for stopping, numbers of iterations; for calls also all other arguments", "why_tests_cant": "It relates every run to all its continuations; a limit that leaks into a sample size, a seed or the check of an earlier iteration changes runs that a test with one pair of limits does not make.", "anchors": ["src/tranquilo/tranquilo.py: _internal_tranquilo, _is_converged", "src/tranquilo/process_arguments.py: process_arguments", "src/tranquilo/options.py: ConvOptions, StopOptions"]}
{"id": "C116", "title": "The order of the residuals does not matter", "statement": "If a least squares or likelihood criterion returns its residuals (contributions) in another order, the optimizer does the same: the recorded criterion value is the same also with infinite or NaN residuals, the call raises the same exception or none, visits and records the same points and values, takes the same decisions and returns the same answer. Only the stored models of the single residuals are permuted. Noisy optimizations are excluded, since random draws are assigned to residuals by position.", "quantifier": "All numbers of residuals and parameters, permutations, criterion functions, start vectors, bounds, options without noise, registered components and numbers of iterations.", "why_tests_cant": "Tests compare one permutation on one problem and only up to rounding; that no part of the pipeline (fit per residual, aggregation, fallback, moved old models) ever treats a position specially is a statement over all runs.", "anchors": ["src/tranquilo/history.py: History.add_evals, aggregate", "src/tranquilo/fit_models.py: get_fitter, fit_ols, fit_ridge, fit_powell, fit_tranquilo", "src/tranquilo/aggregate_models.py: aggregator_least_squares_linear, aggregator_information_equality_linear, aggregator_sum", "src/tranquilo/tranquilo.py: _internal_tranquilo, _tranquilo"]}
{"id": "C117", "title": "Runs make progress while the models promise it", "statement": "On a criterion without noise that is bounded from below, a run cannot go on without progress: as long as the models promise improvements in proportion to the radius, with errors that are quadratic in the radius, the number of iterations is bounded by an explicit number. In particular, for problems without bounds and smooth criteria, with models whose gradients have an error proportional to the radius and whose curvature is bounded, every run that is long enough visits a point where the gradient of the criterion is shorter than any given length, up to the error of the model there.", "quantifier": "All components, criteria, start points, radii, radius options (shrinking below one, expansion at least one, rho_decrease between zero and one and not above rho_increase, minimal radius small enough), accuracies and numbers of iterations; the second part for the built in components.", "why_tests_cant": "It bounds the number of iterations of every run on every smooth criterion; a wrong comparison in the radius update or a swapped decision only shows as a run that stalls on some problem.", "anchors": ["src/tranquilo/tranquilo.py: _internal_tranquilo", "src/tranquilo/adjust_radius.py: adjust_radius", "src/tranquilo/acceptance_decision.py: _accept_simple, calculate_rho", "src/tranquilo/solve_subproblem.py: _solve_subproblem_template", "src/tranquilo/options.py: RadiusOptions"]}
{"id": "C118", "title": "A call runs with exactly the options that were passed", "statement": "A call of the optimizer that returns has run the main loop with the values that the user passed: tolerances, limits, batch size, sample size, search radius factor and numbers of evaluations are those of the call or the documented defaults; each entry of each option bundle (radius, stagnation, noise adaptation, sampler, filter, fitter, subsolver, acceptance decider, variance estimator) has the user's value under that name, converted to the type of the default, or the default if the user did not pass it; and each component is the one registered under the name that was passed, or the default component for this kind of problem.", "quantifier": "all arguments of a call with built in components, all dicts and NamedTuples of options, all start vectors, bounds and criteria for which the call returns", "why_tests_cant": "There are more than fifty options; a test that runs an optimization does not notice that two of them are swapped, that one is dropped or read under a wrong name, because runs with other options also return plausible results.", "anchors": ["src/tranquilo/process_arguments.py: process_arguments", "src/tranquilo/options.py: update_option_bundle, RadiusOptions, StagnationOptions, NoiseAdaptationOptions, SamplerOptions, FilterOptions, FitterOptions, SubsolverOptions, AcceptanceOptions, VarianceEstimatorOptions", "src/tranquilo/get_component.py: get_component", "src/tranquilo/tranquilo.py: _tranquilo"]}
{"id": "C119", "title": "Calls with sane options return", "statement": "If the values in force are sane (positive radii, batch size at least one, an infinite ratio of radius and step, a known distribution, a nonnegative strictness and share, the shape of spheres, retry with the fallback, a decider that fits the kind of noise, and for noisy problems repeated evaluations), a call with built in components raises only while its arguments are processed, before the criterion is evaluated. Otherwise it returns an evaluated point within the bounds, all evaluated points are within the bounds, and it makes at most stopping_max_iterations iterations. Option bundles with known names and values of the right type are always accepted, so such calls return.", "quantifier": "all arguments of a call, option bundles, start vectors, bounds, criteria, behaviours of the subsolvers", "why_tests_cant": "Tests run a few combinations of options; that no combination of accepted options lets a run crash after hours of evaluations is a statement about all of them.", "anchors": ["src/tranquilo/process_arguments.py: process_arguments", "src/tranquilo/options.py: update_option_bundle", "src/tranquilo/get_component.py: get_component", "src/tranquilo/tranquilo.py: _tranquilo, _internal_tranquilo"]}
{"id": "C120", "title": "Poised model points give accurate models and progress", "statement": "The model that is fitted at poised points (points with Lagrange polynomials whose absolute values add up to at most a constant in the trust region) is nearly as good as every polynomial of its type: its error is at most one plus the constant times the error of the polynomial. The number that get_poisedness_constant returns bounds this constant. Consequently, on smooth criteria without noise and bounds, sums of smooth terms as well as sums of squares of smooth residuals, runs whose model points stay poised and close to the center reach points with small gradients after a number of iterations that can be computed beforehand.", "quantifier": "All criteria (no polynomials assumed), numbers of parameters and residuals, sets of points, poisedness constants, fitters that interpolate, trust regions, start points, radii and radius options; the part on get_poisedness_constant for up to two parameters.", "why_tests_cant": "The error bound holds for every smooth function at once and the length of a run for every criterion; tests compare models with a few known functions and cannot tell whether a wrong scaling of the points or a swapped coefficient only hurts for other functions.", "anchors": ["src/tranquilo/fit_models.py: get_fitter, _fitter_template, fit_ols", "src/tranquilo/aggregate_models.py: aggregator_sum, aggregator_identity, aggregator_least_squares_linear", "src/tranquilo/poisedness.py: get_poisedness_constant, improve_poisedness", "src/tranquilo/tranquilo.py: _internal_tranquilo", "src/tranquilo/adjust_radius.py: adjust_radius"]}
{"id": "C121", "title": "The order of the parameters does not matter", "statement": "If the parameters are put into another order (start vector, bounds and the argument of the criterion), minimize visits the same points in the new order one after the other, evaluates them equally often, takes the same decisions and returns the same solution with the same message, provided that the random numbers that the samplers draw are put into the new order as well, the fitter is not powell and the subsolvers treat the parameters alike. The default solver for boxes does so, conjugate gradients do so, and the fallback solvers do if scipy's optimizer does. Default radius and all other options need no change. With a fixed seed the draws stay in place and other points are sampled.", "quantifier": "All criteria, functypes, numbers of parameters and residuals, permutations, start vectors, bounds, radii, options, noise settings, filters, samplers, fitters other than powell, aggregators, deciders, evaluation outcomes (infinite and NaN included) and exceptions.", "why_tests_cant": "Tests fix one order of the parameters; an index that is off by one in the features of the quadratic model or in the mask of free parameters is only visible when two whole runs for all permutations and models are compared.", "anchors": ["src/tranquilo/tranquilo.py: _internal_tranquilo", "src/tranquilo/fit_models.py: get_fitter, fit_ols, fit_ridge, fit_tranquilo, _quadratic_features", "src/tranquilo/sample_points.py: get_sampler", "src/tranquilo/filter_points.py: get_sample_filter", "src/tranquilo/subsolvers/bntr_fast.py: bntr_fast", "src/tranquilo/subsolvers/_conjugate_gradient_fast.py: minimize_trust_cg_fast", "src/tranquilo/subsolvers/fallback_subsolvers.py: robust_cube_solver", "src/tranquilo/options.py: get_default_radius"]}
{"id": "C122", "title": "Only the evaluations in the history matter", "statement": "Everything a call does depends on the criterion only through the evaluations that its history reports: if another criterion returns the same at exactly these evaluations, the call with that criterion makes the same evaluations in the same order, passes the same states and returns the same result. There are no hidden evaluations. Consequently no result certifies anything about points that were not evaluated: within the bounds there is always a point at which the criterion may have any value without a trace in the result.", "quantifier": "All criteria (with or without noise, with NaN and infinite values), options, start vectors, bounds, random numbers, numerical libraries, and all calls with built in components that return.", "why_tests_cant": "It compares a call with the calls for all other criteria that share the observed values, which are infinitely many.", "anchors": ["src/tranquilo/tranquilo.py: _internal_tranquilo", "src/tranquilo/wrap_criterion.py: get_wrapped_criterion", "src/tranquilo/history.py: History.add_evals, History.get_fvecs, History.get_fvals, History.get_model_data", "src/tranquilo/acceptance_decision.py: accept_classic_line_search, accept_noisy, _accept_simple", "src/tranquilo/process_arguments.py: process_arguments"]}
{"id": "C123", "title": "gqtpar ends with success on every model with a gradient", "statement": "Whatever the Hessian of the surrogate model (positive definite, singular, indefinite; in the easy and in the hard case), as long as the gradient is not so small that it is treated as zero, there is a limit of iterations from which on the ball solver gqtpar reports success. The step it then returns has norm at most 1 + k_easy, and its reduction of the model is at least the share min(1 - k_hard, 0.47) of the reduction at any point of the unit ball. There are no models on which the solver cycles for ever.", "quantifier": "All symmetric Hessians and gradients of any dimension with norm above the threshold, all stopping parameters k_easy > 0 and 0 < k_hard <= 1, all start vectors, all factorization libraries that satisfy the contract; exact arithmetic.", "why_tests_cant": "Termination on all models, in particular in and near the hard case where the iteration converges slowly, is a statement about infinitely many models and unboundedly many iterations.", "anchors": ["src/tranquilo/subsolvers/gqtpar_fast.py: gqtpar_fast, _get_new_lambda_candidate, _update_candidate_and_parameters_when_candidate_within_trustregion, _update_lambdas_when_factorization_unsuccessful, _compute_smallest_singular_value, _check_for_interior_convergence_and_update", "src/tranquilo/subsolvers/gqtpar.py: gqtpar"]}
{"id": "C124", "title": "gqtpar solves models without a gradient", "statement": "If the gradient of the surrogate model is zero (or so small that it is treated as zero), gqtpar still ends with success: at the center if the Hessian is positive semidefinite, and otherwise at a point of the unit ball where the model is lower, so that the optimizer can leave saddle points and maxima.", "quantifier": "All symmetric Hessians of any dimension with a gradient that is treated as zero, all limits of iterations, stopping parameters, start vectors and factorization libraries that satisfy the contract; exact arithmetic.", "why_tests_cant": "The claim is about all Hessians and all limits of iterations; that no limit suffices for a class of models cannot be seen from finitely many runs.", "anchors": ["src/tranquilo/subsolvers/gqtpar_fast.py: gqtpar_fast, _check_for_interior_convergence_and_update, _update_lambdas_when_factorization_unsuccessful", "src/tranquilo/subsolvers/gqtpar.py: gqtpar"]}
{"id": "C125", "title": "The legend of the diagnostic plot names everything once", "statement": "In the figure of visualize_tranquilo no name is listed twice in the legend, no trace is removed, renamed or reordered, and a name is listed if and only if its first trace was to be listed.", "quantifier": "All lists of traces of any length with any names, in any order, shown in the legend or not.", "why_tests_cant": "Which traces are drawn depends on the history and on the selected iterations, so all orders of names and flags have to be covered.", "anchors": ["src/tranquilo/visualize.py: _clean_legend_duplicates, visualize_tranquilo"]}
{"id": "C126", "title": "Model types and models agree on second order terms", "statement": "A fitted surrogate model has second order terms if and only if its model type is quadratic, with and without residualizing and after moving it to another region. The aggregated model that a subsolver receives always has second order terms, in every state of a run.", "quantifier": "All model types, samples, function values (also infinite and NaN), regions and old models; all aggregators; all runs with the built in components that return, with any number of iterations and any criterion.", "why_tests_cant": "Subsolvers read the second order terms without a check, so one path in one configuration that loses them breaks a run; all paths have to be covered.", "anchors": ["src/tranquilo/models.py: is_second_order_model, move_model, add_models", "src/tranquilo/fit_models.py: _fitter_template", "src/tranquilo/aggregate_models.py: get_aggregator", "src/tranquilo/tranquilo.py: _internal_tranquilo"]}
{"id": "C127", "title": "The direction in which parameters are measured does not matter", "statement": "If some parameters are replaced by their negatives (start vector, argument of the criterion, and bounds, where lower and upper bound change places), minimize visits the mirrored points one after the other, evaluates them equally often, takes the same decisions and returns the mirrored solution with the same message, provided that the random numbers that the samplers draw are mirrored as well, the fitter is not powell and the subsolvers have no preferred direction. Default radius and all other options need no change. Conjugate gradients have no preferred direction, and the fallback solvers have none if scipy's optimizer has none. bntr, the default solver for boxes, has one: its convergence test treats lower and upper bounds differently. At a stationary point of the model every solver that moves has one.", "quantifier": "All criteria, functypes, numbers of parameters and residuals, choices of mirrored parameters, start vectors, radii, options, noise settings, filters, samplers, fitters other than powell, aggregators, deciders, evaluation outcomes (infinite and NaN included) and exceptions; with bounds: all boxes without fixed parameters, all deciders except for the line search, components that do not raise.", "why_tests_cant": "A test mirrors one problem once and compares floating point numbers within a tolerance; a sign that is wrong in one of the samplers, or a bound that is treated differently from its counterpart, shows only in some states of some runs.", "anchors": ["src/tranquilo/tranquilo.py: _internal_tranquilo", "src/tranquilo/region.py: Region, _map_to_unit_cube, _map_from_unit_cube, _create_cube_bounds", "src/tranquilo/sample_points.py: _interior_sampler, _hull_sampler", "src/tranquilo/fit_models.py: get_fitter", "src/tranquilo/models.py: VectorModel, ScalarModel", "src/tranquilo/solve_subproblem.py: get_subsolver", "src/tranquilo/subsolvers/bntr_fast.py: _check_for_convergence, _get_fischer_burmeister_direction_vector"]}
{"id": "C128", "title": "Only lengths and angles of the residual vectors matter in least squares", "statement": "If the residual vector of a least squares criterion is multiplied by a fixed matrix with orthonormal columns (other signs, a rotation, additional residuals that are always zero, a residual that is split into several whose squares add up to its square), a run of minimize without noise is the same: the same points are evaluated in the same order, the same decisions are taken, the same solution and message are returned, or the same exception is raised. Only the stored models of the single residuals are others. For a likelihood the same holds if the new contributions also have the same sum. The residuals must be finite: the numbers that replace infinite and undefined residuals depend on the sign.", "quantifier": "All criteria with finite residuals, numbers of parameters and of old and new residuals, matrices with orthonormal columns, start vectors, radii, bounds, options without noise, filters, samplers, fitters (with and without residualization), subsolvers, deciders and exceptions.", "why_tests_cant": "A test compares two floating point runs for one rotation within a tolerance; a fitter, a move of a model or an aggregation that treats residuals unequally shows only for particular data.", "anchors": ["src/tranquilo/tranquilo.py: _internal_tranquilo", "src/tranquilo/history.py: History.add_evals", "src/tranquilo/fit_models.py: get_fitter, fit_ols, fit_ridge, fit_powell, fit_tranquilo", "src/tranquilo/models.py: VectorModel, move_model, add_models", "src/tranquilo/aggregate_models.py: aggregator_least_squares_linear, aggregator_information_equality_linear", "src/tranquilo/handle_infinity.py: clip_relative"]}
{"id": "C129", "title": "The choice of the coordinate axes does not matter without bounds", "statement": "If the parameters of a problem without bounds are measured along other orthogonal axes (the new parameters are R @ x, where R has orthonormal columns, and the criterion first computes the old parameters), the start vector is rotated and the run is otherwise unchanged, then minimize evaluates the rotated points in the same order, takes the same decisions and returns the rotated solution with the same value and message, or raises the same exception. This is expected with an explicit initial radius, linear models of the residuals, rotated random draws, a subsolver that does not prefer any axes, and no relative tolerance for the parameters. It is false for the default initial radius, for a positive relative tolerance (both look at single coordinates), and for quadratic models with more coefficients than points.", "quantifier": "All criteria, numbers of parameters and residuals, rotations and reflections, start vectors, radii, options with and without noise, filters, samplers with normal draws, fitters with linear models, aggregators, deciders, exceptions.", "why_tests_cant": "A test compares two floating point runs for one rotation within a tolerance, and small differences are amplified by later decisions; the property needs all rotations and exact comparison.", "anchors": ["src/tranquilo/tranquilo.py: _internal_tranquilo, _is_converged", "src/tranquilo/options.py: get_default_radius_options", "src/tranquilo/fit_models.py: get_fitter, fit_ols, fit_ridge, fit_powell, fit_tranquilo", "src/tranquilo/models.py: VectorModel, ScalarModel, move_model, add_models", "src/tranquilo/sample_points.py: get_sampler, _hull_sampler, _optimal_hull_sampler", "src/tranquilo/filter_points.py: drop_worst_points", "src/tranquilo/subsolvers/_conjugate_gradient.py: minimize_trust_cg"]}
{"id": "C130", "title": "A run that starts at a minimum stays there, reduces its region, and recognises it", "statement": "If minimize is started at a minimum of a criterion without noise, the run keeps the value of the start (and the point, if the minimum is strict), and every iteration multiplies the trust region radius by the shrinking factor until the least radius is reached. One expects that such a run then reports convergence. It does not: convergence is only checked after accepted steps, so at a strict minimum it is reported only if a step to the start itself is proposed, and the start is then evaluated again as a new point. If a positive improvement is required for acceptance, the run never reports convergence and goes on until max_iter or max_eval.", "quantifier": "All criteria without noise, start vectors, numbers of parameters, bounds, start radii between the least and the largest radius, numbers of iterations, options (classic, naive and line search acceptance), filters, samplers, fitters and solvers that promise no negative improvement.", "why_tests_cant": "A test runs one criterion for some iterations; that no run ever leaves a minimum, the exact sequence of radii, and that convergence is never reported are statements about all criteria and all numbers of iterations.", "anchors": ["src/tranquilo/tranquilo.py: _internal_tranquilo, _is_converged", "src/tranquilo/adjust_radius.py: adjust_radius", "src/tranquilo/acceptance_decision.py: _accept_classic, accept_naive_noisy, accept_classic_line_search, calculate_rho, _get_acceptance_result"]}
{"id": "C131", "title": "The number of cores does not change a run", "statement": "One expects that n_cores only changes how long a call of minimize takes. That is true once batch_size is given: two calls that differ only in n_cores (at most batch_size) have the same outcome, the same exception or the same run with all points, states and messages. Without batch_size it is false: n_cores becomes the batch size, and with it the number of sampled points, the filter and the reaction to stagnation change. The call with c cores is then the call with one core and batch_size c. With more cores than batch_size the call raises a ValueError.", "quantifier": "All criteria, start vectors, bounds, numbers of parameters, numbers of cores and batch sizes, all values of all other arguments (also invalid ones, also functions of the user for the components).", "why_tests_cant": "A test compares two numbers of cores for one problem; that no option lets the number of cores into the run in another way than through the batch size is a statement about all arguments.", "anchors": ["src/tranquilo/process_arguments.py: process_arguments, _process_batch_size, _process_n_cores", "src/tranquilo/options.py: get_default_batch_size, get_default_sample_size", "src/tranquilo/wrap_criterion.py: get_wrapped_criterion", "src/tranquilo/tranquilo.py: _tranquilo"]}
{"id": "C132", "title": "Bounds that no trust region reaches do not matter", "statement": "If all trust regions of a call without bounds (with other bounds) end before given bounds in every coordinate, then the call with these bounds returns the same: the same points, values, models, radii, number of evaluations and message. With the line search, also the regions around evaluated points in which it samples must end before the bounds. It is not enough that no evaluated point reaches the bounds: a trust region that would reach them is replaced by a box, and other points are sampled.", "quantifier": "All criteria (also noisy ones), start vectors, numbers of parameters, all pairs of bounds, all values of all other arguments, numbers of iterations, user components that look at the bounds only through the shape of the region.", "why_tests_cant": "A test compares a run with and without bounds for one problem; that no component reads the bounds in any other way is a statement about all runs and all bounds.", "anchors": ["src/tranquilo/region.py: Region, _get_shape, _any_bounds_binding, _map_to_unit_sphere, _map_from_unit_sphere", "src/tranquilo/tranquilo.py: _internal_tranquilo", "src/tranquilo/sample_points.py: _interior_sampler, _hull_sampler, _optimal_hull_sampler", "src/tranquilo/solve_subproblem.py: _solve_subproblem_template", "src/tranquilo/acceptance_decision.py: accept_classic_line_search, _generate_speculative_sample, _is_on_border"]}
{"id": "C133", "title": "A criterion without noise is evaluated once at every point", "statement": "A call for a criterion without noise, with the default number of evaluations per point and the default acceptance decider or one of the classic ones, never spends two evaluations on one parameter vector: the number of evaluations equals the number of points, every point has exactly one value, and the k-th evaluation is the evaluation of the k-th point.", "quantifier": "All criteria, start vectors, bounds, numbers of parameters, all other arguments and options, all functions called outside (random numbers, solvers, compiled code), all numbers of iterations.", "why_tests_cant": "A test counts the evaluations in a few runs; that no rule for re-evaluating noisy points is reached in any run without noise, with any sampler, filter, subsolver or line search, is a statement about all runs.", "anchors": ["src/tranquilo/tranquilo.py: _internal_tranquilo", "src/tranquilo/process_arguments.py: process_arguments, _process_n_evals_at_start, _process_acceptance_decider", "src/tranquilo/history.py: History.add_xs, History.add_evals", "src/tranquilo/acceptance_decision.py: _accept_simple, accept_classic_line_search", "src/tranquilo/wrap_criterion.py: get_wrapped_criterion"]}
{"id": "C134", "title": "The states in the result describe the iterations as documented", "statement": "Every state after the first one says about its iteration what the documentation of State says: the trust region is the one at the beginning of the iteration, centered at the point accepted before; the model was fitted on that region from the points with the listed indices; the solution of the subproblem for that model is the candidate; an accepted candidate is the new point with its index and a rejected one leaves point, index and value as they were; the step length is the distance of the point from the center and the relative step length is the step length divided by the radius; the number of evaluations of the acceptance step is the one that the decider requests (one, ten for the naive noisy decider, between n_min and n_max for the noisy one), and the solution of the subproblem is in the history with at least that many evaluations.", "quantifier": "All runs that return, all consecutive states, all criteria, components, options, arguments of the call, numbers of parameters and iterations.", "why_tests_cant": "The fields are filled from variables that several loops overwrite (model, indices, candidate); that they belong together in every state of every run cannot be seen from examples.", "anchors": ["src/tranquilo/tranquilo.py: State, _internal_tranquilo", "src/tranquilo/acceptance_decision.py: _accept_simple, accept_classic_line_search, accept_noisy, _get_acceptance_result"]}
{"id": "C135", "title": "Evaluations stay near the current point, and runs cannot run away", "statement": "Without line search the criterion is only evaluated at points of the trust region of some iteration, up to the factor by which the corners of the cube near the bounds or an inexact solver of the subproblem leave the ball; with line search up to eight times the radius away. No evaluated point is farther from the start vector than the sum of the radii of the iterations times these factors, hence not farther than max_iter times the largest radius times these factors.", "quantifier": "All runs and calls that return, all criteria, start vectors, bounds, options, numbers of parameters and iterations, all results of random numbers, solvers and optimizers within their contracts.", "why_tests_cant": "A bound on all evaluations of all runs of any length; tests see finitely many criteria and seeds.", "anchors": ["src/tranquilo/tranquilo.py: _internal_tranquilo", "src/tranquilo/acceptance_decision.py: accept_classic_line_search, _generate_speculative_sample, _sample_on_line, _generate_alpha_grid", "src/tranquilo/sample_points.py: get_sampler", "src/tranquilo/solve_subproblem.py: _solve_subproblem_template", "src/tranquilo/adjust_radius.py: adjust_radius"]}
{"id": "C136", "title": "rho and the decision in the states are the true ones", "statement": "On a criterion without noise and with finite values, with any built in acceptance decider (the noisy one with 1 <= n_min <= n_max), every state after the first one tells what happened: its function value is the value of the criterion at its point; rho is the actual improvement of the proposed step divided by the improvement that the stored model expects, infinite with the sign of the actual improvement if the model expects none; a step that improves by at least min_improvement is accepted; an accepted point improves by at least min_improvement on the center of the stored trust region and is at least as good as the proposed one; after a rejected step the point is the center. Without the line search the step is accepted exactly if the proposed point improves by at least min_improvement, and then it is the new point.", "quantifier": "All runs and calls that return, all criteria without noise, start vectors, bounds, options, numbers of parameters and iterations, all results of the samplers, fitters and subsolvers.", "why_tests_cant": "An invariant over all states of runs of any length; tests look at single decisions with fixed inputs.", "anchors": ["src/tranquilo/tranquilo.py: _internal_tranquilo, State", "src/tranquilo/acceptance_decision.py: _accept_simple, accept_classic_line_search, accept_noisy, calculate_rho, _get_acceptance_result"]}
{"id": "C137", "title": "The result is the best evaluated point", "statement": "On a criterion without noise and with finite values, the result is at least as good as every point at which the criterion was evaluated, up to min_improvement. (False: points that were only sampled to fit a model are never taken over. True for all other points: the start vector, all proposed points and all points of line searches.)", "quantifier": "All runs and calls that return, all criteria without noise, start vectors, bounds, options with min_improvement >= 0 and 1 <= n_min <= n_max, all deciders, samplers, fitters and subsolvers, all numbers of parameters and iterations.", "why_tests_cant": "Compares the result with all evaluations of runs of any length; a test with a nice criterion rarely samples a point that is better than the proposal.", "anchors": ["src/tranquilo/tranquilo.py: _internal_tranquilo", "src/tranquilo/acceptance_decision.py: _accept_simple, accept_classic_line_search, accept_noisy, _get_acceptance_result"]}
{"id": "C138", "title": "A run ends with the first step that fulfills a convergence criterion", "statement": "Unless convergence is disabled, no accepted step that fulfills a convergence criterion (with the tolerances that the user passed) is overlooked: the run ends with this step, reports convergence, and the message names the first criterion that holds in the order gradient, criterion value, parameters, relative before absolute.", "quantifier": "All runs and calls that return, all criteria, start vectors, bounds, tolerances and other options, all deciders, samplers, fitters and subsolvers, all numbers of parameters and iterations, all pairs of consecutive states of the run.", "why_tests_cant": "The claim is about all pairs of consecutive states of runs of any length, also with infinite or missing values; a test sees the end of single runs and cannot see an overlooked criterion.", "anchors": ["src/tranquilo/tranquilo.py: _internal_tranquilo, _is_converged", "src/tranquilo/options.py: ConvOptions"]}
{"id": "C139", "title": "The number of accepted steps is limited by the total improvement", "statement": "On a criterion without noise and with convergence not disabled, every accepted step except possibly the last one improves the criterion by more than the absolute and the relative tolerance for the criterion value. Hence the number of accepted steps before the last iteration times the larger tolerance is at most the improvement from the start vector to the result; on a criterion that is bounded from below the number of accepted steps is limited whatever the limits on iterations and evaluations are.", "quantifier": "All runs and calls that return, all criteria without noise and with finite values, start vectors, bounds, tolerances (the relative one nonnegative), options with min_improvement >= 0, all deciders, samplers, fitters and subsolvers, all numbers of parameters and iterations.", "why_tests_cant": "A bound over runs of any length that relates all steps to the final improvement; a test sees single runs on single criteria.", "anchors": ["src/tranquilo/tranquilo.py: _internal_tranquilo, _is_converged", "src/tranquilo/acceptance_decision.py: _accept_simple, accept_classic_line_search, accept_noisy"]}
