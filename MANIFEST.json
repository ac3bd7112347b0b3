{
 "claims": [
  {
   "property": "C01",
   "status": "proved",
   "theorems": [
    "Tranquilo.C01_vectors_never_lost",
    "Tranquilo.C01_single_vector_never_lost"
   ],
   "note": "All operation sequences, including failing operations; explicit buffer growth."
  },
  {
   "property": "C02",
   "status": "proved",
   "theorems": [
    "Tranquilo.C02_evaluations_read_back",
    "Tranquilo.C02_evaluations_read_back_many",
    "Tranquilo.C02_scalars_in_arrays"
   ],
   "note": "For traces of successful submissions (Spec/History.lean). C02_scalars_in_arrays covers scalar criteria whose values arrive as arrays."
  },
  {
   "property": "C03",
   "status": "proved",
   "theorems": [
    "Tranquilo.C03_names",
    "Tranquilo.C03_fvals_agree_with_fvecs"
   ],
   "note": "All three function types."
  },
  {
   "property": "C04",
   "status": "proved",
   "theorems": [
    "Tranquilo.C04_counters_exact"
   ],
   "note": "Counters after every trace."
  },
  {
   "property": "C05",
   "status": "proved",
   "theorems": [
    "Tranquilo.C05_region_query_exact"
   ],
   "note": "Over the reals with the Euclidean norm."
  },
  {
   "property": "C06",
   "status": "partial",
   "theorems": [
    "Tranquilo.C06_failed_add_evals_atomic_partial",
    "Tranquilo.C06_failed_add_xs_atomic",
    "Tranquilo.C06_violated_by_negative_index"
   ],
   "note": "False for negative indices (witness C06_violated_by_negative_index); proved for non-negative indices."
  },
  {
   "property": "C07",
   "status": "partial",
   "theorems": [
    "Tranquilo.C07_model_data_averaged_partial",
    "Tranquilo.C07_mean_of_finite_values",
    "Tranquilo.C07_model_data_full_partial",
    "Tranquilo.C07_violated_whenever_repeated",
    "Tranquilo.C07_violated_by_repeated_index"
   ],
   "note": "Proved for duplicate free index lists, with and without averaging. False as soon as an index is repeated: C07_violated_whenever_repeated says for all such lists what is returned instead (fewer rows of values than vectors, or ValueError)."
  },
  {
   "property": "C08",
   "status": "partial",
   "theorems": [
    "Tranquilo.C08_scalar_request_carried_out",
    "Tranquilo.C08_vector_request_carried_out_partial",
    "Tranquilo.C08_counts",
    "Tranquilo.C08_violated_vector_batch"
   ],
   "note": "Proved for scalar criteria with arbitrary (also failing) results and for vector criteria whose results all have the same width. Vector criteria that raise after a first successful evaluation: C09_vector_request_partial says exactly when the evaluations of a request are recorded; they are not if one of several raises (C08_violated_vector_batch)."
  },
  {
   "property": "C09",
   "status": "partial",
   "theorems": [
    "Tranquilo.C09_recorded_scalar",
    "Tranquilo.C09_single_failure_vector_partial",
    "Tranquilo.C09_vector_request_partial",
    "Tranquilo.C09_violated_vector_batch",
    "Tranquilo.C09_violated_first_evaluation"
   ],
   "note": "Proved for scalar criteria. For vector criteria false when an evaluation of a batch of several fails, or the first one fails (witnesses). Complete characterisation once an evaluation has succeeded: C09_vector_request_partial (a request with an exception and at least two results raises ValueError and leaves the history unchanged; every other request is recorded)."
  },
  {
   "property": "C10",
   "status": "proved",
   "theorems": [
    "Tranquilo.C10_schedule_independent",
    "Tranquilo.C10_worker_count",
    "Tranquilo.C10_zero_workers_possible",
    "Tranquilo.C10_batch_evaluator_choice"
   ],
   "note": "All completion orders; the batch evaluator's own order contract is the modelled behaviour of the external package. With counts that are all zero there are no tasks and no workers (C10_zero_workers_possible)."
  },
  {
   "property": "C11",
   "status": "proved",
   "theorems": [
    "Tranquilo.C11_classic_accepts_iff_improved",
    "Tranquilo.C11_classic_never_worse",
    "Tranquilo.C11_line_search_accepted_improved",
    "Tranquilo.C11_line_search_accepts"
   ],
   "note": "Classic: exact iff. Line search: accepted implies improved; conversely an improving point is accepted unless a new value is -inf or the candidate's value is NaN (then the code rejects)."
  },
  {
   "property": "C12",
   "status": "proved",
   "theorems": [
    "Tranquilo.C12_rejected_changes_nothing",
    "Tranquilo.C12_step_lengths"
   ],
   "note": "All four deciders, all options."
  },
  {
   "property": "C13",
   "status": "proved",
   "theorems": [
    "Tranquilo.C13_accepted_is_finite",
    "Tranquilo.C13_nonfinite_rejected",
    "Tranquilo.C13_region_shrinks"
   ],
   "note": "All four deciders; includes the consequence for the radius."
  },
  {
   "property": "C14",
   "status": "proved",
   "theorems": [
    "Tranquilo.C14_threshold",
    "Tranquilo.C14_sign",
    "Tranquilo.C14_zero_expected",
    "Tranquilo.C14_infinite_start",
    "Tranquilo.C14_sign_general"
   ],
   "note": "Generic ordered field, IEEE infinities."
  },
  {
   "property": "C15",
   "status": "proved",
   "theorems": [
    "Tranquilo.C15_line_search_spends_one_batch",
    "Tranquilo.C15_accepts_the_best"
   ],
   "note": "All samplers that return the requested number of points."
  },
  {
   "property": "C16",
   "status": "partial",
   "theorems": [
    "Tranquilo.C16_line_search_in_bounds_partial",
    "Tranquilo.C16_violated_beyond_bound"
   ],
   "note": "False of the code (witness C16_violated_beyond_bound: line points are not clipped). Proved if the farthest line point is feasible or the candidate is not on the border."
  },
  {
   "property": "C17",
   "status": "partial",
   "theorems": [
    "Tranquilo.C17_accepted_partial",
    "Tranquilo.C17_violated_by_rejected_step"
   ],
   "note": "Proved for accepted steps; after rejected steps the reported value is stale (witness)."
  },
  {
   "property": "C18",
   "status": "proved",
   "theorems": [
    "Tranquilo.C18_factor_is_finite",
    "Tranquilo.C18_power"
   ],
   "note": "'Not cut off' is expressed through the returned numbers."
  },
  {
   "property": "C19",
   "status": "proved",
   "theorems": [
    "Tranquilo.C19_sample_sizes_within_limits"
   ],
   "note": "All inputs."
  },
  {
   "property": "C20",
   "status": "partial",
   "theorems": [
    "Tranquilo.C20_radius_at_most_max",
    "Tranquilo.C20_radius_within_limits_partial",
    "Tranquilo.C20_finite_ratio_long_step_partial",
    "Tranquilo.C20_violated_by_finite_step_ratio",
    "Tranquilo.C20_call_partial",
    "Tranquilo.C20_default_call_partial",
    "Tranquilo.C20_radius_in_a_run_partial"
   ],
   "note": "False for finite max_radius_to_step_ratio (general witness); proved otherwise, by induction over iterations. C20_radius_in_a_run_partial lifts the limits to all runs of the optimizer. For whole calls: C20_call_partial (the values in force of min_radius and max_radius) and C20_default_call_partial (no options for the radius: a tenth of the largest parameter in the first iteration, then between 1e-6 and 1e6)."
  },
  {
   "property": "C21",
   "status": "proved",
   "theorems": [
    "Tranquilo.C21_not_enlarged",
    "Tranquilo.C21_not_reduced",
    "Tranquilo.C21_rule",
    "Tranquilo.C21_unsuccessful_reaches_min",
    "Tranquilo.C21_unsuccessful_steps_in_a_run",
    "Tranquilo.C21_default_call",
    "Tranquilo.C21_more_evaluations",
    "Tranquilo.C21_in_a_run"
   ],
   "note": "Includes convergence to min_radius over Archimedean fields. C21_in_a_run lifts the rule to consecutive iterations of all runs; C21_more_evaluations for iterations after which points are evaluated more often. C21_unsuccessful_steps_in_a_run: in runs without noise, unsuccessful iterations in a row shrink the radius geometrically down to min_radius. C21_default_call: the rule in numbers for whole calls with default options for the radius."
  },
  {
   "property": "C22",
   "status": "partial",
   "theorems": [
    "Tranquilo.C22_single_change_partial",
    "Tranquilo.C22_n_evals_within_limits_partial",
    "Tranquilo.C22_direction",
    "Tranquilo.C22_violated_outside_limits",
    "Tranquilo.C22_default_call_partial",
    "Tranquilo.C22_call_partial",
    "Tranquilo.C22_in_a_run_partial"
   ],
   "note": "Proved for start values within the limits; witness for a start value above the limit. C22_in_a_run_partial lifts the limits to all runs of the optimizer. For whole calls: C22_call_partial, and C22_default_call_partial (between 1 and 30, starting with 1)."
  },
  {
   "property": "C23",
   "status": "proved",
   "theorems": [
    "Tranquilo.C23_drop_worst",
    "Tranquilo.C23_drops_from_closest_pair"
   ],
   "note": "All point lists, indices and numbers of points to drop."
  },
  {
   "property": "C24",
   "status": "proved",
   "theorems": [
    "Tranquilo.C24_clustering_may_drop_center",
    "Tranquilo.C24_center_survives_drop_worst",
    "Tranquilo.C24_center_survives_drop_excess",
    "Tranquilo.C24_center_survives_simple_filters",
    "Tranquilo.C24_limit_zero_drops_center"
   ],
   "note": "drop_worst_points, drop_excess and the simple filters keep the center under the stated conditions; the exact exceptions (limit zero, clustering) are theorems of their own."
  },
  {
   "property": "C25",
   "status": "proved",
   "theorems": [
    "Tranquilo.C25_drop_excess"
   ],
   "note": "All inputs."
  },
  {
   "property": "C26",
   "status": "proved",
   "theorems": [
    "Tranquilo.C26_filter",
    "Tranquilo.C26_clustering"
   ],
   "note": "All inputs; the loop of the code is unbounded, the model's fuel is proved sufficient."
  },
  {
   "property": "C27",
   "status": "proved",
   "theorems": [
    "Tranquilo.C27_sphere_strictly_in_bounds",
    "Tranquilo.C27_cube_iff_bound_within_radius"
   ],
   "note": "Any mixture of finite and infinite bounds; sharp characterisation of the shape."
  },
  {
   "property": "C28",
   "status": "partial",
   "theorems": [
    "Tranquilo.C28_cube_points_in_bounds_partial",
    "Tranquilo.C28_center_in_cube",
    "Tranquilo.C28_cube_is_intersection",
    "Tranquilo.C28_violated_for_infeasible_center"
   ],
   "note": "Proved for feasible centers; witness for an infeasible center."
  },
  {
   "property": "C29",
   "status": "proved",
   "theorems": [
    "Tranquilo.C29_sphere_bijection",
    "Tranquilo.C29_cube_bijection",
    "Tranquilo.C29_cube_nondegenerate",
    "Tranquilo.C29_violated_for_fixed_parameter"
   ],
   "note": "Includes when the cube is non-degenerate; witness for fixed parameters (degenerate cube)."
  },
  {
   "property": "C30",
   "status": "proved",
   "theorems": [
    "Tranquilo.C30_sphere_volume_is_lebesgue",
    "Tranquilo.C30_cube_volume_is_lebesgue",
    "Tranquilo.C30_same_volume",
    "Tranquilo.C30_conversions_inverse",
    "Tranquilo.C30_scaling",
    "Tranquilo.C30_radius_volume_inverse"
   ],
   "note": "Against Mathlib's Lebesgue measure."
  },
  {
   "property": "C31",
   "status": "partial",
   "theorems": [
    "Tranquilo.C31_vector_model_partial",
    "Tranquilo.C31_spheres",
    "Tranquilo.C31_linear_models",
    "Tranquilo.C31_scalar_model_partial",
    "Tranquilo.C31_violated_for_linear_scalar_models",
    "Tranquilo.C31_violated_in_boxes"
   ],
   "note": "Proved for spheres, for linear models, for vector models in boxes without second order terms. False otherwise: move_model scales only the columns of the Hessian in boxes (C31_violated_in_boxes) and scalar models without square terms raise (C31_violated_for_linear_scalar_models)."
  },
  {
   "property": "C32",
   "status": "partial",
   "theorems": [
    "Tranquilo.C32_vector_models_partial",
    "Tranquilo.C32_scalar_models_partial",
    "Tranquilo.C32_rejections",
    "Tranquilo.C32_violated"
   ],
   "note": "False if the first model has no square terms and the second has (C32_violated); proved in all other cases."
  },
  {
   "property": "C33",
   "status": "proved",
   "theorems": [
    "Tranquilo.C33_features",
    "Tranquilo.C33_prediction_is_inner_product",
    "Tranquilo.C33_predictions_of_many_points"
   ],
   "note": " C33_predictions_of_many_points: one row per point, in order, for arrays of points."
  },
  {
   "property": "C34",
   "status": "proved",
   "theorems": [
    "Tranquilo.C34_least_squares_in_a_run",
    "Tranquilo.C34_ridge_in_a_run",
    "Tranquilo.C34_ols",
    "Tranquilo.C34_tranquilo",
    "Tranquilo.C34_ridge"
   ],
   "note": "numpy.linalg.lstsq and the square root enter through contracts (LstsqSpec, RootSpec); a least squares solver that meets the contract exists (exists_lstsq)."
  },
  {
   "property": "C35",
   "status": "proved",
   "theorems": [
    "Tranquilo.C35_fit_in_a_run",
    "Tranquilo.C35_affine_residuals_in_a_run",
    "Tranquilo.C35_ols",
    "Tranquilo.C35_tranquilo",
    "Tranquilo.C35_fit_reproduces_data"
   ],
   "note": "numpy.linalg.lstsq and the square root enter through contracts (LstsqSpec, RootSpec). C35_fit_in_a_run states it for the fits of a run, with the evaluations read from the history."
  },
  {
   "property": "C36",
   "status": "proved",
   "theorems": [
    "Tranquilo.C36_number_of_features",
    "Tranquilo.C36_other_types_rejected",
    "Tranquilo.C36_second_order_count"
   ],
   "note": ""
  },
  {
   "property": "C37",
   "status": "proved",
   "theorems": [
    "Tranquilo.C37_identity",
    "Tranquilo.C37_identity_needs_one_residual",
    "Tranquilo.C37_sum",
    "Tranquilo.C37_least_squares",
    "Tranquilo.C37_information_equality",
    "Tranquilo.C37_unknown_aggregator"
   ],
   "note": ""
  },
  {
   "property": "C38",
   "status": "partial",
   "theorems": [
    "Tranquilo.C38_columns_in_a_run_partial",
    "Tranquilo.C38_finite_entries_unchanged",
    "Tranquilo.C38_infinite_entries_partial",
    "Tranquilo.C38_no_overflow",
    "Tranquilo.C38_violated_for_equal_values",
    "Tranquilo.C38_violated_witness"
   ],
   "note": "False if all finite values of a residual are equal (C38_violated_for_equal_values): infinite values become +-1. Proved otherwise."
  },
  {
   "property": "C39",
   "status": "proved",
   "theorems": [
    "Tranquilo.C39_expected_improvement_in_a_run",
    "Tranquilo.C39_expected_improvement"
   ],
   "note": "Also stated for the candidate that the acceptance decision of a run sees (C39_expected_improvement_in_a_run)."
  },
  {
   "property": "C40",
   "status": "partial",
   "theorems": [
    "Tranquilo.C40_ball_with_fallback_solvers",
    "Tranquilo.C40_gqtpar_norm_partial",
    "Tranquilo.C40_violated_slack",
    "Tranquilo.C40_violated_zero_gradient",
    "Tranquilo.C40_box",
    "Tranquilo.C40_ball_partial"
   ],
   "note": "False for the default solver gqtpar: C40_violated_slack (a step of norm 1.1 leaves the ball and the bounds) and C40_violated_zero_gradient (a step of norm 2). Proved: boxes with arbitrary solvers, balls if the solver stays in the ball, and for gqtpar that a converged step has norm at most 1 + k_easy if the gradient is not zero."
  },
  {
   "property": "C41",
   "status": "proved",
   "theorems": [
    "Tranquilo.C41_exceptions"
   ],
   "note": ""
  },
  {
   "property": "C42",
   "status": "proved",
   "theorems": [
    "Tranquilo.C42_strict_decrease",
    "Tranquilo.C42_in_region_and_descent",
    "Tranquilo.C42_cauchy_decrease"
   ],
   "note": "minimize_trust_cg: the result lies in the trust region, its model value is at most that of every earlier iterate and at most the value of the Cauchy point; any gradient, any symmetric Hessian, any radius > 0, exact arithmetic with a square root satisfying SqrtSpec. The iteration limit 2 n of the code is part of the model (see C102)."
  },
  {
   "property": "C43",
   "status": "partial",
   "theorems": [
    "Tranquilo.C43_in_region_partial",
    "Tranquilo.C43_violated",
    "Tranquilo.C43_violated_linear_model"
   ],
   "note": "False as stated: for a concave model Steihaug-Toint returns x=-2 in a region of radius one, and for a zero Hessian it divides by zero (C43_violated, C43_violated_linear_model). Proved part: positive curvature along all directions used."
  },
  {
   "property": "C44",
   "status": "proved",
   "theorems": [
    "Tranquilo.C44_update_in_bracket",
    "Tranquilo.C44_update_strictly_inside",
    "Tranquilo.C44_initial_bracket",
    "Tranquilo.C44_initial_contains_multiplier",
    "Tranquilo.C44_lower_bound_valid"
   ],
   "note": "Beyond the statement: the initial bracket contains every true multiplier, and the lower bound stays valid in whole runs."
  },
  {
   "property": "C45",
   "status": "partial",
   "theorems": [
    "Tranquilo.C45_sufficient",
    "Tranquilo.C45_boundary_step_has_norm_one",
    "Tranquilo.C45_near_optimal_partial",
    "Tranquilo.C45_first_pass",
    "Tranquilo.C45_near_optimal_without_convexity",
    "Tranquilo.C45_near_optimal",
    "Tranquilo.C45_numpy_version",
    "Tranquilo.C45_violated_interior"
   ],
   "note": "The optimality conditions are sufficient (C45_sufficient) and boundary steps have norm one; the clause on results with lambda = 0 is false (C45_violated_interior: the minimizer 0.9 is moved to 1). Proved instead: the model value of a result with success is within the factor 1 - k_hard of the best value on the ball as long as reused factors belong to a positive factor (C45_near_optimal_partial), which is always so unless the model is positive definite (C45_near_optimal_without_convexity); the share min(1 - k_hard, 0.47) holds for all symmetric models without further conditions (C45_near_optimal; C45_numpy_version under the contracts of C73)."
  },
  {
   "property": "C46",
   "status": "proved",
   "theorems": [
    "Tranquilo.C46_in_bounds"
   ],
   "note": "For every inner solver, all tolerances and all numbers of iterations, on the model of bntr_fast (exact numbers, finite bounds)."
  },
  {
   "property": "C47",
   "status": "proved",
   "theorems": [
    "Tranquilo.C47_rejected_step",
    "Tranquilo.C47_terminates",
    "Tranquilo.C47_radius_follows_agreement"
   ],
   "note": "The inner loop ends after at most 35 passes, for every inner solver; a result with more fuel is the same (bntrInner_mono)."
  },
  {
   "property": "C48",
   "status": "partial",
   "theorems": [
    "Tranquilo.C48_accepted_step_partial",
    "Tranquilo.C48_step_within_bounds_partial",
    "Tranquilo.C48_violated"
   ],
   "note": "Violated: C48_violated is a convex model on the unit cube for which the default solver (without the initial gradient descent) returns a point that is worse than the start. Proved: an accepted step decreases the value unless predicted and actual change are at most one, and steps that the bounds do not cut off do not increase the value."
  },
  {
   "property": "C49",
   "status": "proved",
   "theorems": [
    "Tranquilo.C49_zero_iff_first_order",
    "Tranquilo.C49_stops_at_first_order"
   ],
   "note": "The norm of the direction is zero iff the bounds and the first order conditions hold; the solver stops at once at such points."
  },
  {
   "property": "C50",
   "status": "proved",
   "theorems": [
    "Tranquilo.C50_partition",
    "Tranquilo.C50_no_free_parameter"
   ],
   "note": "Each parameter is in exactly one class, the classes mean what their names say, and without free parameters the point is stationary."
  },
  {
   "property": "C51",
   "status": "partial",
   "theorems": [
    "Tranquilo.C51_in_region_and_descent_partial",
    "Tranquilo.C51_optimal_within_bounds_partial",
    "Tranquilo.C51_bounds_two_parameters_partial",
    "Tranquilo.C51_returns_in_order_partial",
    "Tranquilo.C51_violated_stop_iteration",
    "Tranquilo.C51_violated_bounds",
    "Tranquilo.C51_violated_threshold"
   ],
   "note": "Violated: C51_violated_stop_iteration (uncaught StopIteration), C51_violated_bounds (a bound that was not active at first is not looked at again), C51_violated_threshold. Proved: returned points are in the region and descend; they are optimal if they satisfy the bounds; they satisfy the bounds for up to two parameters; the solver returns if the bounds are met in the order of the parameters."
  },
  {
   "property": "C52",
   "status": "proved",
   "theorems": [
    "Tranquilo.C52_inscribed_cube",
    "Tranquilo.C52_fallback_cube",
    "Tranquilo.C52_reparametrized",
    "Tranquilo.C52_reparametrized_value",
    "Tranquilo.C52_multistart",
    "Tranquilo.C52_gradient",
    "Tranquilo.C52_constraint_gradient",
    "Tranquilo.C52_norm_constraint",
    "Tranquilo.C52_norm_constraint_outside"
   ],
   "note": "scipy.optimize.minimize enters through the contract ScipySpec (result inside the bounds it was given). For the solver with a norm constraint SLSQP enters through SlsqpSpec (inside the bounds; constraint met up to a tolerance if success is reported). If SLSQP does not report success, the candidate of this solver can be outside of the trust region (C52_norm_constraint_outside)."
  },
  {
   "property": "C53",
   "status": "partial",
   "theorems": [
    "Tranquilo.C53_interior",
    "Tranquilo.C53_hull",
    "Tranquilo.C53_optimal_partial",
    "Tranquilo.C53_optimal_none_for_nonpositive",
    "Tranquilo.C53_violated_negative_raises",
    "Tranquilo.C53_violated_by_zero_row",
    "Tranquilo.C53_component"
   ],
   "note": "Proved for the three built in samplers, for all regions with feasible center, all nonzero draws and all optimizers that return no zero row. False for an optimizer that returns a zero row (NaN points, C53_violated_by_zero_row) and for negative n_points in two samplers (they raise)."
  },
  {
   "property": "C54",
   "status": "partial",
   "theorems": [
    "Tranquilo.C54_not_worse_than_any_draw_partial"
   ],
   "note": "Proved for all draws, criteria, existing points and optimizers without zero rows, against every random candidate. With a zero row the sample is NaN (C53_violated_by_zero_row)."
  },
  {
   "property": "C55",
   "status": "partial",
   "theorems": [
    "Tranquilo.C55_right_polynomial_partial",
    "Tranquilo.C55_violated_from_three_parameters"
   ],
   "note": "Proved up to two parameters. False for every number of parameters from three on (C55_violated_from_three_parameters): features are written row by row, coefficients read column by column."
  },
  {
   "property": "C56",
   "status": "partial",
   "theorems": [
    "Tranquilo.C56_name_selects_registered_function_partial",
    "Tranquilo.C56_unknown_name",
    "Tranquilo.C56_neither_name_nor_callable",
    "Tranquilo.C56_violated_by_callables_without_name"
   ],
   "note": "Proved for names and callables with a __name__; callables without __name__ (functools.partial) are refused with AttributeError (C56_violated_by_callables_without_name)."
  },
  {
   "property": "C57",
   "status": "partial",
   "theorems": [
    "Tranquilo.C57_built_iff",
    "Tranquilo.C57_missing_mandatory_argument",
    "Tranquilo.C57_call_receives",
    "Tranquilo.C57_undeclared_arguments_ignored",
    "Tranquilo.C57_surplus_positional_arguments_ignored",
    "Tranquilo.C57_violated_warnings",
    "Tranquilo.C57_redundant_options",
    "Tranquilo.C57_strict_call_refuses",
    "Tranquilo.C57_strict_keyword_call",
    "Tranquilo.C57_violated_option_by_position"
   ],
   "note": "Full characterization of when a component is built and what it receives; the optional warning about redundant arguments raises AttributeError (C57_violated_warnings)."
  },
  {
   "property": "C58",
   "status": "proved",
   "theorems": [
    "Tranquilo.C58_update_changes_named_fields",
    "Tranquilo.C58_no_user_options",
    "Tranquilo.C58_unknown_field",
    "Tranquilo.C58_update_succeeds_iff"
   ],
   "note": "Including exactly when the update succeeds."
  },
  {
   "property": "C59",
   "status": "partial",
   "theorems": [
    "Tranquilo.C59_accepted_arguments_partial",
    "Tranquilo.C59_violated_nan_factor",
    "Tranquilo.C59_unknown_values_refused"
   ],
   "note": "All listed guarantees but the positive search radius factor for NaN, which is accepted (C59_violated_nan_factor)."
  },
  {
   "property": "C60",
   "status": "partial",
   "theorems": [
    "Tranquilo.C60_full_batches_in_a_run_partial",
    "Tranquilo.C60_evaluations_at_start",
    "Tranquilo.C60_call_partial",
    "Tranquilo.C60_violated_by_stagnation_rounds",
    "Tranquilo.C60_next_multiple"
   ],
   "note": "C60_next_multiple for the arithmetic, C60_evaluations_at_start for the evaluations at the start. C60_full_batches_in_a_run_partial and C60_call_partial for runs and calls whose sample_increment is a multiple of the batch size. False otherwise, in particular with the default sample_increment of one and batch_size > 1: rounds against stagnation evaluate a single point (C60_violated_by_stagnation_rounds)."
  },
  {
   "property": "C61",
   "status": "proved",
   "theorems": [
    "Tranquilo.C61_call",
    "Tranquilo.C61_never_worse",
    "Tranquilo.C61_reported_values",
    "Tranquilo.C61_run_that_returns_is_never_worse"
   ],
   "note": "All four deciders for a criterion without noise; with noise the stored-value part (C61_reported_values). C61_call: for whole calls with arbitrary arguments (the built-in filters always select stored points, builtin_filterSelectsR)."
  },
  {
   "property": "C62",
   "status": "proved",
   "theorems": [
    "Tranquilo.C62_call",
    "Tranquilo.C62_states_refer_to_history",
    "Tranquilo.C62_values_without_noise",
    "Tranquilo.C62_states_of_a_run_that_returns"
   ],
   "note": " C62_call: for whole calls with arbitrary arguments."
  },
  {
   "property": "C63",
   "status": "partial",
   "theorems": [
    "Tranquilo.C63_call_partial",
    "Tranquilo.C63_default_call_partial",
    "Tranquilo.C63_limits_partial",
    "Tranquilo.C63_total_evaluations_partial",
    "Tranquilo.C63_run_that_returns_total_evaluations_partial",
    "Tranquilo.C63_violated_first_iteration",
    "Tranquilo.C63_total_evaluations_with_noise_partial",
    "Tranquilo.C63_run_that_returns_with_noise_partial",
    "Tranquilo.C63_filters_that_keep_few"
   ],
   "note": "False as stated: the first iteration runs even if the start evaluations already exhaust the limit (C63_violated_first_iteration). Proved: every further iteration starts below the limits, and the overshoot is bounded by one iteration: without noise C63_total_evaluations_partial, with noise and for all four deciders C63_total_evaluations_with_noise_partial, given a bound on the number of points that the filter keeps. discard_all and drop_excess have such a bound (C63_filters_that_keep_few); keep_all and clustering keep as many points as lie in the search region. For whole calls: C63_call_partial (arbitrary arguments, every built-in sampler) and C63_default_call_partial (the bound in numbers for default options)."
  },
  {
   "property": "C64",
   "status": "partial",
   "theorems": [
    "Tranquilo.C64_violated_budget_exceeded"
   ],
   "note": "False as stated: witness C64_violated_budget_exceeded; the time limit is never read. The bound that does hold is C63_total_evaluations_partial."
  },
  {
   "property": "C65",
   "status": "proved",
   "theorems": [
    "Tranquilo.C65_call",
    "Tranquilo.C65_messages_are_truthful",
    "Tranquilo.C65_messages_of_a_run_that_returns"
   ],
   "note": "That the message names a criterion that holds between the last two states says nothing about the units in which it is measured: see C107 for the gradient. C65_call: for whole calls, with the tolerances that the user passed."
  },
  {
   "property": "C66",
   "status": "proved",
   "theorems": [
    "Tranquilo.C66_dropping_is_bounded",
    "Tranquilo.C66_replacing_is_bounded"
   ],
   "note": ""
  },
  {
   "property": "C67",
   "status": "proved",
   "theorems": [
    "Tranquilo.C67_call",
    "Tranquilo.C67_points_are_accounted",
    "Tranquilo.C67_points_of_a_run_that_returns",
    "Tranquilo.C67_new_points_are_new",
    "Tranquilo.C67_new_points_of_a_run_that_returns",
    "Tranquilo.C67_call_new_points"
   ],
   "note": "C67_call: for whole calls with arbitrary arguments. C67_new_points_are_new (C67_new_points_of_a_run_that_returns, C67_call_new_points): what a state calls new comes later in the history than every point that an earlier state mentions."
  },
  {
   "property": "C68",
   "status": "partial",
   "theorems": [
    "Tranquilo.C68_violated_by_default_solver",
    "Tranquilo.C68_bounds_respected_partial",
    "Tranquilo.C68_bounds_of_a_run_that_returns_partial",
    "Tranquilo.C68_violated_by_line_search"
   ],
   "note": "False with batch size two or more: the line search of the decider leaves the bounds (C68_violated_by_line_search). Also false with the default options and one core: gqtpar may return steps of norm 1 + k_easy, and they are not clipped to the bounds (C68_violated_by_default_solver). Proved for the decider without line search and subsolvers that stay in the region."
  },
  {
   "property": "C69",
   "status": "partial",
   "theorems": [
    "Tranquilo.C69_violated_start_model_is_constant",
    "Tranquilo.C69_violated_old_model_is_never_updated",
    "Tranquilo.C69_violated_witness"
   ],
   "note": "False: the stored model used for residuals is never updated (C69_violated_old_model_is_never_updated, C69_violated_witness). For the built in components the old model is therefore constant (C69_violated_start_model_is_constant)."
  },
  {
   "property": "C70",
   "status": "partial",
   "theorems": [
    "Tranquilo.C70_default_radius_partial",
    "Tranquilo.C70_violated_at_zero",
    "Tranquilo.C70_violated_call_from_zero"
   ],
   "note": "False for the zero vector (witness); exact characterisation otherwise. The consequence for a call: with the defaults every call that starts at zero raises LinAlgError in the first fit, for all criteria (C70_violated_call_from_zero)."
  },
  {
   "property": "C71",
   "status": "partial",
   "theorems": [
    "Tranquilo.C71_weighted_average_partial",
    "Tranquilo.C71_covariance_partial",
    "Tranquilo.C71_undefined",
    "Tranquilo.C71_covariance_undefined",
    "Tranquilo.C71_no_point_near",
    "Tranquilo.C71_never_fails_in_a_run",
    "Tranquilo.C71_violated_single_evaluation"
   ],
   "note": "Weighted average, covariance, undefined and empty cases proved; fails when min_n_evals admits a point with a single evaluation (C71_violated_single_evaluation) and is not claimed for infinite values."
  },
  {
   "property": "C72",
   "status": "proved",
   "theorems": [
    "Tranquilo.C72_number_of_values",
    "Tranquilo.C72_correlation_ignored",
    "Tranquilo.C72_noise_as_given",
    "Tranquilo.C72_value_of_a_draw",
    "Tranquilo.C72_exact_fit",
    "Tranquilo.C72_least_squares",
    "Tranquilo.C72_scalar"
   ],
   "note": "Generator and solvers enter by contract (DrawsSpec; solvers that do not fail); instances for default least squares and scalar components."
  },
  {
   "property": "C73",
   "status": "partial",
   "theorems": [
    "Tranquilo.C73_apply_bounds",
    "Tranquilo.C73_active_bounds",
    "Tranquilo.C73_bounded_step",
    "Tranquilo.C73_fischer_burmeister",
    "Tranquilo.C73_bntr",
    "Tranquilo.C73_bntr_cg",
    "Tranquilo.C73_bntr_trsbox",
    "Tranquilo.C73_steihaug_returns_partial",
    "Tranquilo.C73_bntr_steihaug",
    "Tranquilo.C73_conjugate_gradient",
    "Tranquilo.C73_steihaug_partial",
    "Tranquilo.C73_steihaug_raises",
    "Tranquilo.C73_violated_steihaug",
    "Tranquilo.C73_trsbox",
    "Tranquilo.C73_step_length",
    "Tranquilo.C73_gqtpar_partial",
    "Tranquilo.C73_violated_step_tie"
   ],
   "note": "False for Steihaug-Toint (C73_violated_steihaug: the numba version divides by zero where the numpy version returns) and for ties in the step to the sphere of gqtpar, which depend on the order of np.roots (C73_violated_step_tie). Proved: conjugate gradient and trsbox without exception; Steihaug-Toint whenever the numba version returns; gqtpar for ordered roots; bntr with each of the three inner solvers whenever the numba version returns, with the text of the message for its number. Not compared: what bntr for numpy does after a division by zero."
  },
  {
   "property": "C74",
   "status": "proved",
   "theorems": [
    "Tranquilo.C74_numpy_version",
    "Tranquilo.C74_in_region_and_descent",
    "Tranquilo.C74_total_reduction",
    "Tranquilo.C74_cauchy_decrease",
    "Tranquilo.C74_progress"
   ],
   "note": "Exact arithmetic with an exact square root. `index_active_bound` is unassigned in the fast version if no bound restricts the angle; the model uses the empty value numba initializes it with. C74_total_reduction ties the number used by the stopping rules to the true reduction of the model."
  },
  {
   "property": "C75",
   "status": "partial",
   "theorems": [
    "Tranquilo.C75_two_sided_bounds_partial",
    "Tranquilo.C75_violated_only_upper",
    "Tranquilo.C75_violated_only_lower"
   ],
   "note": "False for bounds given on one side only (two witnesses); proved for both sides or none."
  },
  {
   "property": "C76",
   "status": "partial",
   "theorems": [
    "Tranquilo.C76_read_vector",
    "Tranquilo.C76_read_vector_from_end",
    "Tranquilo.C76_read_vector_out_of_range",
    "Tranquilo.C76_read_vectors",
    "Tranquilo.C76_read_evaluations",
    "Tranquilo.C76_list_out_of_range",
    "Tranquilo.C76_read_evaluation_out_of_range",
    "Tranquilo.C76_read_values",
    "Tranquilo.C76_violated_single_negative"
   ],
   "note": "Proved for vectors, values and lists of points, with IndexError for indices out of range. False for a single negative index of get_fvecs/get_fvals, which raises KeyError (C76_violated_single_negative)."
  },
  {
   "property": "C77",
   "status": "proved",
   "theorems": [
    "Tranquilo.C77_pairs_with_a_new_point",
    "Tranquilo.C77_soft_minimum"
   ],
   "note": "C77_pairs_with_a_new_point over any field; C77_soft_minimum over the reals with logsumexp = log(sum(exp))."
  },
  {
   "property": "C78",
   "status": "partial",
   "theorems": [
    "Tranquilo.C78_info_partial",
    "Tranquilo.C78_violated_when_start_is_kept"
   ],
   "note": "Holds when the optimization improved the criterion; false when the start sample is kept (C78_violated_when_start_is_kept)."
  },
  {
   "property": "C79",
   "status": "proved",
   "theorems": [
    "Tranquilo.C79_lagrange_polynomials"
   ],
   "note": "Uses only G pinv(G) G = G."
  },
  {
   "property": "C80",
   "status": "partial",
   "theorems": [
    "Tranquilo.C80_poisedness_constant_partial",
    "Tranquilo.C80_at_least_one_partial",
    "Tranquilo.C80_invalid_shape",
    "Tranquilo.C80_violated_three_parameters"
   ],
   "note": "Up to two parameters; false with three (C80_violated_three_parameters: the constant is 9/2 although no Lagrange polynomial exceeds 7/2 on the cube), because of C55. Optimizer assumed to find the maximum (contract shown satisfiable over the reals)."
  },
  {
   "property": "C81",
   "status": "partial",
   "theorems": [
    "Tranquilo.C81_improves_partial",
    "Tranquilo.C81_violated_three_parameters"
   ],
   "note": "Up to two parameters and square interpolation systems; false with three (C81_violated_three_parameters: the volume is multiplied by 3, the recorded constant is 9/2), because of C55."
  },
  {
   "property": "C82",
   "status": "proved",
   "theorems": [
    "Tranquilo.C82_noisy_evaluations"
   ],
   "note": "Added after a surviving mutation (sample sizes swapped)."
  },
  {
   "property": "C83",
   "status": "partial",
   "theorems": [
    "Tranquilo.C83_line_search_iff_near_border_partial",
    "Tranquilo.C83_violated_in_boxes"
   ],
   "note": "Proved for balls; false for boxes (C83_violated_in_boxes): nearness is relative to the coordinates of the border."
  },
  {
   "property": "C84",
   "status": "proved",
   "theorems": [
    "Tranquilo.C84_clusters_are_greedy"
   ],
   "note": "Added after a surviving mutation (labeled points counted as neighbors)."
  },
  {
   "property": "C85",
   "status": "partial",
   "theorems": [
    "Tranquilo.C85_numeric_options_keep_value_partial",
    "Tranquilo.C85_violated_hardness"
   ],
   "note": "Proved for options with float defaults; sampler option hardness has an integer default and is truncated (C85_violated_hardness)."
  },
  {
   "property": "C86",
   "status": "partial",
   "theorems": [
    "Tranquilo.C86_samplers_partial",
    "Tranquilo.C86_filters_partial",
    "Tranquilo.C86_fitters_partial",
    "Tranquilo.C86_sphere_solvers_partial",
    "Tranquilo.C86_cube_solvers_partial",
    "Tranquilo.C86_violated_cube_fallbacks",
    "Tranquilo.C86_fallback_solvers_partial",
    "Tranquilo.C86_fallback_solvers_receive",
    "Tranquilo.C86_variance_estimators_partial",
    "Tranquilo.C86_acceptance_deciders_partial"
   ],
   "note": "All names but the cube solvers fallback_cube and fallback_multistart (C86_violated_cube_fallbacks)."
  },
  {
   "property": "C87",
   "status": "partial",
   "theorems": [
    "Tranquilo.C87_parameter_order_partial",
    "Tranquilo.C87_violated_parameter_order"
   ],
   "note": "Proved for samplers with trustregion as first parameter; otherwise false (C87_violated_parameter_order)."
  },
  {
   "property": "C88",
   "status": "partial",
   "theorems": [
    "Tranquilo.C88_sizes_positive_partial",
    "Tranquilo.C88_violated_sizes"
   ],
   "note": "Proved for at least one core and the default sample size; zero and negative values are accepted (C88_violated_sizes)."
  },
  {
   "property": "C89",
   "status": "proved",
   "theorems": [
    "Tranquilo.C89_defaults_are_accepted",
    "Tranquilo.C89_default_radius_and_stagnation"
   ],
   "note": ""
  },
  {
   "property": "C90",
   "status": "partial",
   "theorems": [
    "Tranquilo.C90_few_points",
    "Tranquilo.C90_many_points",
    "Tranquilo.C90_minimal_norm_partial",
    "Tranquilo.C90_violated_frobenius_norm"
   ],
   "note": "Between the two sizes the sum of squared second order coefficients is minimal, which is not the Frobenius norm of the Hessian: C90_violated_frobenius_norm. Requires that the first n+1 points are poised."
  },
  {
   "property": "C91",
   "status": "proved",
   "theorems": [
    "Tranquilo.C91_maximizes_determinant",
    "Tranquilo.C91_maximizes_distance"
   ],
   "note": "Added after a surviving mutation (sign of the determinant objective)."
  },
  {
   "property": "C92",
   "status": "proved",
   "theorems": [
    "Tranquilo.C92_rotation",
    "Tranquilo.C92_reflection"
   ],
   "note": "Added after a surviving mutation (uniform draws in the ball)."
  },
  {
   "property": "C93",
   "status": "partial",
   "theorems": [
    "Tranquilo.C93_reported_value_partial",
    "Tranquilo.C93_violated"
   ],
   "note": "Violated: C93_violated is a run with one iteration of the initial gradient descent that reports success and a value that the model does not have at the reported point. Proved when the gradient descent is switched off or a step of the main loop was accepted."
  },
  {
   "property": "C94",
   "status": "partial",
   "theorems": [
    "Tranquilo.C94_violated_from_the_center",
    "Tranquilo.C94_returns_partial",
    "Tranquilo.C94_violated_zero_division"
   ],
   "note": "Violated: C94_violated_zero_division (from a corner of the box) and C94_violated_from_the_center (a convex model and the center of the box as start; the gradient descent divides by zero in its first pass, with numbers that are exact in floating point arithmetic). Proved without the initial gradient descent and from a start strictly between the bounds, with the conjugate gradient method; with the gradient descent the claim is false also there."
  },
  {
   "property": "C95",
   "status": "proved",
   "theorems": [
    "Tranquilo.C95_user_arguments_used",
    "Tranquilo.C95_user_options_stored",
    "Tranquilo.C95_components_as_requested"
   ],
   "note": "For the arguments that the model of process_arguments covers; C57 and C58 say what building a component and storing an option mean."
  },
  {
   "property": "C96",
   "status": "partial",
   "theorems": [
    "Tranquilo.C96_center_refused",
    "Tranquilo.C96_lagrange_maximal_partial",
    "Tranquilo.C96_returns_one_parameter",
    "Tranquilo.C96_violated_raises"
   ],
   "note": "Optimality for up to two parameters (for more the solver of the subproblem violates bounds, C51) and up to the threshold for zero; refusal of infeasible centers in general. Whether it returns: always with one parameter (C96_returns_one_parameter); with two it can raise StopIteration (C96_violated_raises)."
  },
  {
   "property": "C97",
   "status": "partial",
   "theorems": [
    "Tranquilo.C97_radius_of_descent_partial",
    "Tranquilo.C97_violated_growth",
    "Tranquilo.C97_violated_after_increase"
   ],
   "note": "Violated: the last comparison for bad agreement tests tau_2 where tau_1 is meant, so the radius can grow after a step with bad agreement (C97_violated_growth in a step of the solver, C97_violated_after_increase after an increase of the criterion). Everything else is proved, with the exceptional set stated in terms of the two reductions."
  },
  {
   "property": "C98",
   "status": "partial",
   "theorems": [
    "Tranquilo.C98_builtin_components_are_safe",
    "Tranquilo.C98_builtin_run_partial",
    "Tranquilo.C98_fallback_solvers_return",
    "Tranquilo.C98_violated_by_fixed_parameter",
    "Tranquilo.C98_safe_components_run_to_the_end",
    "Tranquilo.C98_exceptions_are_not_swallowed",
    "Tranquilo.C98_violated_outside_the_hypotheses",
    "Tranquilo.C98_violated_by_zero_radius"
   ],
   "note": "tranquiloR models the main loop with components that may raise. Proved: it returns for all components that are safe on what the loop gives them, and the built in components are (contracts of numpy and scipy, nonzero normal draws, aggregator that fits to the model type, in noisy runs a noisy decider with at least two evaluations per point and finite evaluations, so that the noise can be estimated and simulated, search_radius_factor >= 0, max_radius_to_step_ratio infinite as in the defaults). Arbitrary subsolvers are allowed with retry_subproblem_with_fallback. Runs that return inherit C61, C62, C63, C65, C67, C68. False for fixed parameters (lower = upper): every run raises LinAlgError (C98_violated_by_fixed_parameter), and for the initial radius zero (C98_violated_by_zero_radius); also false for accept_noisy without noise and for a line search whose additional values are all NaN (C98_violated_outside_the_hypotheses)."
  },
  {
   "property": "C99",
   "status": "partial",
   "theorems": [
    "Tranquilo.C99_get_rng",
    "Tranquilo.C99_refuses",
    "Tranquilo.C99_value_error",
    "Tranquilo.C99_uniform",
    "Tranquilo.C99_uniform_refuses",
    "Tranquilo.C99_sobol_interior",
    "Tranquilo.C99_triangular_partial",
    "Tranquilo.C99_violated_fixed_parameter",
    "Tranquilo.C99_violated_outside",
    "Tranquilo.C99_multistart"
   ],
   "note": "draw_exploration_sample with scipy's draws, low discrepancy sequences and distributions as parameters with contracts (numbers in [0, 1), positive for Sobol' as its first point is skipped). Proved: every refused argument (C99_refuses, C99_value_error, C99_uniform_refuses); the uniform sample has n_samples rows in the box whose positions between the bounds are the drawn numbers; the triangular sample stays in the box and follows the triangular distribution with mode x if lower < upper and x is within the bounds. Violated: with the triangular distribution a fixed parameter or an x outside of the bounds silently gives NaN (C99_violated_fixed_parameter, C99_violated_outside). The multistart fallback solver, which uses the sample, returns points of the cube (C99_multistart). scipy's own check of seeds is not modelled."
  },
  {
   "property": "C100",
   "status": "proved",
   "theorems": [
    "Tranquilo.C100_value",
    "Tranquilo.C100_degenerate",
    "Tranquilo.C100_few_points",
    "Tranquilo.C100_order",
    "Tranquilo.C100_more_points"
   ],
   "note": "Exact arithmetic; determinant and logarithm are Mathlib's. Regions with a side of length zero, where the unit coordinates are NaN or infinite, are excluded by a hypothesis."
  },
  {
   "property": "C101",
   "status": "partial",
   "theorems": [
    "Tranquilo.C101_history_partial",
    "Tranquilo.C101_criterion_plot_partial",
    "Tranquilo.C101_sample_plot_partial",
    "Tranquilo.C101_violated_one_parameter",
    "Tranquilo.C101_distances_partial",
    "Tranquilo.C101_rho_plot",
    "Tranquilo.C101_cluster_ratio",
    "Tranquilo.C101_fekete_plot",
    "Tranquilo.C101_lines_show_the_states",
    "Tranquilo.C101_cluster_line",
    "Tranquilo.C101_columns",
    "Tranquilo.C101_violated_dictionaries",
    "Tranquilo.C101_violated_repeated_evaluations",
    "Tranquilo.C101_missing_points_raise",
    "Tranquilo.C101_indices_in_cube",
    "Tranquilo.C101_found",
    "Tranquilo.C101_model_points_partial",
    "Tranquilo.C101_violated_duplicates",
    "Tranquilo.C101_search_ends_iff",
    "Tranquilo.C101_violated_endless",
    "Tranquilo.C101_labels"
   ],
   "note": "The functions that compute the plotted data are modelled, drawing is not. Proved for runs without noise that evaluate each point once (EvaluatesOnce): the record of the evaluations has the points in the positions by which the run refers to them; markers, star, sample points with labels, circle and distances are those of the run. Proved in general: the shown rho, the cluster ratio, the Fekete criterion, the labels, the columns, the rows found in a cube, the indices of points that are in the history once, and exactly when the search for a point ends. Violated: with repeated evaluations the plots show other points than the run means (C101_violated_repeated_evaluations); with one parameter they raise (C101_violated_one_parameter); for a dictionary of results with a dictionary of iterations the results are not processed (C101_violated_dictionaries); for results of the nag algorithms a point that is in the history twice makes the plots raise (C101_violated_duplicates) and the search for a point that is at least one away from all others never ends (C101_violated_endless)."
  },
  {
   "property": "C102",
   "status": "proved",
   "theorems": [
    "Tranquilo.C102_stationary_or_on_boundary",
    "Tranquilo.C102_convex",
    "Tranquilo.C102_numba_version"
   ],
   "note": "Exact arithmetic. All residuals of a run are orthogonal to each other, so there are at most as many passes with a residual above the tolerance as there are dimensions. Hypotheses: the square root contract, a symmetric Hessian, a tolerance that is not negative."
  },
  {
   "property": "C103",
   "status": "proved",
   "theorems": [
    "Tranquilo.C103_exact_fit",
    "Tranquilo.C103_exact_models"
   ],
   "note": "Exact arithmetic, criterion without noise. Hypotheses: those of C98 (so that the run returns), the contract of np.linalg.lstsq, fit_ols or fit_tranquilo with penalties that are not zero, and that the data of an evaluated point are its residuals. The condition on the model points is a hypothesis for each iteration; it is not claimed that the samplers always meet it. The models are also shown to be those that the subsolver was given."
  },
  {
   "property": "C104",
   "status": "proved",
   "theorems": [
    "Tranquilo.C104_calls",
    "Tranquilo.C104_whole_run",
    "Tranquilo.C104_returned_history"
   ],
   "note": "Refinement between the object of history.py (buffers, index mapper, counters) together with the wrapped criterion, and the log over which the main loop is modelled: for single calls (C104_calls), for all iterations of a run (C104_whole_run) and for the result of runs in which components may raise (C104_returned_history). The batch evaluator is assumed to return the results of the criterion in the order of the arguments (C10). Criteria that raise although they are vector valued are outside (they are not carried out, see C08 and C09)."
  },
  {
   "property": "C105",
   "status": "partial",
   "theorems": [
    "Tranquilo.C105_failures_without_noise_partial",
    "Tranquilo.C105_violated_noisy",
    "Tranquilo.C105_violated_naive_noisy"
   ],
   "note": "Proved for runs without noise (C105_failures_without_noise_partial). Violated with noise and accept_noisy: an evaluation that fails at a point that counts for the estimate of the noise makes the estimated variance NaN, and the conversion of the number of evaluations to an integer raises ValueError; for every criterion with a failing evaluation of the start point the first iteration raises (C105_violated_noisy). Violated also with accept_naive_noisy, which does not use that estimate: the covariance of the noise is NaN, and the simulated draws for the number of evaluations raise LinAlgError (C105_violated_naive_noisy; assumes that numpy's multivariate_normal raises it for a covariance with NaN). Limit of the model: if a model is fitted as a correction of the start model (residualize, the default of the tranquilo fitter) and the start point fails, the first fit has infinite targets; what np.linalg.lstsq makes of them is not modelled, so these runs are excluded by a hypothesis. Vector valued criteria that raise are C08."
  },
  {
   "property": "C106",
   "status": "partial",
   "theorems": [
    "Tranquilo.C106_named_model_type",
    "Tranquilo.C106_other_model_types",
    "Tranquilo.C106_call_with_model_type_returns_partial",
    "Tranquilo.C106_violated_default_solver",
    "Tranquilo.C106_call_returns_partial",
    "Tranquilo.C106_default_call_returns",
    "Tranquilo.C106_violated_from_zero",
    "Tranquilo.C106_violated_by_fixed_parameter"
   ],
   "note": "C106_default_call_returns: a call without options, bounds and noise returns for each criterion and whatever the subsolvers do. C106_call_returns_partial: all valid combinations of options. Excluded by hypotheses, because the claim is false there: the start vector zero (initial radius zero, C70; C106_violated_from_zero: all valid options raise LinAlgError), fixed parameters (C106_violated_by_fixed_parameter), the line search (leaves the bounds, C68; may raise), the fallback solvers as solvers for boxes (C86), with bounds a solver for balls that leaves the ball (gqtpar can, C40; C106_violated_default_solver: a call with the default options and valid bounds that returns parameters outside of the bounds), noise with the classic decider or with failing evaluations (C105). Calls with option bundles are C119 (C119_call_with_options_returns). Naming the model type that belongs to the function type changes nothing (C106_named_model_type); all other model types raise (C106_other_model_types), so that a call that names one returns if and only if the combination is supported (C106_call_with_model_type_returns_partial). Not covered: components given by the user."
  },
  {
   "property": "C107",
   "status": "partial",
   "theorems": [
    "Tranquilo.C107_gradient_message_partial",
    "Tranquilo.C107_slope_of_the_criterion",
    "Tranquilo.C107_violated_default_call"
   ],
   "note": "C107_gradient_message_partial: the message bounds the product of the gradient with the radii of the trust region at the center of the last region, not the gradient; the claim follows for spheres of radius at least one. C107_slope_of_the_criterion: for exactly modelled criteria the tested number is radius * |gradient of the criterion|. C107_violated_default_call: a call with default options for x/100 started at 1e-5 stops after one step with the gradient message although the slope is 0.01 everywhere."
  },
  {
   "property": "C108",
   "status": "proved",
   "theorems": [
    "Tranquilo.C108_right_hand_side",
    "Tranquilo.C108_greedy",
    "Tranquilo.C108_estimate"
   ],
   "note": "Library functions enter through the contract GqSpec (triangular solves in exact arithmetic)."
  },
  {
   "property": "C109",
   "status": "partial",
   "theorems": [
    "Tranquilo.C109_least_squares",
    "Tranquilo.C109_ridge",
    "Tranquilo.C109_weights_count",
    "Tranquilo.C109_order",
    "Tranquilo.C109_scale_of_weights",
    "Tranquilo.C109_order_in_a_run",
    "Tranquilo.C109_violated_powell"
   ],
   "note": "Proved for fit_ols, fit_tranquilo and fit_ridge, as raw fitters with weights and (order) for the fits of a run with infinite values and residualizing. False for fit_powell: C109_violated_powell. np.linalg.lstsq enters through LstsqSpec (shortest least squares solution)."
  },
  {
   "property": "C110",
   "status": "proved",
   "theorems": [
    "Tranquilo.C110_linear_convergence",
    "Tranquilo.C110_one_iteration",
    "Tranquilo.C110_model_points"
   ],
   "note": "C110_linear_convergence for all built in settings (bounds or not) under a contract for the subsolvers (a share kappa of the largest possible decrease on convex models; C45_near_optimal gives such a share for gqtpar, C111 for conjugate gradients) and under the hypothesis of C103 that the model points of every iteration determine the polynomials; C110_model_points shows that the hypothesis is met in all runs with one parameter and the settings named there; C110_one_iteration is the case of exact solvers. The example puts everything together for (x - 3) ** 2."
  },
  {
   "property": "C111",
   "status": "proved",
   "theorems": [
    "Tranquilo.C111_half_of_possible_progress",
    "Tranquilo.C111_without_tolerance",
    "Tranquilo.C111_numba_version",
    "Tranquilo.C111_half_is_sharp"
   ],
   "note": "C111_half_of_possible_progress for every positive semidefinite Hessian and every point of the ball, with the tolerance term; C111_without_tolerance; C111_numba_version. C111_half_is_sharp shows that one half cannot be improved. The proof builds a dual point from the orthogonal residuals of C102. Exact arithmetic; np.sqrt by its contract."
  },
  {
   "property": "C112",
   "status": "proved",
   "theorems": [
    "Tranquilo.C112_success_moderate_gradient",
    "Tranquilo.C112_success",
    "Tranquilo.C112_total_correctness",
    "Tranquilo.C112_default_options"
   ],
   "note": "C45_near_optimal (share min(1 - k_hard, 0.47) for all symmetric models), C112_success (explicit number of iterations on positive definite models), C112_success_moderate_gradient and C112_default_options (maxiter = 200), C112_total_correctness (both together). Exact arithmetic; LAPACK by its contract GqSpec, which is met (gqSpec_exists). C123 extends the total correctness to all Hessians."
  },
  {
   "property": "C113",
   "status": "proved",
   "theorems": [
    "Tranquilo.C113_units_of_the_criterion",
    "Tranquilo.C113_builtin_components",
    "Tranquilo.C113_exact_solvers",
    "Tranquilo.C113_same_answer",
    "Tranquilo.C113_violated_relative_tolerances",
    "Tranquilo.C113_violated_infinite_values",
    "Tranquilo.C113_violated_small_improvements",
    "Tranquilo.C113_violated_singular_value_estimate"
   ],
   "note": "C113_units_of_the_criterion for arbitrary components that respect the units (two runs are compared by a simulation through every part of the loop, exceptions included); C113_builtin_components and C113_same_answer for the built in components without noise, with the contract of np.linalg.lstsq; C113_exact_solvers shows that solvers that find a minimizer qualify. The exceptions named in the statement are needed: C113_violated_relative_tolerances (whole runs), C113_violated_infinite_values, C113_violated_small_improvements (decider noisy), C113_violated_singular_value_estimate (gqtpar)."
  },
  {
   "property": "C114",
   "status": "proved",
   "theorems": [
    "Tranquilo.C114_origin_and_unit_of_parameters",
    "Tranquilo.C114_builtin_components",
    "Tranquilo.C114_same_answer",
    "Tranquilo.C114_origin_without_bounds",
    "Tranquilo.C114_subsolvers",
    "Tranquilo.C114_violated_relative_tolerance",
    "Tranquilo.C114_violated_default_radius",
    "Tranquilo.C114_violated_border",
    "Tranquilo.C114_violated_small_unit"
   ],
   "note": "C114_origin_and_unit_of_parameters for arbitrary components that do not depend on the place (simulation of two runs, exceptions included); C114_builtin_components and C114_same_answer for the built in components with and without noise; C114_origin_without_bounds for all deciders; C114_subsolvers shows that gqtpar and the fallback solvers only see the unit region. The exceptions named in the statement are needed: C114_violated_relative_tolerance (whole runs), C114_violated_default_radius, C114_violated_border, C114_violated_small_unit."
  },
  {
   "property": "C115",
   "status": "proved",
   "theorems": [
    "Tranquilo.C115_longer_run_begins_with_shorter",
    "Tranquilo.C115_ended_run_is_not_changed",
    "Tranquilo.C115_longer_run_is_not_worse",
    "Tranquilo.C115_call_that_may_run_longer"
   ],
   "note": "C115_longer_run_begins_with_shorter for arbitrary components (exceptions included), C115_ended_run_is_not_changed for higher limits, C115_longer_run_is_not_worse for deterministic criteria and filters that select points; C115_call_that_may_run_longer for calls, including the processing of the arguments, with finite tolerances."
  },
  {
   "property": "C116",
   "status": "proved",
   "theorems": [
    "Tranquilo.C116_criterion_value",
    "Tranquilo.C116_order_of_residuals",
    "Tranquilo.C116_call"
   ],
   "note": "C116_criterion_value (sums of XVal, also infinite and NaN), C116_order_of_residuals (whole runs with the built in components, any fitter, aggregator, filter, sampler, solver, exceptions included), C116_call (including the processing of the arguments). np.linalg.lstsq is called once per column in the model; that a column of the solution only depends on its column of the right hand side is part of its contract. Noisy runs are excluded: the draws of multivariate_normal are assigned to residuals by position. Exact arithmetic: floating point sums depend on the order."
  },
  {
   "property": "C117",
   "status": "proved",
   "theorems": [
    "Tranquilo.C117_iterations_with_a_promise",
    "Tranquilo.C117_flat_model",
    "Tranquilo.C117_small_gradient",
    "Tranquilo.C117_default_solver"
   ],
   "note": "C117_iterations_with_a_promise for arbitrary components (the bound is (p + 1) * k + q: k successful steps use up the distance to the lower bound, p reductions undo an expansion, q reductions lead from the start radius to the least radius). C117_flat_model and C117_small_gradient for the built in components without bounds; C117_default_solver shows that gqtpar meets the condition on the solver when it reports success. The accuracy of the models is a hypothesis on the run: the code has no criticality step that would improve a model with a misleadingly small gradient, so the theorem says that a flat model or a small gradient is reached, not that the last iterate is stationary."
  },
  {
   "property": "C118",
   "status": "proved",
   "theorems": [
    "Tranquilo.C118_run_uses_the_arguments"
   ],
   "note": "C118_run_uses_the_arguments. The names and defaults are repeated in Spec/CallUses from options.py; the tables of the model are not used. Values that are not numbers where the loop expects numbers (for instance a float min_n_evals in a NamedTuple) are outside of what tranquiloCall models, the theorem is about calls that return a run. Components that are functions of the user are covered by C57 (what they receive), not here. The default of hardness is the integer 1, so a user's hardness=0.5 is converted to 0; StoredAs says so."
  },
  {
   "property": "C119",
   "status": "proved",
   "theorems": [
    "Tranquilo.C119_exceptions_come_early",
    "Tranquilo.C119_call_with_options_returns"
   ],
   "note": "C119_exceptions_come_early for all arguments, C119_call_with_options_returns for calls with option bundles whose entries have known names and values of the right kind (OptionKind). StaysInBall is needed if there are bounds (C40, C68). Sane values: Spec/SaneCall; that violations lead to late exceptions is shown by the witnesses of C68, C70, C98."
  },
  {
   "property": "C120",
   "status": "partial",
   "theorems": [
    "Tranquilo.C120_model_error",
    "Tranquilo.C120_poisedness_constant_partial",
    "Tranquilo.C120_small_gradient",
    "Tranquilo.C120_least_squares",
    "Tranquilo.C120_one_parameter"
   ],
   "note": "C120_model_error for every number of parameters. C120_small_gradient (sums, identity) and C120_least_squares turn it into a bound on the length of runs: accuracy of the models, a hypothesis of C117, follows from poisedness of the model points and smoothness. C120_one_parameter removes the hypothesis on the points for one parameter (two points per model, filter discard_all, hull sampler). Missing: C120_poisedness_constant_partial needs at most two parameters, because from three on get_poisedness_constant does not return the constant (C55). The code does not measure poisedness during a run, so for more than one parameter it is a hypothesis on the run. Fits with fewer points than coefficients (minimum norm solutions) are not covered."
  },
  {
   "property": "C121",
   "status": "proved",
   "theorems": [
    "Tranquilo.C121_order_of_parameters",
    "Tranquilo.C121_builtin_components",
    "Tranquilo.C121_same_answer",
    "Tranquilo.C121_default_radius",
    "Tranquilo.C121_bntr",
    "Tranquilo.C121_conjugate_gradients",
    "Tranquilo.C121_bntr_subsolver",
    "Tranquilo.C121_fallback_subsolvers",
    "Tranquilo.C121_call",
    "Tranquilo.C121_violated_same_seed"
   ],
   "note": "C121_order_of_parameters for arbitrary components that treat the parameters alike (simulation of two runs, exceptions included); C121_builtin_components and C121_same_answer for the built in components with and without noise, with the contract of np.linalg.lstsq. C121_call for calls, including the processing of the arguments, with built in components other than the powell fitter. C121_bntr and C121_bntr_subsolver for bntr_fast with conjugate gradients, C121_fallback_subsolvers under an assumption on scipy. gqtpar is not covered: its failed factorizations and its estimate of the smallest singular value go through the parameters one by one, so its result depends on the order within its tolerances. C121_violated_same_seed: with a fixed seed the draws stay in place. Exact arithmetic: floating point sums depend on the order."
  },
  {
   "property": "C122",
   "status": "proved",
   "theorems": [
    "Tranquilo.C122_same_evaluations_same_run",
    "Tranquilo.C122_nothing_known_elsewhere",
    "Tranquilo.C122_no_certificate"
   ],
   "note": "C122_same_evaluations_same_run for whole calls (the environment Externals.withCriterion takes function values, vectors of evaluations and their averages from one criterion); C122_nothing_known_elsewhere and C122_no_certificate are the consequence for points that were not evaluated. Calls that raise are not covered: the model does not keep the history of a call that raises."
  },
  {
   "property": "C123",
   "status": "proved",
   "theorems": [
    "Tranquilo.C123_total_correctness",
    "Tranquilo.C123_numpy_version"
   ],
   "note": "C123_total_correctness (all symmetric Hessians, compiled version), C123_numpy_version (under the contracts of C73). Over the reals, exact arithmetic; LAPACK by its contract GqSpec. The number of iterations is not explicit here; C112 has an explicit one for positive definite models."
  },
  {
   "property": "C124",
   "status": "partial",
   "theorems": [
    "Tranquilo.C124_positive_definite_partial",
    "Tranquilo.C124_violated_zero_gradient",
    "Tranquilo.C124_violated_flat",
    "Tranquilo.C124_violated_diagonal"
   ],
   "note": "False of the code. C124_violated_zero_gradient: for every Hessian that is not positive definite the result is the start vector without success or a point of norm two; C124_violated_flat: no success for any limit on singular convex models; C124_violated_diagonal: no success for any limit on diagonal models with a curvature that is not positive, so saddle points and maxima are not left. Proved: positive definite Hessians (C124_positive_definite_partial)."
  },
  {
   "property": "C125",
   "status": "proved",
   "theorems": [
    "Tranquilo.C125_legend",
    "Tranquilo.C125_names_once",
    "Tranquilo.C125_name_shown"
   ],
   "note": "For all lists of traces (C125_legend, C125_names_once, C125_name_shown). A name whose first trace is hidden is not listed at all, also if a later trace with that name is to be listed."
  },
  {
   "property": "C126",
   "status": "proved",
   "theorems": [
    "Tranquilo.C126_check",
    "Tranquilo.C126_move",
    "Tranquilo.C126_fit",
    "Tranquilo.C126_aggregate",
    "Tranquilo.C126_states"
   ],
   "note": "C126_check describes the check, C126_move and C126_fit the fitted models, C126_aggregate the aggregated ones and C126_states whole runs."
  },
  {
   "property": "C127",
   "status": "partial",
   "theorems": [
    "Tranquilo.C127_without_bounds",
    "Tranquilo.C127_with_bounds",
    "Tranquilo.C127_builtin_without_bounds",
    "Tranquilo.C127_same_answer_with_bounds",
    "Tranquilo.C127_default_radius",
    "Tranquilo.C127_conjugate_gradients",
    "Tranquilo.C127_fallback_subsolvers",
    "Tranquilo.C127_call",
    "Tranquilo.C127_violated_bntr",
    "Tranquilo.C127_violated_stationary",
    "Tranquilo.C127_violated_same_seed"
   ],
   "note": "C127_without_bounds for arbitrary components without a preferred direction (simulation of two runs, exceptions included); C127_with_bounds for boxes without fixed parameters and components that do not raise, without line search. C127_builtin_without_bounds and C127_same_answer_with_bounds for the built in components with the contract of np.linalg.lstsq; C127_call for calls without bounds, including the processing of the arguments. C127_conjugate_gradients and C127_fallback_subsolvers for the subsolvers (the latter under an assumption on scipy), C127_default_radius. Partial because the property is false of the default subsolvers: C127_violated_bntr (the convergence test of bntr treats lower and upper bounds differently), C127_violated_stationary (a solver that leaves a stationary point has a preferred direction), C127_violated_same_seed (with a fixed seed the draws are not mirrored). Not covered: gqtpar (its estimate of the smallest singular value breaks ties by a sign), powell fitter, calls with bounds, fixed parameters. Exact arithmetic."
  },
  {
   "property": "C128",
   "status": "proved",
   "theorems": [
    "Tranquilo.C128_criterion_value",
    "Tranquilo.C128_likelihood_value",
    "Tranquilo.C128_geometry_of_residuals",
    "Tranquilo.C128_call",
    "Tranquilo.C128_signs",
    "Tranquilo.C128_added_zeros",
    "Tranquilo.C128_split",
    "Tranquilo.C128_rotation",
    "Tranquilo.C128_violated_undefined"
   ],
   "note": "C128_geometry_of_residuals for the built in components and C128_call for calls including the processing of the arguments; C128_criterion_value and C128_likelihood_value: the recorded values are the same. C128_signs, C128_added_zeros, C128_split, C128_rotation: the special cases of the statement have orthonormal columns. Assumed: np.linalg.lstsq returns the shortest least squares solution (LstsqSpec), at least one residual, exact arithmetic. C128_violated_undefined shows why the residuals must be finite."
  },
  {
   "property": "C129",
   "status": "partial",
   "theorems": [
    "Tranquilo.C129_without_bounds_partial",
    "Tranquilo.C129_builtin_partial",
    "Tranquilo.C129_same_answer_partial",
    "Tranquilo.C129_conjugate_gradients",
    "Tranquilo.C129_exact_subsolver",
    "Tranquilo.C129_violated_default_radius",
    "Tranquilo.C129_violated_relative_tolerance",
    "Tranquilo.C129_violated_quadratic",
    "Tranquilo.C129_far_bounds_partial",
    "Tranquilo.C129_builtin_far_bounds_partial"
   ],
   "note": "C129_without_bounds_partial for arbitrary components, C129_builtin_partial and C129_same_answer_partial for the built in components. Missing: that gqtpar does not depend on the axes (its first guess for the multiplier does, so it can only hold up to tolerances); this is an assumption. C129_conjugate_gradients: conjugate gradients meet it; C129_exact_subsolver: so does every exact solver where the minimizer is unique. False with the defaults: C129_violated_default_radius, C129_violated_relative_tolerance, C129_violated_quadratic. Assumed: LstsqSpec, exact arithmetic. With bounds that no region reaches, before and after the rotation, the same holds (C129_far_bounds_partial, C129_builtin_far_bounds_partial)."
  },
  {
   "property": "C130",
   "status": "partial",
   "theorems": [
    "Tranquilo.C130_stays_at_the_minimum",
    "Tranquilo.C130_region_shrinks",
    "Tranquilo.C130_convergence_needs_the_start_again_partial",
    "Tranquilo.C130_violated_required_improvement",
    "Tranquilo.C130_builtin",
    "Tranquilo.C130_violated_rejected_steps"
   ],
   "note": "C130_stays_at_the_minimum and C130_region_shrinks hold (C130_builtin: for all runs with built-in components and safe settings, without further hypotheses on the components); the recognition of the minimum is false: C130_violated_required_improvement (for all runs with a positive required improvement) and C130_violated_rejected_steps (defaults, criterion |x|). What is true of it: C130_convergence_needs_the_start_again_partial. Exact arithmetic."
  },
  {
   "property": "C131",
   "status": "partial",
   "theorems": [
    "Tranquilo.C131_cores_do_not_matter_partial",
    "Tranquilo.C131_default_batch_size",
    "Tranquilo.C131_too_many_cores",
    "Tranquilo.C131_requests",
    "Tranquilo.C131_violated_cores_alone"
   ],
   "note": "True with a given batch size (C131_cores_do_not_matter_partial), false without (C131_violated_cores_alone); C131_default_batch_size says exactly how the cores act then, C131_too_many_cores which calls raise, C131_requests the same for single requests with a batch evaluator whose results do not depend on the number of workers."
  },
  {
   "property": "C132",
   "status": "proved",
   "theorems": [
    "Tranquilo.C132_far_bounds",
    "Tranquilo.C132_call",
    "Tranquilo.C132_unreached_bounds",
    "Tranquilo.C132_points_are_not_enough"
   ],
   "note": "C132_far_bounds for all components that see bounds only through the shape of the region (builtin_seesBalls: the built-in ones do), C132_call and C132_unreached_bounds for whole calls, C132_points_are_not_enough for the last sentence. Exact arithmetic."
  },
  {
   "property": "C133",
   "status": "partial",
   "theorems": [
    "Tranquilo.C133_every_point_once_partial",
    "Tranquilo.C133_call_partial",
    "Tranquilo.C133_violated_same_vector"
   ],
   "note": "C133_call_partial for all calls (C133_every_point_once_partial for runs with any components): every stored point is evaluated exactly once, in the order of the points. False for vectors (C133_violated_same_vector): the candidate of the subsolver can be a vector that was sampled before; it is stored and evaluated a second time. Missing: that the stored vectors are different, which the code does not ensure."
  },
  {
   "property": "C134",
   "status": "partial",
   "theorems": [
    "Tranquilo.C134_states_describe_iterations_partial",
    "Tranquilo.C134_call_partial",
    "Tranquilo.C134_violated_by_line_search",
    "Tranquilo.C134_violated_by_failed_evaluation",
    "Tranquilo.C134_states_report_evaluations",
    "Tranquilo.C134_call_reports_evaluations"
   ],
   "note": "C134_states_describe_iterations_partial for runs with any components, C134_call_partial for whole calls: all documented relations except the one for the candidate, for every pair of consecutive states; the candidate is the solution of the subproblem if there is no line search (or batch size one) and its value is finite. The remaining sentence is false of the code: C134_violated_by_line_search (the best point on the line is stored) and C134_violated_by_failed_evaluation (the current point is stored, with rho minus infinity). The index fields are C67, indices that refer to stored points C62. C134_states_report_evaluations and C134_call_reports_evaluations: the reported number of evaluations of the acceptance step, for all deciders."
  },
  {
   "property": "C135",
   "status": "proved",
   "theorems": [
    "Tranquilo.C135_evaluations_stay_near",
    "Tranquilo.C135_distance_from_start",
    "Tranquilo.C135_bounds_are_attained",
    "Tranquilo.C135_builtin_run",
    "Tranquilo.C135_call"
   ],
   "note": "C135_evaluations_stay_near and C135_distance_from_start for any components that stay within q radii; C135_builtin_run for the built in components (contracts: Euclidean norm, random numbers, solvers for balls that leave the ball at most by the factor q, and only if there are no bounds); C135_call for whole calls, where the largest radius is the larger of the initial radius and max_radius. C135_bounds_are_attained: a run that reaches the sum of the radii, and a line search that goes eight radii away."
  },
  {
   "property": "C136",
   "status": "proved",
   "theorems": [
    "Tranquilo.C136_states_report_the_steps",
    "Tranquilo.C136_accepted_iff",
    "Tranquilo.C136_call",
    "Tranquilo.C136_noisy_decider_needs_evaluations"
   ],
   "note": "C136_states_report_the_steps and C136_accepted_iff for runs with any components; C136_call for whole calls, where min_improvement is the option that the user passed. C136_noisy_decider_needs_evaluations: with n_max = 0 the noisy decider never evaluates the proposal and rejects an improving step. The subproblem is the one for the stored model on the stored trust region."
  },
  {
   "property": "C137",
   "status": "partial",
   "theorems": [
    "Tranquilo.C137_better_points_are_samples_partial",
    "Tranquilo.C137_call_partial",
    "Tranquilo.C137_violated_by_samples",
    "Tranquilo.C137_violated_default_call"
   ],
   "note": "False as stated: C137_violated_by_samples (a point sampled for the model has the value 0, the result the value 1) and C137_violated_default_call (a call with default options). C137_better_points_are_samples_partial for runs with any components and C137_call_partial for whole calls: a point of the history that is better than the result by more than min_improvement was returned by the sampler for the trust region of an iteration."
  },
  {
   "property": "C138",
   "status": "proved",
   "theorems": [
    "Tranquilo.C138_first_criterion_ends_a_plain_run",
    "Tranquilo.C138_first_criterion_ends_the_run",
    "Tranquilo.C138_call"
   ],
   "note": "C138_first_criterion_ends_the_run for runs with any components that select points, C138_call for whole calls with arbitrary arguments. The converse (messages are truthful) is C65. Steps that are not accepted are not checked by the code, and the claim does not say more."
  },
  {
   "property": "C139",
   "status": "proved",
   "theorems": [
    "Tranquilo.C139_accepted_steps",
    "Tranquilo.C139_call"
   ],
   "note": "C139_accepted_steps for runs with any components that select points, C139_call for whole calls with a positive batch size and a named acceptance decider. Uses C138 (no criterion is overlooked) and C61 (never worse). Rejected steps are limited by the radius, see C21 and C117."
  }
 ]
}
