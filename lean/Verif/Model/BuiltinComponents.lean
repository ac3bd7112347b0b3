import Verif.Model.Components

/-!
# The built-in components

Default option bundles (options.py:132-215), the registered functions with their signatures, the
mandatory arguments, and the keyword arguments that the optimizer passes. What the registered
functions do is a parameter `beh` (behaviour of the function registered under a name).
-/

namespace Tranquilo

section Bundles

variable {K O : Type} [Field K]

/-- A float option with a rational default. -/
def fltOption (name : String) (x : K) : String × PyVal K O := (name, .flt (.fin x))

/-- An integer option. -/
def intOption (name : String) (i : ℤ) : String × PyVal K O := (name, .int i)

/-- `AcceptanceOptions()`, options.py:146-153. -/
def acceptanceDefaults : Dict (PyVal K O) :=
  [fltOption "confidence_level" (95 / 100), fltOption "power_level" (95 / 100),
   intOption "n_initial" 5, intOption "n_min" 4, intOption "n_max" 50,
   fltOption "min_improvement" 0, fltOption "speculative_sampling_radius_factor" (75 / 100)]

/-- `SubsolverOptions()`, options.py:164-174. -/
def subsolverDefaults : Dict (PyVal K O) :=
  [intOption "maxiter" 20, intOption "maxiter_gradient_descent" 5,
   ("conjugate_gradient_method", .str "cg"), fltOption "gtol_abs" (1 / 10 ^ 8),
   fltOption "gtol_rel" (1 / 10 ^ 8), fltOption "gtol_scaled" 0,
   fltOption "gtol_abs_conjugate_gradient" (1 / 10 ^ 8),
   fltOption "gtol_rel_conjugate_gradient" (1 / 10 ^ 6),
   fltOption "k_easy" (1 / 10), fltOption "k_hard" (2 / 10)]

/-- `FitterOptions()`, options.py:177-182. -/
def fitterDefaults : Dict (PyVal K O) :=
  [fltOption "l2_penalty_linear" 0, fltOption "l2_penalty_square" (1 / 10),
   fltOption "p_intercept" (5 / 100), fltOption "p_linear" (4 / 10), fltOption "p_square" 1]

/-- `VarianceEstimatorOptions()`, options.py:185-187. -/
def varianceDefaults : Dict (PyVal K O) :=
  [fltOption "max_distance_factor" 3, intOption "min_n_evals" 3]

/-- `FilterOptions()`, options.py:190-193. -/
def filterDefaults : Dict (PyVal K O) :=
  [fltOption "strictness" (1 / 10 ^ 10), ("shape", .str "sphere"), intOption "n_max_factor" 3]

/-- `SamplerOptions()`, options.py:196-203. `hardness` is annotated as a float, but its default is
the integer `1`. -/
def samplerDefaults : Dict (PyVal K O) :=
  [("distribution", .none), intOption "hardness" 1, ("algorithm", .str "L-BFGS-B"),
   ("algo_options", .none), ("criterion", .none), intOption "n_points_randomsearch" 1,
   ("return_info", .bool false)]

/-- `NoiseAdaptationOptions()`, options.py:206-215. -/
def noiseAdaptationDefaults : Dict (PyVal K O) :=
  [intOption "rho_noise_n_draws" 100, fltOption "high_rho" (6 / 10), fltOption "low_rho" (1 / 10),
   ("ignore_corelation", .bool true), fltOption "min_share_high_rho" (7 / 10),
   fltOption "min_share_low_rho" (9 / 10), intOption "min_n_evals" 1, intOption "max_n_evals" 30,
   fltOption "good_rho_threshold" (1 / 10)]

/-- `get_default_radius_options(x)`, options.py:30-31 and 132-143, given `0.1 * max |x|`. -/
def radiusDefaults (initial : K) : Dict (PyVal K O) :=
  [fltOption "initial_radius" initial, fltOption "min_radius" (1 / 10 ^ 6),
   fltOption "max_radius" (10 ^ 6), fltOption "rho_decrease" (1 / 10),
   fltOption "rho_increase" (1 / 10), fltOption "shrinking_factor" (5 / 10),
   fltOption "expansion_factor" 2, fltOption "large_step" (5 / 10),
   ("max_radius_to_step_ratio", .flt .pinf)]

/-- `get_default_stagnation_options`, options.py:7-23 and 156-161. -/
def stagnationDefaults (noisy : Bool) (batchSize : ℤ) : Dict (PyVal K O) :=
  [fltOption "min_relative_step_keep"
      (if noisy then 0 else if 1 < batchSize then 0 else 125 / 1000),
   ("drop", .bool (if noisy then false else true)), fltOption "min_relative_step" (5 / 100),
   intOption "sample_increment" 1, intOption "max_trials" 1]

end Bundles

/-- A parameter without default. -/
def param {V : Type} (name : String) : Param V := { name := name }

/-- A parameter with a default. -/
def paramWith {V : Type} (name : String) (default : V) : Param V :=
  { name := name, default := some default }

/-- A keyword-only parameter. -/
def kwParam {V : Type} (name : String) : Param V := { name := name, kwOnly := true }

section Functions

variable {K O R : Type} [Field K]

/-- A registered function. -/
def builtin (beh : String → Dict (PyVal K O) → Except Err R) (key pyName : String)
    (params : List (Param (PyVal K O))) : String × PyFun (PyVal K O) R :=
  (key, { name := some pyName, params := params, body := beh key })

/-- `built_in_samplers`, sample_points.py:33-37; signatures lines 58-63, 141-147, 175-187. -/
def builtinSamplers (beh : String → Dict (PyVal K O) → Except Err R) :
    Dict (PyFun (PyVal K O) R) :=
  [builtin beh "random_interior" "_interior_sampler"
    [param "trustregion", param "n_points", param "rng", paramWith "existing_xs" .none],
   builtin beh "random_hull" "_hull_sampler"
    [param "trustregion", param "n_points", param "rng", param "distribution",
      paramWith "existing_xs" .none],
   builtin beh "optimal_hull" "_optimal_hull_sampler"
    [param "trustregion", param "n_points", param "rng", param "distribution", param "hardness",
      param "algorithm", param "algo_options", param "criterion", param "n_points_randomsearch",
      param "return_info", paramWith "existing_xs" .none]]

/-- `built_in_filters`, filter_points.py:27-32; signatures lines 45, 49, 53, 117. -/
def builtinFilters (beh : String → Dict (PyVal K O) → Except Err R) :
    Dict (PyFun (PyVal K O) R) :=
  [builtin beh "discard_all" "discard_all" [param "state"],
   builtin beh "keep_all" "keep_all" [param "xs", param "indices"],
   builtin beh "clustering" "keep_cluster_centers"
    [param "xs", param "indices", param "state", param "target_size",
      paramWith "strictness" (.flt (.fin (1 / 10 ^ 10))), paramWith "shape" (.str "sphere")],
   builtin beh "drop_excess" "drop_excess"
    [param "xs", param "indices", param "state", param "target_size", param "n_max_factor"]]

/-- `built_in_fitters`, fit_models.py:54-59; signatures lines 152, 193, 231, 297. -/
def builtinFitters (beh : String → Dict (PyVal K O) → Except Err R) :
    Dict (PyFun (PyVal K O) R) :=
  [builtin beh "ols" "fit_ols" [param "x", param "y", param "weights", param "model_type"],
   builtin beh "ridge" "fit_ridge"
    [param "x", param "y", param "weights", param "model_type", param "l2_penalty_linear",
      param "l2_penalty_square"],
   builtin beh "powell" "fit_powell" [param "x", param "y", param "model_type"],
   builtin beh "tranquilo" "fit_tranquilo"
    [param "x", param "y", param "weights", param "model_type", param "p_intercept",
      param "p_linear", param "p_square"]]

/-- `built_in_sphere_solvers`, solve_subproblem.py:75-81; signatures gqtpar.py:22,
gqtpar_fast.py:8, fallback_subsolvers.py:80, 92, 138. -/
def builtinSphereSolvers (beh : String → Dict (PyVal K O) → Except Err R) :
    Dict (PyFun (PyVal K O) R) :=
  [builtin beh "gqtpar" "gqtpar"
    [param "model", param "x_candidate", kwParam "k_easy", kwParam "k_hard", kwParam "maxiter"],
   builtin beh "gqtpar_fast" "gqtpar_fast"
    [param "model", param "x_candidate", kwParam "k_easy", kwParam "k_hard", kwParam "maxiter"],
   builtin beh "fallback_reparametrized" "robust_sphere_solver_reparametrized"
    [param "model", param "x_candidate"],
   builtin beh "fallback_inscribed_cube" "robust_sphere_solver_inscribed_cube"
    [param "model", param "x_candidate"],
   builtin beh "fallback_norm_constraint" "robust_sphere_solver_norm_constraint"
    [param "model", param "x_candidate"]]

/-- The signature of `bntr` (bntr.py:25) and `bntr_fast` (bntr_fast.py:17). -/
def bntrParams : List (Param (PyVal K O)) :=
  [param "model", param "lower_bounds", param "upper_bounds", param "x_candidate",
    kwParam "conjugate_gradient_method", kwParam "maxiter", kwParam "maxiter_gradient_descent",
    kwParam "gtol_abs", kwParam "gtol_rel", kwParam "gtol_scaled",
    kwParam "gtol_abs_conjugate_gradient", kwParam "gtol_rel_conjugate_gradient"]

/-- `built_in_cube_solvers`, solve_subproblem.py:83-88; signatures of the fallbacks
fallback_subsolvers.py:11, 41. -/
def builtinCubeSolvers (beh : String → Dict (PyVal K O) → Except Err R) :
    Dict (PyFun (PyVal K O) R) :=
  [builtin beh "bntr" "bntr" bntrParams,
   builtin beh "bntr_fast" "bntr_fast" bntrParams,
   builtin beh "fallback_cube" "robust_cube_solver"
    [param "model", param "x_candidate", paramWith "radius" (.flt (.fin 1))],
   builtin beh "fallback_multistart" "robust_cube_solver_multistart"
    [param "model", param "x_candidate"]]

/-- `func_dict` of `get_variance_estimator`, estimate_variance.py:13-15, 28-34. -/
def builtinVarianceEstimators (beh : String → Dict (PyVal K O) → Except Err R) :
    Dict (PyFun (PyVal K O) R) :=
  [builtin beh "classic" "_estimate_variance_classic"
    [param "trustregion", param "history", param "model_type", param "max_distance_factor",
      param "min_n_evals"]]

/-- `func_dict` of `get_acceptance_decider`, acceptance_decision.py:23-28; signatures lines 41, 73,
93, 305. -/
def builtinAcceptanceDeciders (beh : String → Dict (PyVal K O) → Except Err R) :
    Dict (PyFun (PyVal K O) R) :=
  [builtin beh "classic" "_accept_classic"
    [param "subproblem_solution", param "state", param "history", kwParam "wrapped_criterion",
      kwParam "min_improvement"],
   builtin beh "naive_noisy" "accept_naive_noisy"
    [param "subproblem_solution", param "state", param "history", kwParam "wrapped_criterion",
      kwParam "min_improvement"],
   builtin beh "noisy" "accept_noisy"
    [param "subproblem_solution", param "state", param "noise_variance", param "history",
      kwParam "wrapped_criterion", kwParam "min_improvement", kwParam "power_level",
      kwParam "confidence_level", kwParam "n_min", kwParam "n_max"],
   builtin beh "classic_line_search" "accept_classic_line_search"
    [param "subproblem_solution", param "state", param "history",
      kwParam "speculative_sampling_radius_factor", kwParam "wrapped_criterion",
      kwParam "min_improvement", kwParam "batch_size", kwParam "sample_points", kwParam "rng"]]

end Functions

section Getters

variable {K O R : Type} [Field K] [LinearOrder K] [FloorRing K]

/-- `get_sampler`, sample_points.py:13-55. -/
def getSampler (env : PyEnv K O) (beh : String → Dict (PyVal K O) → Except Err R)
    (nf : NameOrFunc (PyVal K O) R) (user : Option (UserOptions K O)) :
    Except Err (Component (PyVal K O) R) :=
  getComponent env nf (builtinSamplers beh) samplerDefaults user
    ["trustregion", "n_points", "existing_xs", "rng"]

/-- `get_sample_filter`, filter_points.py:10-42. -/
def getSampleFilter (env : PyEnv K O) (beh : String → Dict (PyVal K O) → Except Err R)
    (nf : NameOrFunc (PyVal K O) R) (user : Option (UserOptions K O)) :
    Except Err (Component (PyVal K O) R) :=
  getComponent env nf (builtinFilters beh) filterDefaults user []

/-- The fitter inside of `get_fitter`, fit_models.py:61-70. -/
def getRawFitter (env : PyEnv K O) (beh : String → Dict (PyVal K O) → Except Err R)
    (nf : NameOrFunc (PyVal K O) R) (user : Option (UserOptions K O)) :
    Except Err (Component (PyVal K O) R) :=
  getComponent env nf (builtinFitters beh) fitterDefaults user ["x", "y", "model_type"]

/-- The sphere solver of `get_subsolver`, solve_subproblem.py:90-97. -/
def getSphereSolver (env : PyEnv K O) (beh : String → Dict (PyVal K O) → Except Err R)
    (nf : NameOrFunc (PyVal K O) R) (user : Option (UserOptions K O)) :
    Except Err (Component (PyVal K O) R) :=
  getComponent env nf (builtinSphereSolvers beh) subsolverDefaults user ["model", "x_candidate"]

/-- The cube solver of `get_subsolver`, solve_subproblem.py:99-106. -/
def getCubeSolver (env : PyEnv K O) (beh : String → Dict (PyVal K O) → Except Err R)
    (nf : NameOrFunc (PyVal K O) R) (user : Option (UserOptions K O)) :
    Except Err (Component (PyVal K O) R) :=
  getComponent env nf (builtinCubeSolvers beh) subsolverDefaults user
    ["model", "x_candidate", "lower_bounds", "upper_bounds"]

/-- The fallback for spheres in `get_subsolver`, solve_subproblem.py:108-114. -/
def getFallbackSphereSolver (env : PyEnv K O)
    (beh : String → Dict (PyVal K O) → Except Err R) : Except Err (Component (PyVal K O) R) :=
  getComponent env (.str "fallback_inscribed_cube") (builtinSphereSolvers beh) subsolverDefaults
    none ["model", "x_candidate"]

/-- The fallback for cubes in `get_subsolver`, solve_subproblem.py:116-122. -/
def getFallbackCubeSolver (env : PyEnv K O)
    (beh : String → Dict (PyVal K O) → Except Err R) : Except Err (Component (PyVal K O) R) :=
  getComponent env (.str "fallback_cube") (builtinCubeSolvers beh) subsolverDefaults
    none ["model", "x_candidate"]

/-- `get_variance_estimator`, estimate_variance.py:12-25. -/
def getVarianceEstimator (env : PyEnv K O) (beh : String → Dict (PyVal K O) → Except Err R)
    (nf : NameOrFunc (PyVal K O) R) (user : Option (UserOptions K O)) :
    Except Err (Component (PyVal K O) R) :=
  getComponent env nf (builtinVarianceEstimators beh) varianceDefaults user []

/-- `get_acceptance_decider`, acceptance_decision.py:19-38. -/
def getAcceptanceDecider (env : PyEnv K O) (beh : String → Dict (PyVal K O) → Except Err R)
    (nf : NameOrFunc (PyVal K O) R) (user : Option (UserOptions K O)) :
    Except Err (Component (PyVal K O) R) :=
  getComponent env nf (builtinAcceptanceDeciders beh) acceptanceDefaults user []

end Getters

/-- Keywords of the calls of the sampler, tranquilo.py:133-138 and 229-234,
acceptance_decision.py (`_generate_speculative_sample`). -/
def samplerCallKeys : List String := ["trustregion", "n_points", "existing_xs", "rng"]

/-- Keywords of the call of the filter, tranquilo.py:108-115. -/
def filterCallKeys : List String :=
  ["xs", "indices", "state", "target_size", "history", "n_evals_per_point"]

/-- Keywords of the call of the fitter, fit_models.py:124. -/
def fitterCallKeys : List String := ["x", "y", "weights", "model_type"]

/-- Keywords of the call of the subsolvers, solve_subproblem.py:190-197. -/
def subsolverCallKeys : List String := ["model", "x_candidate", "lower_bounds", "upper_bounds"]

/-- Keywords of the call of the fallback subsolvers, solve_subproblem.py:202-205. -/
def fallbackCallKeys : List String := ["model", "x_candidate"]

/-- Keywords of the calls of the variance estimator, tranquilo.py:277-286. -/
def varianceCallKeys : List String := ["trustregion", "history", "model_type"]

/-- Keywords of the call of the acceptance decider, tranquilo.py:295-305. -/
def acceptanceCallKeys : List String :=
  ["subproblem_solution", "state", "wrapped_criterion", "noise_variance", "history",
    "search_radius_factor", "batch_size", "sample_points", "rng"]

end Tranquilo
