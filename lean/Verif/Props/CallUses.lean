import Verif.Lemmas.CallUses
import Verif.Props.TranquiloCall

/-!
# C118: a run uses the arguments of the call
-/

namespace Tranquilo

variable {K O : Type} [Field K] [LinearOrder K] [FloorRing K] {n m : Nat}

/-- A component that was built has a registered name. -/
theorem name_registered {R : Type} (env : PyEnv K O) (s : String) (funcs : Dict (PyFun (PyVal K O) R))
    (defaults : Dict (PyVal K O)) (user : Option (UserOptions K O)) (mandatory : List String)
    (comp : Component (PyVal K O) R) (h : getComponent env (.str s) funcs defaults user mandatory = .ok comp) :
    s ∈ funcs.keys := by
  by_contra hs
  rw [C56_unknown_name env s funcs hs] at h
  cases h

section Components

variable [IsStrictOrderedRing K] (env : PyEnv K O) (ext : Externals K O n m) (s : String)
  (user : Option (UserOptions K O)) (comp : Component (PyVal K O) (Option (Piece K n)))

theorem uses_default {name : String} {d d' w : PyVal K O} (h : Uses env user name d w) (hd : d = d') :
    Uses env user name d' w := hd ▸ h

theorem filter_is (F : FilterChoice K)
    (h : getSampleFilter env (pieces ext "sample_filter") (.str s) user = .ok comp)
    (hF : (calledPiece comp filterCallKeys).bind Piece.filter? = some F) : FilterIs env user s F := by
  obtain ⟨p, hp, hpF⟩ := Option.bind_eq_some_iff.1 hF
  have hmem := name_registered env s _ _ _ _ comp h
  simp only [builtinFilters, builtin, Dict.keys, List.map_cons, List.map_nil, List.mem_cons,
    List.not_mem_nil, or_false] at hmem
  rcases hmem with rfl | rfl | rfl | rfl
  · obtain ⟨d, hd, -⟩ := called_builtin env _ _ _ rfl ["state"]
      rfl (by decide) _ user _ filterCallKeys comp h p hp
    cases hd
    cases hpF
    exact .discardAll
  · obtain ⟨d, hd, -⟩ := called_builtin env _ _ _ rfl ["xs", "indices"]
      rfl (by decide) _ user _ filterCallKeys comp h p hp
    cases hd
    cases hpF
    exact .keepAll
  · obtain ⟨d, hd, hold⟩ := called_builtin env _ _ _ rfl ["xs", "indices", "state", "target_size", "strictness", "shape"]
      rfl (by decide) _ user _ filterCallKeys comp h p hp
    have hd' := Except.ok.inj hd
    have h0 := hold "strictness" (by decide) (by decide) _ rfl
    have h1 := hold "shape" (by decide) (by decide) _ rfl
    simp [filterPiece, Option.bind_eq_some_iff] at hd'
    obtain ⟨a0, ha0, a1, ha1, rfl⟩ := hd'
    cases hpF
    refine .clustering _ _ ?_
    simp only [UsesAll, List.forall_mem_cons, List.not_mem_nil, false_imp_iff, implies_true, and_true]
    exact ⟨uses_default env user (h0.uses_num ha0) (by norm_num [num]),
      uses_default env user (h1.uses_str ha1) (by norm_num [num])⟩
  · obtain ⟨d, hd, hold⟩ := called_builtin env _ _ _ rfl ["xs", "indices", "state", "target_size", "n_max_factor"]
      rfl (by decide) _ user _ filterCallKeys comp h p hp
    have hd' := Except.ok.inj hd
    have h0 := hold "n_max_factor" (by decide) (by decide) _ rfl
    simp [filterPiece, Option.bind_eq_some_iff] at hd'
    obtain ⟨a0, ha0, rfl⟩ := hd'
    cases hpF
    refine .dropExcess _ ?_
    exact uses_default env user (h0.uses_num ha0) (by norm_num [num])

theorem fitter_is (F : FitterChoice K)
    (h : getRawFitter env (pieces ext "fitter") (.str s) user = .ok comp)
    (hF : (calledPiece comp fitterCallKeys).bind Piece.fitter? = some F) : FitterIs env user s F := by
  obtain ⟨p, hp, hpF⟩ := Option.bind_eq_some_iff.1 hF
  have hmem := name_registered env s _ _ _ _ comp h
  simp only [builtinFitters, builtin, Dict.keys, List.map_cons, List.map_nil, List.mem_cons,
    List.not_mem_nil, or_false] at hmem
  rcases hmem with rfl | rfl | rfl | rfl
  · obtain ⟨d, hd, -⟩ := called_builtin env _ _ _ rfl ["x", "y", "weights", "model_type"]
      rfl (by decide) _ user _ fitterCallKeys comp h p hp
    cases hd
    cases hpF
    exact .ols
  · obtain ⟨d, hd, hold⟩ := called_builtin env _ _ _ rfl ["x", "y", "weights", "model_type", "l2_penalty_linear", "l2_penalty_square"]
      rfl (by decide) _ user _ fitterCallKeys comp h p hp
    have hd' := Except.ok.inj hd
    have h0 := hold "l2_penalty_linear" (by decide) (by decide) _ rfl
    have h1 := hold "l2_penalty_square" (by decide) (by decide) _ rfl
    simp [fitterPiece, Option.bind_eq_some_iff] at hd'
    obtain ⟨a0, ha0, a1, ha1, rfl⟩ := hd'
    cases hpF
    refine .ridge _ _ ?_
    simp only [UsesAll, List.forall_mem_cons, List.not_mem_nil, false_imp_iff, implies_true, and_true]
    exact ⟨uses_default env user (h0.uses_num ha0) (by norm_num [num]),
      uses_default env user (h1.uses_num ha1) (by norm_num [num])⟩
  · obtain ⟨d, hd, -⟩ := called_builtin env _ _ _ rfl ["x", "y", "model_type"]
      rfl (by decide) _ user _ fitterCallKeys comp h p hp
    cases hd
    cases hpF
    exact .powell
  · obtain ⟨d, hd, hold⟩ := called_builtin env _ _ _ rfl ["x", "y", "weights", "model_type", "p_intercept", "p_linear", "p_square"]
      rfl (by decide) _ user _ fitterCallKeys comp h p hp
    have hd' := Except.ok.inj hd
    have h0 := hold "p_intercept" (by decide) (by decide) _ rfl
    have h1 := hold "p_linear" (by decide) (by decide) _ rfl
    have h2 := hold "p_square" (by decide) (by decide) _ rfl
    simp [fitterPiece, Option.bind_eq_some_iff] at hd'
    obtain ⟨a0, ha0, a1, ha1, a2, ha2, rfl⟩ := hd'
    cases hpF
    refine .tranquilo _ _ _ ?_
    simp only [UsesAll, List.forall_mem_cons, List.not_mem_nil, false_imp_iff, implies_true, and_true]
    exact ⟨uses_default env user (h0.uses_num ha0) (by norm_num [num]),
      uses_default env user (h1.uses_num ha1) (by norm_num [num]),
      uses_default env user (h2.uses_num ha2) (by norm_num [num])⟩

theorem sampler_is (F : BuiltInSampler K n)
    (h : getSampler env (pieces ext "sampler") (.str s) user = .ok comp)
    (hF : (calledPiece comp samplerCallKeys).bind Piece.sampler? = some F) : SamplerIs env ext user s F := by
  obtain ⟨p, hp, hpF⟩ := Option.bind_eq_some_iff.1 hF
  have hmem := name_registered env s _ _ _ _ comp h
  simp only [builtinSamplers, builtin, Dict.keys, List.map_cons, List.map_nil, List.mem_cons,
    List.not_mem_nil, or_false] at hmem
  rcases hmem with rfl | rfl | rfl
  · obtain ⟨d, hd, -⟩ := called_builtin env _ _ _ rfl ["trustregion", "n_points", "rng", "existing_xs"]
      rfl (by decide) _ user _ samplerCallKeys comp h p hp
    cases hd
    cases hpF
    exact .interior
  · obtain ⟨d, hd, hold⟩ := called_builtin env _ _ _ rfl
      ["trustregion", "n_points", "rng", "distribution", "existing_xs"]
      rfl (by decide) _ user _ samplerCallKeys comp h p hp
    have hd' := Except.ok.inj hd
    have h0 := hold "distribution" (by decide) (by decide) _ rfl
    simp [samplerPiece] at hd'
    obtain ⟨a0, ha0, rfl⟩ := hd'
    cases hpF
    exact .hull _ (h0.uses_name ha0)
  · obtain ⟨d, hd, hold⟩ := called_builtin env _ _ _ rfl
      ["trustregion", "n_points", "rng", "distribution", "hardness", "algorithm", "algo_options", "criterion",
        "n_points_randomsearch", "return_info", "existing_xs"]
      rfl (by decide) _ user _ samplerCallKeys comp h p hp
    have hd' := Except.ok.inj hd
    have h0 := hold "distribution" (by decide) (by decide) _ rfl
    have h1 := hold "hardness" (by decide) (by decide) _ rfl
    have h2 := hold "algorithm" (by decide) (by decide) _ rfl
    have h3 := hold "algo_options" (by decide) (by decide) _ rfl
    have h4 := hold "criterion" (by decide) (by decide) _ rfl
    have h5 := hold "n_points_randomsearch" (by decide) (by decide) _ rfl
    simp [samplerPiece, Option.bind_eq_some_iff] at hd'
    obtain ⟨a0, ha0, a1, ha1, a4, ⟨c, hc, hca⟩, a5, ha5, a2, ha2, a3, ha3, rfl⟩ := hd'
    cases hpF
    have hc' : criterionName a4 = c := by
      unfold criterionOf at hca
      split at hca
      · cases hca; rename_i h; rw [h]; rfl
      split at hca
      · cases hca; rename_i h; rw [h]; rfl
      split at hca
      · cases hca; rename_i h; rw [h]; rfl
      · cases hca
    refine .optimal _ _ _ _ _ _ ?_
    simp only [UsesAll, List.forall_mem_cons, List.not_mem_nil, false_imp_iff, implies_true, and_true]
    exact ⟨h0.uses_name ha0, h1.uses_num ha1, h2.uses_any ha2, h3.uses_any ha3,
      by rw [hc']; exact h4.uses_name hc, h5.uses_nat ha5⟩

theorem decider_is (F : DeciderChoice K)
    (h : getAcceptanceDecider env (pieces ext "acceptance_decider") (.str s) user = .ok comp)
    (hF : (calledPiece comp acceptanceCallKeys).bind Piece.decider? = some F) : DeciderIs env ext user s F := by
  obtain ⟨p, hp, hpF⟩ := Option.bind_eq_some_iff.1 hF
  have hmem := name_registered env s _ _ _ _ comp h
  simp only [builtinAcceptanceDeciders, builtin, Dict.keys, List.map_cons, List.map_nil, List.mem_cons,
    List.not_mem_nil, or_false] at hmem
  rcases hmem with rfl | rfl | rfl | rfl
  · obtain ⟨d, hd, hold⟩ := called_builtin env _ _ _ rfl
      ["subproblem_solution", "state", "history", "wrapped_criterion", "min_improvement"]
      rfl (by decide) _ user _ acceptanceCallKeys comp h p hp
    have hd' := Except.ok.inj hd
    have h0 := hold "min_improvement" (by decide) (by decide) _ rfl
    simp [deciderPiece, Option.bind_eq_some_iff] at hd'
    obtain ⟨a0, ha0, rfl⟩ := hd'
    cases hpF
    exact .classic _ (h0.uses_num ha0)
  · obtain ⟨d, hd, hold⟩ := called_builtin env _ _ _ rfl
      ["subproblem_solution", "state", "history", "wrapped_criterion", "min_improvement"]
      rfl (by decide) _ user _ acceptanceCallKeys comp h p hp
    have hd' := Except.ok.inj hd
    have h0 := hold "min_improvement" (by decide) (by decide) _ rfl
    simp [deciderPiece, Option.bind_eq_some_iff] at hd'
    obtain ⟨a0, ha0, rfl⟩ := hd'
    cases hpF
    exact .naiveNoisy _ (h0.uses_num ha0)
  · obtain ⟨d, hd, hold⟩ := called_builtin env _ _ _ rfl
      ["subproblem_solution", "state", "noise_variance", "history", "wrapped_criterion", "min_improvement",
        "power_level", "confidence_level", "n_min", "n_max"]
      rfl (by decide) _ user _ acceptanceCallKeys comp h p hp
    have hd' := Except.ok.inj hd
    have h0 := hold "min_improvement" (by decide) (by decide) _ rfl
    have h1 := hold "confidence_level" (by decide) (by decide) _ rfl
    have h2 := hold "power_level" (by decide) (by decide) _ rfl
    have h3 := hold "n_min" (by decide) (by decide) _ rfl
    have h4 := hold "n_max" (by decide) (by decide) _ rfl
    simp [deciderPiece, Option.bind_eq_some_iff] at hd'
    obtain ⟨a0, ha0, a1, ha1, a2, ha2, a3, ha3, a4, ha4, rfl⟩ := hd'
    cases hpF
    refine .noisy _ _ _ _ _ ?_
    simp only [UsesAll, List.forall_mem_cons, List.not_mem_nil, false_imp_iff, implies_true, and_true]
    exact ⟨h0.uses_num ha0, uses_default env user (h1.uses_num ha1) (by norm_num [num]),
      uses_default env user (h2.uses_num ha2) (by norm_num [num]), h3.uses_nat ha3, h4.uses_nat ha4⟩
  · obtain ⟨d, hd, hold⟩ := called_builtin env _ _ _ rfl
      ["subproblem_solution", "state", "history", "speculative_sampling_radius_factor", "wrapped_criterion",
        "min_improvement", "batch_size", "sample_points", "rng"]
      rfl (by decide) _ user _ acceptanceCallKeys comp h p hp
    have hd' := Except.ok.inj hd
    have h0 := hold "min_improvement" (by decide) (by decide) _ rfl
    have h1 := hold "speculative_sampling_radius_factor" (by decide) (by decide) _ rfl
    simp [deciderPiece, Option.bind_eq_some_iff] at hd'
    obtain ⟨a0, ha0, a1, ha1, rfl⟩ := hd'
    cases hpF
    refine .lineSearch _ _ ?_
    simp only [UsesAll, List.forall_mem_cons, List.not_mem_nil, false_imp_iff, implies_true, and_true]
    exact ⟨h0.uses_num ha0, uses_default env user (h1.uses_num ha1) (by norm_num [num])⟩

theorem variance_is (f : K) (k : ℤ)
    (h : getVarianceEstimator env (pieces ext "variance estimator") (.str s) user = .ok comp)
    (hF : (calledPiece comp varianceCallKeys).bind Piece.variance? = some (f, k)) :
    UsesAll env user [("max_distance_factor", num 3, num f), ("min_n_evals", .int 3, .int k)] := by
  obtain ⟨p, hp, hpF⟩ := Option.bind_eq_some_iff.1 hF
  have hmem := name_registered env s _ _ _ _ comp h
  simp only [builtinVarianceEstimators, builtin, Dict.keys, List.map_cons, List.map_nil, List.mem_cons,
    List.not_mem_nil, or_false] at hmem
  subst hmem
  obtain ⟨d, hd, hold⟩ := called_builtin env _ _ _ rfl
    ["trustregion", "history", "model_type", "max_distance_factor", "min_n_evals"]
    rfl (by decide) _ user _ varianceCallKeys comp h p hp
  have hd' := Except.ok.inj hd
  have h0 := hold "max_distance_factor" (by decide) (by decide) _ rfl
  have h1 := hold "min_n_evals" (by decide) (by decide) _ rfl
  simp [variancePiece, Option.bind_eq_some_iff] at hd'
  obtain ⟨a0, ha0, a1, ha1, rfl⟩ := hd'
  cases hpF
  simp only [UsesAll, List.forall_mem_cons, List.not_mem_nil, false_imp_iff, implies_true, and_true]
  exact ⟨h0.uses_num ha0, h1.uses_int ha1⟩

theorem Holds.cast {d : Dict (PyVal K O)} {k : String} {v v' : PyVal K O} (h : Holds env user d k v) (hv : v = v') :
    Holds env user d k v' := hv ▸ h

theorem sphere_is (F : SubSolver K n)
    (h : getSphereSolver env (pieces ext "sphere_solver") (.str s) user = .ok comp)
    (hF : (calledPiece comp subsolverCallKeys).bind Piece.solver? = some F) : SolverIs env ext user s F := by
  obtain ⟨p, hp, hpF⟩ := Option.bind_eq_some_iff.1 hF
  have hmem := name_registered env s _ _ _ _ comp h
  simp only [builtinSphereSolvers, builtin, Dict.keys, List.map_cons, List.map_nil, List.mem_cons,
    List.not_mem_nil, or_false] at hmem
  have key : ∀ s, s = "gqtpar" ∨ s = "gqtpar_fast" → ∀ d : Dict (PyVal K O), 
      (∀ k ∈ ["model", "x_candidate", "k_easy", "k_hard", "maxiter"], k ∉ subsolverCallKeys → ∀ default,
        (subsolverDefaults : Dict (PyVal K O)).lookup k = some default → Holds env user d k default) →
      SolverIs env ext user s (ext.solver s d) := by
    intro s hs d hold
    refine ⟨d, rfl, ?_⟩
    rw [solverOptions, if_pos hs]
    simp only [List.forall_mem_cons, List.not_mem_nil, false_imp_iff, implies_true, and_true]
    exact ⟨(hold "k_easy" (by decide) (by decide) _ rfl).cast env user (by norm_num [num]),
      (hold "k_hard" (by decide) (by decide) _ rfl).cast env user (by norm_num [num]),
      hold "maxiter" (by decide) (by decide) _ rfl⟩
  rcases hmem with rfl | rfl | rfl | rfl | rfl
  · obtain ⟨d, hd, hold⟩ := called_builtin env _ _ _ rfl ["model", "x_candidate", "k_easy", "k_hard", "maxiter"]
      rfl (by decide) _ user _ subsolverCallKeys comp h p hp
    cases hd
    cases hpF
    exact key _ (Or.inl rfl) d hold
  · obtain ⟨d, hd, hold⟩ := called_builtin env _ _ _ rfl ["model", "x_candidate", "k_easy", "k_hard", "maxiter"]
      rfl (by decide) _ user _ subsolverCallKeys comp h p hp
    cases hd
    cases hpF
    exact key _ (Or.inr rfl) d hold
  all_goals
    obtain ⟨d, hd, -⟩ := called_builtin env _ _ _ rfl ["model", "x_candidate"]
      rfl (by decide) _ user _ subsolverCallKeys comp h p hp
    cases hd
    cases hpF
    exact ⟨d, rfl, fun e he => by simp [solverOptions] at he⟩

theorem cube_is (F : SubSolver K n)
    (h : getCubeSolver env (pieces ext "cube_solver") (.str s) user = .ok comp)
    (hF : (calledPiece comp subsolverCallKeys).bind Piece.solver? = some F) : SolverIs env ext user s F := by
  obtain ⟨p, hp, hpF⟩ := Option.bind_eq_some_iff.1 hF
  have hmem := name_registered env s _ _ _ _ comp h
  simp only [builtinCubeSolvers, builtin, Dict.keys, List.map_cons, List.map_nil, List.mem_cons,
    List.not_mem_nil, or_false] at hmem
  have key : ∀ s, s = "bntr" ∨ s = "bntr_fast" → ∀ d : Dict (PyVal K O),
      (∀ k ∈ ["model", "lower_bounds", "upper_bounds", "x_candidate", "conjugate_gradient_method", "maxiter",
        "maxiter_gradient_descent", "gtol_abs", "gtol_rel", "gtol_scaled", "gtol_abs_conjugate_gradient",
        "gtol_rel_conjugate_gradient"], k ∉ subsolverCallKeys → ∀ default,
        (subsolverDefaults : Dict (PyVal K O)).lookup k = some default → Holds env user d k default) →
      SolverIs env ext user s (ext.solver s d) := by
    intro s hs d hold
    refine ⟨d, rfl, ?_⟩
    rw [solverOptions, if_neg (by rcases hs with rfl | rfl <;> decide), if_pos hs]
    simp only [List.forall_mem_cons, List.not_mem_nil, false_imp_iff, implies_true, and_true]
    exact ⟨hold "conjugate_gradient_method" (by decide) (by decide) _ rfl,
      hold "maxiter" (by decide) (by decide) _ rfl,
      hold "maxiter_gradient_descent" (by decide) (by decide) _ rfl,
      hold "gtol_abs" (by decide) (by decide) _ rfl,
      hold "gtol_rel" (by decide) (by decide) _ rfl,
      hold "gtol_scaled" (by decide) (by decide) _ rfl,
      hold "gtol_abs_conjugate_gradient" (by decide) (by decide) _ rfl,
      hold "gtol_rel_conjugate_gradient" (by decide) (by decide) _ rfl⟩
  rcases hmem with rfl | rfl | rfl | rfl
  · obtain ⟨d, hd, hold⟩ := called_builtin env _ _ _ rfl
      ["model", "lower_bounds", "upper_bounds", "x_candidate", "conjugate_gradient_method", "maxiter",
        "maxiter_gradient_descent", "gtol_abs", "gtol_rel", "gtol_scaled", "gtol_abs_conjugate_gradient",
        "gtol_rel_conjugate_gradient"]
      rfl (by decide) _ user _ subsolverCallKeys comp h p hp
    cases hd
    cases hpF
    exact key _ (Or.inl rfl) d hold
  · obtain ⟨d, hd, hold⟩ := called_builtin env _ _ _ rfl
      ["model", "lower_bounds", "upper_bounds", "x_candidate", "conjugate_gradient_method", "maxiter",
        "maxiter_gradient_descent", "gtol_abs", "gtol_rel", "gtol_scaled", "gtol_abs_conjugate_gradient",
        "gtol_rel_conjugate_gradient"]
      rfl (by decide) _ user _ subsolverCallKeys comp h p hp
    cases hd
    cases hpF
    exact key _ (Or.inr rfl) d hold
  · obtain ⟨d, hd, -⟩ := called_builtin env _ _ _ rfl ["model", "x_candidate", "radius"]
      rfl (by decide) _ user _ subsolverCallKeys comp h p hp
    cases hd
    cases hpF
    exact ⟨d, rfl, fun e he => by simp [solverOptions] at he⟩
  · obtain ⟨d, hd, -⟩ := called_builtin env _ _ _ rfl ["model", "x_candidate"]
      rfl (by decide) _ user _ subsolverCallKeys comp h p hp
    cases hd
    cases hpF
    exact ⟨d, rfl, fun e he => by simp [solverOptions] at he⟩

end Components

theorem call_uses [IsStrictOrderedRing K] (env : PyEnv K O) (ext : Externals K O n m)
    (a : Arguments K O (Option (Piece K n))) (x : Vec K n) (p : ProcessedArguments K O (Option (Piece K n)))
    (hp : processArguments env (pieces ext) { a with x := List.ofFn x } = .ok p) (c : Config K)
    (hc : callConfig p = some c) (b : BuiltinSettings K n m) (hb : callSettings ext p = some b) (radius : K)
    (hradius : numOf p.radiusOptions "initial_radius" = some radius) : CallUses env ext a x c b radius := by
  simp only [processArguments, except_bind_ok] at hp
  obtain ⟨-, -, f1, hf1, f2, hf2, f3, hf3, f4, hf4, f5, hf5, f6, hf6, -, -, maxIter, hmi, maxEval, hme, -, -, nCores, hnc,
    -, -, nStart, hstart, noise, hnoise, nPer, hper, factor, hfactor, batch, hbatch, initial, hinitial,
    ropts, hropts, mt, hmt, stag, hstag, size, hsize, fitter, hfitter, res, hres, ft, -, -, -, sampler, h1,
    sphere, h2, cube, h3, filt, h4, raw, h5, -, -, agg, hagg, est, h6, acc, h7, hout⟩ := hp
  cases hout
  simp only [callConfig, Option.bind_eq_bind, Option.bind_eq_some_iff] at hc
  simp only [callSettings, Option.bind_eq_bind, Option.bind_eq_some_iff] at hb
  obtain ⟨conv, hconv, rad, hrad, nz, hnz, st, hst, bs, hbs, ts, ⟨ti, hti, hts⟩, q, hq, npp, hnpp, nst, hnst, dec, hdec,
    hcc⟩ := hc
  cases hcc
  obtain ⟨bsam, hbsam, bfil, hbfil, bfit, hbfit, bsph, hbsph, bcub, hbcub, bvar, hbvar, bmt, hbmt, bnd, hbnd, bic, hbic,
    hbb⟩ := hb
  cases hbb
  simp only [callConv, Option.bind_eq_bind, Option.bind_eq_some_iff] at hconv
  obtain ⟨g1, hg1, g2, hg2, g3, hg3, g4, hg4, g5, hg5, g6, hg6, hcc⟩ := hconv
  cases hcc
  have hnoise' := holds_bundle env _ noise _ hnoise
  have hropts' := holds_bundle env _ ropts _ hropts
  have hstag' := holds_bundle env _ stag _ hstag
  have hbatch' : (bs : ℤ) = batch := (sizeOf?_eq hbs).symm
  have hmt' : (mt = "linear" ∧ bmt = .linear) ∨ (mt = "quadratic" ∧ bmt = .quadratic) := by
    unfold modelTypeOf at hbmt
    split at hbmt
    · cases hbmt; exact Or.inl ⟨by assumption, rfl⟩
    split at hbmt
    · cases hbmt; exact Or.inr ⟨by assumption, rfl⟩
    · cases hbmt
  have hsz : size = .int ts := by
    cases size <;> simp only [PyVal.int?, reduceCtorEq, Option.some.injEq] at hti
    rw [hti, sizeOf?_eq hts]
  simp only [callNoise, Option.bind_eq_bind, Option.bind_eq_some_iff] at hnz
  obtain ⟨z1, hz1, z2, hz2, z3, hz3, z4, hz4, z5, hz5, z6, hz6, z7, hz7, hcc⟩ := hnz
  cases hcc
  simp only [callRadius, Option.bind_eq_bind, Option.bind_eq_some_iff] at hrad
  obtain ⟨r1, hr1, r2, hr2, r3, hr3, r4, hr4, r5, hr5, r6, hr6, r7, hr7, r8, hr8, hcc⟩ := hrad
  cases hcc
  simp only [callStagnation, Option.bind_eq_bind, Option.bind_eq_some_iff] at hst
  obtain ⟨s1, hs1, s2, hs2, s3, hs3, s4, hs4, s5, hs5, hcc⟩ := hst
  cases hcc
  have hnum : ∀ (v : PyVal K O) (f : XVal K) (g : K), toFloat env v = .ok f → f.number? = some g →
      ReadsFloat env v g := by
    intro v f g hf hg
    refine readsFloat_of env v g ?_
    cases f <;> simp only [XVal.number?, reduceCtorEq, Option.some.injEq] at hg
    rw [hf, hg]
  constructor
  case noisy => exact readsBool_toBool env _
  case disable => exact readsBool_toBool env _
  case ftolAbs => exact hnum _ _ _ hf1 hg1
  case gtolAbs => exact hnum _ _ _ hf2 hg2
  case xtolAbs => exact hnum _ _ _ hf3 hg3
  case ftolRel => exact hnum _ _ _ hf4 hg4
  case gtolRel => exact hnum _ _ _ hf5 hg5
  case xtolRel => exact hnum _ _ _ hf6 hg6
  case maxIter => exact ⟨_, readsInt_of env _ _ hmi, by simp⟩
  case maxEval => exact ⟨_, readsInt_of env _ _ hme, by simp⟩
  case batchSize =>
    dsimp only
    rw [hbatch']
    unfold processBatchSize at hbatch
    split at hbatch
    · rename_i hb
      cases hbatch
      exact Or.inl ⟨hb, readsInt_of env _ _ hnc⟩
    · obtain ⟨t, -, hbatch⟩ := except_bind_ok.1 hbatch
      split at hbatch
      · cases hbatch
      · exact Or.inr (readsInt_of env _ _ hbatch)
  case sampleSize =>
    dsimp only
    rw [hsz] at hsize
    refine ⟨fun v hv hne => ?_, fun g hg => ⟨mt, ?_, hmt'⟩, fun hv => ?_⟩
    · rw [hv] at hsize
      cases v with
      | none => exact absurd rfl hne
      | _ =>
        simp only [processSampleSize] at hsize
        obtain ⟨i, hi, hii⟩ := except_map_ok.1 hsize
        cases hii
        exact readsInt_of env _ _ hi
    · rw [hg] at hsize
      exact hsize
    · rw [hv] at hsize
      simp only [processSampleSize, Except.ok.injEq, PyVal.int.injEq, List.length_ofFn] at hsize
      rcases hmt' with ⟨rfl, rfl⟩ | ⟨rfl, rfl⟩
      · rw [if_neg (by decide)]
        rw [defaultSampleSize, if_neg (by decide)] at hsize
        by_cases hcase : toBool env a.noisy = true ∨ 1 < bs
        · rw [if_pos hcase]
          rw [if_pos (by rw [← hbatch']; simpa using hcase)] at hsize
          omega
        · rw [if_neg hcase]
          rw [if_neg (by rw [← hbatch']; simpa using hcase)] at hsize
          omega
      · rw [if_pos rfl]
        rw [defaultSampleSize, if_pos rfl] at hsize
        omega
  case factor =>
    dsimp only
    obtain ⟨o, ho, hfactor⟩ := except_bind_ok.1 hfactor
    split at hfactor
    · cases hfactor
    · cases hfactor
      unfold rawSearchRadiusFactor at ho
      split at ho
      · rename_i hnone
        cases ho
        cases hq
        exact Or.inl ⟨hnone, rfl⟩
      · exact Or.inr (hnum _ _ _ ho hq)
  case factorPositive =>
    dsimp only
    obtain ⟨o, -, hfactor⟩ := except_bind_ok.1 hfactor
    split at hfactor
    · cases hfactor
    · rename_i hpos
      cases hfactor
      cases factor <;> simp only [XVal.number?, reduceCtorEq, Option.some.injEq] at hq
      subst hq
      exact not_le.1 fun h => hpos (by simpa using h)
  case perPoint =>
    dsimp only
    obtain ⟨o, ho, hper⟩ := except_bind_ok.1 hper
    obtain ⟨t, -, hper⟩ := except_bind_ok.1 hper
    split at hper
    · cases hper
    · cases hper
      unfold rawNEvalsPerPoint at ho
      split at ho
      · rename_i hnone
        left
        refine ⟨hnone, ?_⟩
        cases hn : toBool env a.noisy with
        | false =>
          rw [hn] at ho
          cases ho
          cases hnpp
          rfl
        | true =>
          rw [hn] at ho
          have ho' := Except.ok.inj ho
          simp only [if_true] at ho' ⊢
          unfold intOf at hz5
          split at hz5
          · rename_i i hl
            cases hz5
            rw [hl] at ho'
            subst ho'
            cases hnpp
            rfl
          · cases hz5
      · right
        obtain ⟨i, hi, hii⟩ := except_map_ok.1 ho
        cases hii
        cases hnpp
        exact readsInt_of env _ _ hi
  case atStart =>
    dsimp only
    obtain ⟨o, ho, hstart⟩ := except_bind_ok.1 hstart
    split at hstart
    · cases hstart
    · cases hstart
      unfold rawNEvalsAtStart at ho
      have hi := sizeOf?_eq hnst
      split at ho
      · rename_i hnone
        left
        refine ⟨hnone, ?_⟩
        have ho' := Except.ok.inj ho
        split at ho' <;> simp_all <;> omega
      · right
        rw [← hi]
        exact readsInt_of env _ _ ho
  case radius =>
    have hne : List.ofFn x ≠ [] := by
      intro hnil
      rw [hnil] at hinitial
      cases hinitial
    obtain ⟨i0, hi0, hle, v, hv, hvi⟩ := defaultInitialRadius_ok (List.ofFn x) hne
    rw [hi0] at hinitial
    cases hinitial
    obtain ⟨i, rfl⟩ := (List.mem_ofFn' x v).1 hv
    refine ⟨initial, fun j => hle _ ((List.mem_ofFn' x _).2 ⟨j, rfl⟩), ⟨i, hvi⟩, ?_⟩
    simp only [UsesAll, radiusTable, List.forall_mem_cons, List.not_mem_nil, false_imp_iff, implies_true, and_true]
    exact ⟨(hropts' _ _ rfl).uses_num hradius,
      uses_default env _ ((hropts' _ _ rfl).uses_num hr2) (by norm_num [num]),
      uses_default env _ ((hropts' _ _ rfl).uses_num hr1) (by norm_num [num]),
      uses_default env _ ((hropts' _ _ rfl).uses_num hr3) (by norm_num [num]),
      uses_default env _ ((hropts' _ _ rfl).uses_num hr4) (by norm_num [num]),
      uses_default env _ ((hropts' _ _ rfl).uses_num hr5) (by norm_num [num]),
      uses_default env _ ((hropts' _ _ rfl).uses_num hr6) (by norm_num [num]),
      uses_default env _ ((hropts' _ _ rfl).uses_num hr7) (by norm_num [num]),
      (hropts' _ _ rfl).uses_ratio hr8⟩
  case stagnation =>
    simp only [UsesAll, stagnationTable, List.forall_mem_cons, List.not_mem_nil, false_imp_iff, implies_true, and_true]
    refine ⟨uses_default env _ ((hstag' _ _ rfl).uses_num hs1) ?_,
      uses_default env _ ((hstag' _ _ rfl).uses_bool hs2) ?_,
      uses_default env _ ((hstag' _ _ rfl).uses_num hs3) (by norm_num [num]),
      (hstag' _ _ rfl).uses_nat hs4, (hstag' _ _ rfl).uses_nat hs5⟩
    · rw [← hbatch']
      cases toBool env a.noisy <;> by_cases hb1 : 1 < bs <;> simp [num, hb1] <;> norm_num
    · cases toBool env a.noisy <;> rfl
  case noise =>
    simp only [UsesAll, noiseTable, List.forall_mem_cons, List.not_mem_nil, false_imp_iff, implies_true, and_true]
    exact ⟨(hnoise' _ _ rfl).uses_int hbnd,
      uses_default env _ ((hnoise' _ _ rfl).uses_num hz1) (by norm_num [num]),
      uses_default env _ ((hnoise' _ _ rfl).uses_num hz2) (by norm_num [num]),
      (hnoise' _ _ rfl).uses_bool hbic,
      uses_default env _ ((hnoise' _ _ rfl).uses_num hz3) (by norm_num [num]),
      uses_default env _ ((hnoise' _ _ rfl).uses_num hz4) (by norm_num [num]),
      (hnoise' _ _ rfl).uses_int hz5, (hnoise' _ _ rfl).uses_int hz6,
      uses_default env _ ((hnoise' _ _ rfl).uses_num hz7) (by norm_num [num])⟩
  case modelType =>
    dsimp only
    unfold processModelType at hmt
    split at hmt
    · rename_i hnone
      rw [hnone]
      have := Except.ok.inj hmt
      unfold defaultModelType at this
      rcases hmt' with ⟨rfl, rfl⟩ | ⟨rfl, rfl⟩
      · refine .vector fun hs => ?_
        rw [if_pos hs] at this
        exact absurd this (by decide)
      · refine .scalar (by_contra fun hs => ?_)
        rw [if_neg hs] at this
        exact absurd this (by decide)
    · rename_i s hs
      rw [hs]
      split at hmt
      · cases hmt
        rcases hmt' with ⟨rfl, rfl⟩ | ⟨rfl, rfl⟩
        · exact .linear
        · exact .quadratic
      · cases hmt
    · cases hmt
  case aggregator =>
    dsimp only
    unfold defaultAggregator at hagg
    rcases hmt' with ⟨rfl, rfl⟩ | ⟨rfl, rfl⟩
    · rw [if_neg (by simp)] at hagg
      split at hagg
      · rename_i hh; cases hagg; rw [hh.1]; exact .leastSquares
      split at hagg
      · rename_i hh; cases hagg; rw [hh.1]; exact .likelihood
      · cases hagg
    · split at hagg
      · rename_i hh; cases hagg; rw [hh.1]; exact .scalar
      rw [if_neg (by simp), if_neg (by simp)] at hagg
      cases hagg
  case retry => exact readsBool_toBool env _
  case sampler =>
    intro s hs
    rw [hs] at h1
    exact sampler_is env ext s _ sampler bsam h1 (Option.bind_eq_some_iff.2 hbsam)
  case filter =>
    dsimp only
    intro s hs
    have hname : a.sampleFilter.getD (.str (if 1 < batch then "drop_excess" else "keep_all")) = .str s := by
      unfold requestedName at hs
      rw [← hbatch']
      split at hs
      · rename_i hnone
        cases hs
        simp [hnone]
      · rename_i hsome
        cases hs
        rw [hsome]
        rfl
      · cases hs
    rw [hname] at h4
    exact filter_is env ext s _ filt bfil h4 (Option.bind_eq_some_iff.2 hbfil)
  case fitter =>
    dsimp only
    intro s hs
    have hname : fitter = .str s := by
      unfold requestedName at hs
      split at hs
      · rename_i hnone
        rw [hnone] at hfitter
        obtain ⟨s', hs', hss⟩ := except_map_ok.1 hfitter
        rw [← hss]
        congr 1
        rw [hsz] at hs'
        unfold defaultModelFitter at hs'
        obtain ⟨k, hk, hs'⟩ := except_bind_ok.1 hs'
        have hk' := nFreeParams_eq _ _ _ hk
        rw [List.length_ofFn] at hk'
        rw [← Option.some.inj hs]
        rcases hmt' with ⟨rfl, rfl⟩ | ⟨rfl, rfl⟩
        · rw [if_pos rfl] at hs'
          cases hs'
          rw [if_pos (Or.inl rfl)]
        · rw [if_neg (by decide)] at hs'
          obtain ⟨t, ht, hs'⟩ := except_bind_ok.1 hs'
          simp only [nCoefficients, if_true] at hk'
          simp only [pyLt, Except.ok.injEq] at ht
          by_cases hle : 1 + n + n * (n + 1) / 2 ≤ ts
          · rw [if_pos (Or.inr hle)]
            have : t = false := by rw [← ht, decide_eq_false_iff_not, hk']; omega
            subst this
            cases hs'
            rfl
          · rw [if_neg (by simp [hle])]
            have : t = true := by rw [← ht, decide_eq_true_iff, hk']; omega
            subst this
            cases hs'
            rfl
      · rename_i hsome
        cases hs
        rw [hsome] at hfitter
        cases hfitter
        rfl
      · cases hs
    rw [hname] at h5 hres
    refine ⟨fitter_is env ext s _ raw bfit h5 (Option.bind_eq_some_iff.2 hbfit), fun hn => ?_⟩
    rw [hn] at hres
    cases hres
    rfl
  case residualize =>
    intro v hv
    rw [hv] at hres
    cases hres
    rfl
  case decider =>
    dsimp only
    intro s hs
    have hname : a.acceptanceDecider.getD (.str (if toBool env a.noisy then "noisy" else "classic")) = .str s := by
      unfold requestedName at hs
      split at hs
      · rename_i hnone
        cases hs
        simp [hnone]
      · rename_i hsome
        cases hs
        rw [hsome]
        rfl
      · cases hs
    rw [hname] at h7
    exact decider_is env ext s _ acc dec h7 (Option.bind_eq_some_iff.2 hdec)
  case variance =>
    intro s hs
    rw [hs] at h6
    exact variance_is env ext s _ est bvar.1 bvar.2 h6 (Option.bind_eq_some_iff.2 hbvar)
  case sphere =>
    intro s hs
    rw [hs] at h2
    exact sphere_is env ext s _ sphere bsph h2 (Option.bind_eq_some_iff.2 hbsph)
  case cube =>
    intro s hs
    rw [hs] at h3
    exact cube_is env ext s _ cube bcub h3 (Option.bind_eq_some_iff.2 hbcub)
  case fallbacks => exact ⟨rfl, rfl⟩
  case numpy => exact ⟨rfl, rfl, rfl, rfl, rfl, rfl, rfl, rfl, rfl, rfl⟩
  case criterion => exact ⟨rfl, rfl, rfl, rfl⟩

/-- C118: when a call returns, its run is the run of the loop with the options that the user passed, and with the
defaults for all others. -/
theorem C118_run_uses_the_arguments [IsStrictOrderedRing K] (env : PyEnv K O) (ext : Externals K O n m)
    (a : Arguments K O (Option (Piece K n))) (x : Vec K n) (bounds : Bounds K n)
    (r : Run K n (VectorModel K n m) (ScalarModel K n)) (h : tranquiloCall env ext a x bounds = .ok (some r)) :
    ∃ c b radius, tranquiloR c (builtinComponents b) x radius bounds = .ok r ∧
      CallUses env ext a x c b radius := by
  simp only [tranquiloCall, except_bind_ok] at h
  obtain ⟨p, hp, h⟩ := h
  split at h
  case h_2 => cases h
  rename_i c b radius hc hb hradius
  obtain ⟨r', hr, hrr⟩ := except_map_ok.1 h
  cases hrr
  exact ⟨c, b, radius, hr, call_uses env ext a x p hp c hc b hb radius hradius⟩

end Tranquilo
