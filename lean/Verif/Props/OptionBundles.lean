import Verif.Lemmas.OptionBundles
import Verif.Props.CallReturns

/-!
# C119: calls with option bundles return
-/

namespace Tranquilo

variable {K O : Type} [Field K] [LinearOrder K] [FloorRing K] {n m : Nat}

/-! ## The tables and the defaults -/

theorem radius_kinds (r : K) : Kinds radiusKinds (radiusDefaults r : Dict (PyVal K O)) := by
  apply Kinds.of_mem
  simp only [radiusKinds, List.forall_mem_cons, List.not_mem_nil, false_imp_iff, implies_true, and_true]
  exact ⟨⟨_, rfl, _, rfl⟩, ⟨_, rfl, _, rfl⟩, ⟨_, rfl, _, rfl⟩, ⟨_, rfl, _, rfl⟩, ⟨_, rfl, _, rfl⟩, ⟨_, rfl, _, rfl⟩,
    ⟨_, rfl, _, rfl⟩, ⟨_, rfl, _, rfl⟩, ⟨_, rfl, Or.inl rfl⟩⟩

theorem stagnation_kinds (noisy : Bool) (batch : ℤ) :
    Kinds stagnationKinds (stagnationDefaults noisy batch : Dict (PyVal K O)) := by
  apply Kinds.of_mem
  simp only [stagnationKinds, List.forall_mem_cons, List.not_mem_nil, false_imp_iff, implies_true, and_true]
  exact ⟨⟨_, rfl, _, rfl⟩, ⟨_, rfl, _, rfl⟩, ⟨_, rfl, _, rfl⟩, ⟨_, rfl, _, rfl, by norm_num⟩,
    ⟨_, rfl, _, rfl, by norm_num⟩⟩

theorem noise_kinds : Kinds noiseKinds (noiseAdaptationDefaults : Dict (PyVal K O)) := by
  apply Kinds.of_mem
  simp only [noiseKinds, List.forall_mem_cons, List.not_mem_nil, false_imp_iff, implies_true, and_true]
  exact ⟨⟨_, rfl, _, rfl, by norm_num⟩, ⟨_, rfl, _, rfl⟩, ⟨_, rfl, _, rfl⟩, ⟨_, rfl, _, rfl⟩, ⟨_, rfl, _, rfl⟩,
    ⟨_, rfl, _, rfl⟩, ⟨_, rfl, _, rfl, by norm_num⟩, ⟨_, rfl, _, rfl, by norm_num⟩, ⟨_, rfl, _, rfl⟩⟩

theorem sampler_kinds : Kinds samplerKinds (samplerDefaults : Dict (PyVal K O)) := by
  apply Kinds.of_mem
  simp only [samplerKinds, List.forall_mem_cons, List.not_mem_nil, false_imp_iff, implies_true, and_true]
  exact ⟨⟨_, rfl, rfl⟩, ⟨_, rfl, _, rfl, by norm_num⟩, ⟨_, rfl, _, rfl⟩, ⟨_, rfl, rfl⟩, ⟨_, rfl, rfl⟩,
    ⟨_, rfl, _, rfl, by norm_num⟩, ⟨_, rfl, _, rfl⟩⟩

theorem filter_kinds : Kinds filterKinds (filterDefaults : Dict (PyVal K O)) := by
  apply Kinds.of_mem
  simp only [filterKinds, List.forall_mem_cons, List.not_mem_nil, false_imp_iff, implies_true, and_true]
  exact ⟨⟨_, rfl, _, rfl⟩, ⟨_, rfl, _, rfl⟩, ⟨_, rfl, _, rfl, by norm_num⟩⟩

theorem fitter_kinds : Kinds fitterKinds (fitterDefaults : Dict (PyVal K O)) := by
  apply Kinds.of_mem
  simp only [fitterKinds, List.forall_mem_cons, List.not_mem_nil, false_imp_iff, implies_true, and_true]
  exact ⟨⟨_, rfl, _, rfl⟩, ⟨_, rfl, _, rfl⟩, ⟨_, rfl, _, rfl⟩, ⟨_, rfl, _, rfl⟩, ⟨_, rfl, _, rfl⟩⟩

theorem subsolver_kinds : Kinds subsolverKinds (subsolverDefaults : Dict (PyVal K O)) := by
  apply Kinds.of_mem
  simp only [subsolverKinds, List.forall_mem_cons, List.not_mem_nil, false_imp_iff, implies_true, and_true]
  exact ⟨⟨_, rfl, _, rfl, by norm_num⟩, ⟨_, rfl, _, rfl, by norm_num⟩, ⟨_, rfl, _, rfl⟩, ⟨_, rfl, _, rfl⟩,
    ⟨_, rfl, _, rfl⟩, ⟨_, rfl, _, rfl⟩, ⟨_, rfl, _, rfl⟩, ⟨_, rfl, _, rfl⟩, ⟨_, rfl, _, rfl⟩, ⟨_, rfl, _, rfl⟩⟩

theorem acceptance_kinds : Kinds acceptanceKinds (acceptanceDefaults : Dict (PyVal K O)) := by
  apply Kinds.of_mem
  simp only [acceptanceKinds, List.forall_mem_cons, List.not_mem_nil, false_imp_iff, implies_true, and_true]
  exact ⟨⟨_, rfl, _, rfl⟩, ⟨_, rfl, _, rfl⟩, ⟨_, rfl, _, rfl, by norm_num⟩, ⟨_, rfl, _, rfl, by norm_num⟩,
    ⟨_, rfl, _, rfl, by norm_num⟩, ⟨_, rfl, _, rfl⟩, ⟨_, rfl, _, rfl⟩⟩

theorem variance_kinds : Kinds varianceKinds (varianceDefaults : Dict (PyVal K O)) := by
  apply Kinds.of_mem
  simp only [varianceKinds, List.forall_mem_cons, List.not_mem_nil, false_imp_iff, implies_true, and_true]
  exact ⟨⟨_, rfl, _, rfl⟩, ⟨_, rfl, _, rfl, by norm_num⟩⟩

/-! ## The components -/

theorem called_of {comp : Component (PyVal K O) (Option (Piece K n))} {keys : List String} {p : Piece K n}
    (h : comp.call [] (keys.map fun k => (k, .none)) = .ok (some p)) : calledPiece comp keys = some p := by
  simp only [calledPiece, h]

section Components

variable [IsStrictOrderedRing K] (env : PyEnv K O) (ext : Externals K O n m) (s : String)
  (user : Option (UserOptions K O))

theorem filter_plain (hs : s = "discard_all" ∨ s = "keep_all" ∨ s = "clustering" ∨ s = "drop_excess")
    (hu : PlainOptions filterKinds user) :
    ∃ c S, getSampleFilter env (pieces ext "sample_filter") (.str s) user = .ok c ∧
      (calledPiece c filterCallKeys).bind Piece.filter? = some S := by
  rcases hs with rfl | rfl | rfl | rfl
  · obtain ⟨c, d, hc, hcall, -⟩ := piece_plain env "discard_all" (builtinFilters (pieces ext "sample_filter")) _ rfl
      ["state"] rfl (by decide) filterDefaults user [] filterCallKeys (by simp)
      (by simp [param, filterCallKeys]) filterKinds filter_kinds hu
    exact ⟨c, _, hc, by rw [called_of hcall]; rfl⟩
  · obtain ⟨c, d, hc, hcall, -⟩ := piece_plain env "keep_all" (builtinFilters (pieces ext "sample_filter")) _ rfl
      ["xs", "indices"] rfl (by decide) filterDefaults user [] filterCallKeys (by simp)
      (by simp [param, filterCallKeys]) filterKinds filter_kinds hu
    exact ⟨c, _, hc, by rw [called_of hcall]; rfl⟩
  · obtain ⟨c, d, hc, hcall, hk⟩ := piece_plain env "clustering" (builtinFilters (pieces ext "sample_filter")) _ rfl
      ["xs", "indices", "state", "target_size", "strictness", "shape"] rfl (by decide) filterDefaults user []
      filterCallKeys (by simp) (by simp [param, paramWith, filterCallKeys]) filterKinds filter_kinds hu
    obtain ⟨q, hq⟩ := (hk "strictness" (by decide) (by decide) _ _ rfl rfl).num
    obtain ⟨t, ht⟩ := (hk "shape" (by decide) (by decide) _ _ rfl rfl).str
    refine ⟨c, .clustering q t, hc, ?_⟩
    rw [called_of (p := .filter (.clustering q t)) (by rw [hcall]; simp [pieces, filterPiece, hq, ht])]
    rfl
  · obtain ⟨c, d, hc, hcall, hk⟩ := piece_plain env "drop_excess" (builtinFilters (pieces ext "sample_filter")) _ rfl
      ["xs", "indices", "state", "target_size", "n_max_factor"] rfl (by decide) filterDefaults user []
      filterCallKeys (by simp) (by simp [param, paramWith, filterCallKeys, filterDefaults, fltOption, intOption, List.lookup])
      filterKinds filter_kinds hu
    obtain ⟨q, hq⟩ := (hk "n_max_factor" (by decide) (by decide) _ _ rfl rfl).sizeNum
    refine ⟨c, .dropExcess q, hc, ?_⟩
    rw [called_of (p := .filter (.dropExcess q)) (by rw [hcall]; simp [pieces, filterPiece, hq])]
    rfl

theorem fitter_plain (hs : s = "ols" ∨ s = "ridge" ∨ s = "powell" ∨ s = "tranquilo")
    (hu : PlainOptions fitterKinds user) :
    ∃ c S, getRawFitter env (pieces ext "fitter") (.str s) user = .ok c ∧
      (calledPiece c fitterCallKeys).bind Piece.fitter? = some S := by
  rcases hs with rfl | rfl | rfl | rfl
  · obtain ⟨c, d, hc, hcall, -⟩ := piece_plain env "ols" (builtinFitters (pieces ext "fitter")) _ rfl
      ["x", "y", "weights", "model_type"] rfl (by decide) fitterDefaults user ["x", "y", "model_type"] fitterCallKeys
      (by simp) (by simp [param, fitterCallKeys]) fitterKinds fitter_kinds hu
    exact ⟨c, _, hc, by rw [called_of hcall]; rfl⟩
  · obtain ⟨c, d, hc, hcall, hk⟩ := piece_plain env "ridge" (builtinFitters (pieces ext "fitter")) _ rfl
      ["x", "y", "weights", "model_type", "l2_penalty_linear", "l2_penalty_square"] rfl (by decide) fitterDefaults user
      ["x", "y", "model_type"] fitterCallKeys (by simp)
      (by simp [param, fitterCallKeys, fitterDefaults, fltOption, List.lookup]) fitterKinds fitter_kinds hu
    obtain ⟨q, hq⟩ := (hk "l2_penalty_linear" (by decide) (by decide) _ _ rfl rfl).num
    obtain ⟨t, ht⟩ := (hk "l2_penalty_square" (by decide) (by decide) _ _ rfl rfl).num
    refine ⟨c, .ridge q t, hc, ?_⟩
    rw [called_of (p := .fitter (.ridge q t)) (by rw [hcall]; simp [pieces, fitterPiece, hq, ht])]
    rfl
  · obtain ⟨c, d, hc, hcall, -⟩ := piece_plain env "powell" (builtinFitters (pieces ext "fitter")) _ rfl
      ["x", "y", "model_type"] rfl (by decide) fitterDefaults user ["x", "y", "model_type"] fitterCallKeys
      (by simp) (by simp [param, fitterCallKeys]) fitterKinds fitter_kinds hu
    exact ⟨c, _, hc, by rw [called_of hcall]; rfl⟩
  · obtain ⟨c, d, hc, hcall, hk⟩ := piece_plain env "tranquilo" (builtinFitters (pieces ext "fitter")) _ rfl
      ["x", "y", "weights", "model_type", "p_intercept", "p_linear", "p_square"] rfl (by decide) fitterDefaults user
      ["x", "y", "model_type"] fitterCallKeys (by simp)
      (by simp [param, fitterCallKeys, fitterDefaults, fltOption, List.lookup]) fitterKinds fitter_kinds hu
    obtain ⟨q, hq⟩ := (hk "p_intercept" (by decide) (by decide) _ _ rfl rfl).num
    obtain ⟨t, ht⟩ := (hk "p_linear" (by decide) (by decide) _ _ rfl rfl).num
    obtain ⟨w, hw⟩ := (hk "p_square" (by decide) (by decide) _ _ rfl rfl).num
    refine ⟨c, .tranquilo q t w, hc, ?_⟩
    rw [called_of (p := .fitter (.tranquilo q t w)) (by rw [hcall]; simp [pieces, fitterPiece, hq, ht, hw])]
    rfl

theorem Known.name {d : Dict (PyVal K O)} {k : String} {user : Option (UserOptions K O)} {kind : OptionKind}
    (h : Known env user d k kind .none) {a b : String}
    (hw : ∀ w, InForce env user k .none w → w = .none ∨ w = .str a ∨ w = .str b) :
    ∃ q, nameOf d k = some q ∧ (q = none ∨ q = some a ∨ q = some b) := by
  obtain ⟨w, hl, -, hf⟩ := h
  rcases hw w hf with rfl | rfl | rfl
  · exact ⟨none, by simp only [nameOf, hl], Or.inl rfl⟩
  · exact ⟨some a, by simp only [nameOf, hl], Or.inr (Or.inl rfl)⟩
  · exact ⟨some b, by simp only [nameOf, hl], Or.inr (Or.inr rfl)⟩

theorem sampler_plain (hs : s = "random_interior" ∨ s = "random_hull" ∨ s = "optimal_hull")
    (hu : PlainOptions samplerKinds user)
    (hdist : ∀ w, InForce env user "distribution" .none w → w = .none ∨ w = .str "normal" ∨ w = .str "uniform")
    (hcrit : ∀ w, InForce env user "criterion" .none w → w = .none ∨ w = .str "determinant" ∨ w = .str "distance") :
    ∃ c S, getSampler env (pieces ext "sampler") (.str s) user = .ok c ∧
      (calledPiece c samplerCallKeys).bind Piece.sampler? = some S := by
  rcases hs with rfl | rfl | rfl
  · obtain ⟨c, d, hc, hcall, -⟩ := piece_plain env "random_interior" (builtinSamplers (pieces ext "sampler")) _ rfl
      ["trustregion", "n_points", "rng", "existing_xs"] rfl (by decide) samplerDefaults user
      ["trustregion", "n_points", "existing_xs", "rng"] samplerCallKeys
      (by simp) (by simp [param, paramWith, samplerCallKeys]) samplerKinds sampler_kinds hu
    exact ⟨c, _, hc, by rw [called_of hcall]; rfl⟩
  · obtain ⟨c, d, hc, hcall, hk⟩ := piece_plain env "random_hull" (builtinSamplers (pieces ext "sampler")) _ rfl
      ["trustregion", "n_points", "rng", "distribution", "existing_xs"] rfl (by decide) samplerDefaults user
      ["trustregion", "n_points", "existing_xs", "rng"] samplerCallKeys
      (by simp) (by simp [param, paramWith, samplerCallKeys, samplerDefaults, List.lookup]) samplerKinds sampler_kinds hu
    obtain ⟨q, hq, -⟩ := (hk "distribution" (by decide) (by decide) _ _ rfl rfl).name env hdist
    refine ⟨c, .randomHull q, hc, ?_⟩
    rw [called_of (p := .sampler (.randomHull q)) (by rw [hcall]; simp [pieces, samplerPiece, hq])]
    rfl
  · obtain ⟨c, d, hc, hcall, hk⟩ := piece_plain env "optimal_hull" (builtinSamplers (pieces ext "sampler")) _ rfl
      ["trustregion", "n_points", "rng", "distribution", "hardness", "algorithm", "algo_options", "criterion",
        "n_points_randomsearch", "return_info", "existing_xs"] rfl (by decide) samplerDefaults user
      ["trustregion", "n_points", "existing_xs", "rng"] samplerCallKeys
      (by simp) (by simp [param, paramWith, samplerCallKeys, samplerDefaults, intOption, List.lookup])
      samplerKinds sampler_kinds hu
    obtain ⟨q, hq, -⟩ := (hk "distribution" (by decide) (by decide) _ _ rfl rfl).name env hdist
    obtain ⟨r, hr, hr'⟩ := (hk "criterion" (by decide) (by decide) _ _ rfl rfl).name env hcrit
    obtain ⟨t, ht⟩ := (hk "hardness" (by decide) (by decide) _ _ rfl rfl).sizeNum
    obtain ⟨u, hu⟩ := (hk "n_points_randomsearch" (by decide) (by decide) _ _ rfl rfl).nat
    obtain ⟨v, hv⟩ := (hk "algorithm" (by decide) (by decide) _ _ rfl rfl).any
    obtain ⟨w, hw⟩ := (hk "algo_options" (by decide) (by decide) _ _ rfl rfl).any
    obtain ⟨k, hk'⟩ : ∃ k, criterionOf r = some k := by
      rcases hr' with rfl | rfl | rfl
      · exact ⟨_, rfl⟩
      · exact ⟨_, rfl⟩
      · exact ⟨_, rfl⟩
    have hp := called_of (n := n) (comp := c) (p := .sampler (.optimalHull
      { distribution := q, hardness := t, criterion := k, nPointsRandomsearch := u
        logsumexp := ext.logsumexp, minimize := ext.minimize v w }))
      (hcall.trans (by simp [pieces, samplerPiece, hq, hr, ht, hu, hv, hw, hk']))
    exact ⟨c, _, hc, by rw [hp]; rfl⟩

theorem decider_plain (hs : s = "classic" ∨ s = "naive_noisy" ∨ s = "noisy" ∨ s = "classic_line_search")
    (hu : PlainOptions acceptanceKinds user) :
    ∃ c S, getAcceptanceDecider env (pieces ext "acceptance_decider") (.str s) user = .ok c ∧
      (calledPiece c acceptanceCallKeys).bind Piece.decider? = some S := by
  rcases hs with rfl | rfl | rfl | rfl
  · obtain ⟨c, d, hc, hcall, hk⟩ := piece_plain env "classic"
      (builtinAcceptanceDeciders (pieces ext "acceptance_decider")) _ rfl
      ["subproblem_solution", "state", "history", "wrapped_criterion", "min_improvement"] rfl (by decide)
      acceptanceDefaults user [] acceptanceCallKeys
      (by simp) (by simp [param, kwParam, acceptanceCallKeys, acceptanceDefaults, fltOption, intOption, List.lookup])
      acceptanceKinds acceptance_kinds hu
    obtain ⟨q, hq⟩ := (hk "min_improvement" (by decide) (by decide) _ _ rfl rfl).num
    refine ⟨c, .classic q, hc, ?_⟩
    rw [called_of (p := .decider (.classic q)) (by rw [hcall]; simp [pieces, deciderPiece, hq])]
    rfl
  · obtain ⟨c, d, hc, hcall, hk⟩ := piece_plain env "naive_noisy"
      (builtinAcceptanceDeciders (pieces ext "acceptance_decider")) _ rfl
      ["subproblem_solution", "state", "history", "wrapped_criterion", "min_improvement"] rfl (by decide)
      acceptanceDefaults user [] acceptanceCallKeys
      (by simp) (by simp [param, kwParam, acceptanceCallKeys, acceptanceDefaults, fltOption, intOption, List.lookup])
      acceptanceKinds acceptance_kinds hu
    obtain ⟨q, hq⟩ := (hk "min_improvement" (by decide) (by decide) _ _ rfl rfl).num
    refine ⟨c, .naiveNoisy q, hc, ?_⟩
    rw [called_of (p := .decider (.naiveNoisy q)) (by rw [hcall]; simp [pieces, deciderPiece, hq])]
    rfl
  · obtain ⟨c, d, hc, hcall, hk⟩ := piece_plain env "noisy"
      (builtinAcceptanceDeciders (pieces ext "acceptance_decider")) _ rfl
      ["subproblem_solution", "state", "noise_variance", "history", "wrapped_criterion", "min_improvement",
        "power_level", "confidence_level", "n_min", "n_max"] rfl (by decide)
      acceptanceDefaults user [] acceptanceCallKeys
      (by simp) (by simp [param, kwParam, acceptanceCallKeys, acceptanceDefaults, fltOption, intOption, List.lookup])
      acceptanceKinds acceptance_kinds hu
    obtain ⟨q, hq⟩ := (hk "min_improvement" (by decide) (by decide) _ _ rfl rfl).num
    obtain ⟨r, hr⟩ := (hk "confidence_level" (by decide) (by decide) _ _ rfl rfl).num
    obtain ⟨t, ht⟩ := (hk "power_level" (by decide) (by decide) _ _ rfl rfl).num
    obtain ⟨a, ha⟩ := (hk "n_min" (by decide) (by decide) _ _ rfl rfl).nat
    obtain ⟨b, hb⟩ := (hk "n_max" (by decide) (by decide) _ _ rfl rfl).nat
    refine ⟨c, .noisy q (ext.quantile r) (ext.quantile t) a b, hc, ?_⟩
    rw [called_of (p := .decider (.noisy q (ext.quantile r) (ext.quantile t) a b))
      (by rw [hcall]; simp [pieces, deciderPiece, hq, hr, ht, ha, hb])]
    rfl
  · obtain ⟨c, d, hc, hcall, hk⟩ := piece_plain env "classic_line_search"
      (builtinAcceptanceDeciders (pieces ext "acceptance_decider")) _ rfl
      ["subproblem_solution", "state", "history", "speculative_sampling_radius_factor", "wrapped_criterion",
        "min_improvement", "batch_size", "sample_points", "rng"] rfl (by decide)
      acceptanceDefaults user [] acceptanceCallKeys
      (by simp) (by simp [param, kwParam, acceptanceCallKeys, acceptanceDefaults, fltOption, intOption, List.lookup])
      acceptanceKinds acceptance_kinds hu
    obtain ⟨q, hq⟩ := (hk "min_improvement" (by decide) (by decide) _ _ rfl rfl).num
    obtain ⟨r, hr⟩ := (hk "speculative_sampling_radius_factor" (by decide) (by decide) _ _ rfl rfl).num
    refine ⟨c, .lineSearch q r, hc, ?_⟩
    rw [called_of (p := .decider (.lineSearch q r)) (by rw [hcall]; simp [pieces, deciderPiece, hq, hr])]
    rfl

theorem variance_plain (hu : PlainOptions varianceKinds user) :
    ∃ c f k, getVarianceEstimator env (pieces ext "variance estimator") (.str "classic") user = .ok c ∧
      (calledPiece c varianceCallKeys).bind Piece.variance? = some (f, k) := by
  obtain ⟨c, d, hc, hcall, hk⟩ := piece_plain env "classic"
    (builtinVarianceEstimators (pieces ext "variance estimator")) _ rfl
    ["trustregion", "history", "model_type", "max_distance_factor", "min_n_evals"] rfl (by decide)
    varianceDefaults user [] varianceCallKeys
    (by simp) (by simp [param, varianceCallKeys, varianceDefaults, fltOption, intOption, List.lookup])
    varianceKinds variance_kinds hu
  obtain ⟨q, hq⟩ := (hk "max_distance_factor" (by decide) (by decide) _ _ rfl rfl).num
  obtain ⟨r, hr⟩ := (hk "min_n_evals" (by decide) (by decide) _ _ rfl rfl).int
  refine ⟨c, q, r, hc, ?_⟩
  rw [called_of (p := .variance q r) (by rw [hcall]; simp [pieces, variancePiece, hq, hr])]
  rfl

theorem sphere_plain (hs : s = "gqtpar" ∨ s = "gqtpar_fast" ∨ s = "fallback_reparametrized" ∨
      s = "fallback_inscribed_cube" ∨ s = "fallback_norm_constraint") (hu : PlainOptions subsolverKinds user) :
    ∃ c d, getSphereSolver env (pieces ext "sphere_solver") (.str s) user = .ok c ∧
      (calledPiece c subsolverCallKeys).bind Piece.solver? = some (ext.solver s d) := by
  rcases hs with rfl | rfl | rfl | rfl | rfl
  · obtain ⟨c, d, hc, hcall, -⟩ := piece_plain env "gqtpar" (builtinSphereSolvers (pieces ext "sphere_solver")) _ rfl
      ["model", "x_candidate", "k_easy", "k_hard", "maxiter"] rfl (by decide) subsolverDefaults user
      ["model", "x_candidate"] subsolverCallKeys (by simp)
      (by simp [param, kwParam, subsolverCallKeys, subsolverDefaults, fltOption, intOption, List.lookup])
      subsolverKinds subsolver_kinds hu
    exact ⟨c, d, hc, by rw [called_of hcall]; rfl⟩
  · obtain ⟨c, d, hc, hcall, -⟩ := piece_plain env "gqtpar_fast" (builtinSphereSolvers (pieces ext "sphere_solver")) _
      rfl ["model", "x_candidate", "k_easy", "k_hard", "maxiter"] rfl (by decide) subsolverDefaults user
      ["model", "x_candidate"] subsolverCallKeys (by simp)
      (by simp [param, kwParam, subsolverCallKeys, subsolverDefaults, fltOption, intOption, List.lookup])
      subsolverKinds subsolver_kinds hu
    exact ⟨c, d, hc, by rw [called_of hcall]; rfl⟩
  · obtain ⟨c, d, hc, hcall, -⟩ := piece_plain env "fallback_reparametrized"
      (builtinSphereSolvers (pieces ext "sphere_solver")) _ rfl ["model", "x_candidate"] rfl (by decide)
      subsolverDefaults user ["model", "x_candidate"] subsolverCallKeys (by simp)
      (by simp [param, subsolverCallKeys]) subsolverKinds subsolver_kinds hu
    exact ⟨c, d, hc, by rw [called_of hcall]; rfl⟩
  · obtain ⟨c, d, hc, hcall, -⟩ := piece_plain env "fallback_inscribed_cube"
      (builtinSphereSolvers (pieces ext "sphere_solver")) _ rfl ["model", "x_candidate"] rfl (by decide)
      subsolverDefaults user ["model", "x_candidate"] subsolverCallKeys (by simp)
      (by simp [param, subsolverCallKeys]) subsolverKinds subsolver_kinds hu
    exact ⟨c, d, hc, by rw [called_of hcall]; rfl⟩
  · obtain ⟨c, d, hc, hcall, -⟩ := piece_plain env "fallback_norm_constraint"
      (builtinSphereSolvers (pieces ext "sphere_solver")) _ rfl ["model", "x_candidate"] rfl (by decide)
      subsolverDefaults user ["model", "x_candidate"] subsolverCallKeys (by simp)
      (by simp [param, subsolverCallKeys]) subsolverKinds subsolver_kinds hu
    exact ⟨c, d, hc, by rw [called_of hcall]; rfl⟩

theorem cube_plain (hs : s = "bntr" ∨ s = "bntr_fast") (hu : PlainOptions subsolverKinds user) :
    ∃ c d, getCubeSolver env (pieces ext "cube_solver") (.str s) user = .ok c ∧
      (calledPiece c subsolverCallKeys).bind Piece.solver? = some (ext.solver s d) := by
  rcases hs with rfl | rfl
  · obtain ⟨c, d, hc, hcall, -⟩ := piece_plain env "bntr" (builtinCubeSolvers (pieces ext "cube_solver")) _ rfl
      ["model", "lower_bounds", "upper_bounds", "x_candidate", "conjugate_gradient_method", "maxiter",
        "maxiter_gradient_descent", "gtol_abs", "gtol_rel", "gtol_scaled", "gtol_abs_conjugate_gradient",
        "gtol_rel_conjugate_gradient"] rfl (by decide) subsolverDefaults user
      ["model", "x_candidate", "lower_bounds", "upper_bounds"] subsolverCallKeys (by simp)
      (by simp [bntrParams, param, kwParam, subsolverCallKeys, subsolverDefaults, fltOption, intOption, List.lookup])
      subsolverKinds subsolver_kinds hu
    exact ⟨c, d, hc, by rw [called_of hcall]; rfl⟩
  · obtain ⟨c, d, hc, hcall, -⟩ := piece_plain env "bntr_fast" (builtinCubeSolvers (pieces ext "cube_solver")) _ rfl
      ["model", "lower_bounds", "upper_bounds", "x_candidate", "conjugate_gradient_method", "maxiter",
        "maxiter_gradient_descent", "gtol_abs", "gtol_rel", "gtol_scaled", "gtol_abs_conjugate_gradient",
        "gtol_rel_conjugate_gradient"] rfl (by decide) subsolverDefaults user
      ["model", "x_candidate", "lower_bounds", "upper_bounds"] subsolverCallKeys (by simp)
      (by simp [bntrParams, param, kwParam, subsolverCallKeys, subsolverDefaults, fltOption, intOption, List.lookup])
      subsolverKinds subsolver_kinds hu
    exact ⟨c, d, hc, by rw [called_of hcall]; rfl⟩

end Components

/-! ## The options of the loop -/

section Loop

variable {env : PyEnv K O} {user : Option (UserOptions K O)} {out : Dict (PyVal K O)}

theorem callRadius_plain {r : K}
    (h : ∀ k kind default, radiusKinds.lookup k = some kind → (radiusDefaults r : Dict (PyVal K O)).lookup k = some default →
      Known env user out k kind default) :
    (∃ q, numOf out "initial_radius" = some q) ∧ ∃ v, callRadius out = some v := by
  refine ⟨(h "initial_radius" _ _ rfl rfl).num, ?_⟩
  obtain ⟨q1, h1⟩ := (h "max_radius" _ _ rfl rfl).num
  obtain ⟨q2, h2⟩ := (h "min_radius" _ _ rfl rfl).num
  obtain ⟨q3, h3⟩ := (h "rho_decrease" _ _ rfl rfl).num
  obtain ⟨q4, h4⟩ := (h "rho_increase" _ _ rfl rfl).num
  obtain ⟨q5, h5⟩ := (h "shrinking_factor" _ _ rfl rfl).num
  obtain ⟨q6, h6⟩ := (h "expansion_factor" _ _ rfl rfl).num
  obtain ⟨q7, h7⟩ := (h "large_step" _ _ rfl rfl).num
  obtain ⟨q8, h8⟩ := (h "max_radius_to_step_ratio" _ _ rfl rfl).ratio
  exact ⟨⟨q1, q2, q3, q4, q5, q6, q7, q8⟩, by simp [callRadius, h1, h2, h3, h4, h5, h6, h7, h8]⟩

theorem callStagnation_plain {noisy : Bool} {batch : ℤ}
    (h : ∀ k kind default, stagnationKinds.lookup k = some kind →
      (stagnationDefaults noisy batch : Dict (PyVal K O)).lookup k = some default → Known env user out k kind default) :
    ∃ v, callStagnation out = some v := by
  obtain ⟨q1, h1⟩ := (h "min_relative_step_keep" _ _ rfl rfl).num
  obtain ⟨q2, h2⟩ := (h "drop" _ _ rfl rfl).bool
  obtain ⟨q3, h3⟩ := (h "min_relative_step" _ _ rfl rfl).num
  obtain ⟨q4, h4⟩ := (h "sample_increment" _ _ rfl rfl).nat
  obtain ⟨q5, h5⟩ := (h "max_trials" _ _ rfl rfl).nat
  exact ⟨⟨q1, q2, q3, q4, q5⟩, by simp [callStagnation, h1, h2, h3, h4, h5]⟩

theorem callNoise_plain
    (h : ∀ k kind default, noiseKinds.lookup k = some kind →
      (noiseAdaptationDefaults : Dict (PyVal K O)).lookup k = some default → Known env user out k kind default) :
    (∃ v, callNoise out = some v) ∧ (∃ i, intOf out "rho_noise_n_draws" = some i) ∧
      ∃ b, boolOf out "ignore_corelation" = some b := by
  refine ⟨?_, (h "rho_noise_n_draws" _ _ rfl rfl).int, (h "ignore_corelation" _ _ rfl rfl).bool⟩
  obtain ⟨q1, h1⟩ := (h "high_rho" _ _ rfl rfl).num
  obtain ⟨q2, h2⟩ := (h "low_rho" _ _ rfl rfl).num
  obtain ⟨q3, h3⟩ := (h "min_share_high_rho" _ _ rfl rfl).num
  obtain ⟨q4, h4⟩ := (h "min_share_low_rho" _ _ rfl rfl).num
  obtain ⟨q5, h5⟩ := (h "min_n_evals" _ _ rfl rfl).int
  obtain ⟨q6, h6⟩ := (h "max_n_evals" _ _ rfl rfl).int
  obtain ⟨q7, h7⟩ := (h "good_rho_threshold" _ _ rfl rfl).num
  exact ⟨_, by simp only [callNoise, h1, h2, h3, h4, h5, h6, h7]; rfl⟩

theorem perPoint_plain (o : CallOptions K) (ho : ∀ k, o.nEvalsPerPoint = some k → 1 ≤ k)
    (h : Known env user out "min_n_evals" .size (.int 1))
    (hev : ∀ i, InForce env user "min_n_evals" (.int 1) (.int i) → 1 ≤ i) :
    ∃ k : ℤ, processNEvalsPerPoint env (pyNat o.nEvalsPerPoint : PyVal K O) o.noisy out = .ok (.int k) := by
  cases hk : o.nEvalsPerPoint with
  | none =>
    cases hn : o.noisy with
    | false => exact ⟨1, rfl⟩
    | true =>
      obtain ⟨w, hw, ⟨i, rfl, -⟩, hf⟩ := h
      refine ⟨i, ?_⟩
      have hi := hev i hf
      simp only [processNEvalsPerPoint, rawNEvalsPerPoint, pyNat, hw, if_true, Option.getD_some, bind, Except.bind, pyLt]
      rw [if_neg (by simp; omega)]
  | some k =>
    have h1 := ho k hk
    refine ⟨k, ?_⟩
    change (if decide ((k : ℤ) < 1) = true then Except.error Err.valueError else
      Except.ok (PyVal.int (k : ℤ))) = _
    rw [if_neg (by simp; omega)]

end Loop

/-! ## The call -/

/-- A call with plain bundles is processed, and all values are modelled. -/
theorem plain_processed [IsStrictOrderedRing K] (env : PyEnv K O) (ext : Externals K O n m) (o : CallOptions K)
    (ho : o.Accepted) (u : Bundles K O) (hu : u.Plain env) (x : Vec K n) (hn : 0 < n) :
    ∃ p c b radius, processArguments env (pieces ext) { o.withBundles u with x := List.ofFn x } = .ok p ∧
      callConfig p = some c ∧ callSettings ext p = some b ∧ numOf p.radiusOptions "initial_radius" = some radius := by
  have hxs : List.ofFn x ≠ [] := by
    intro h
    have := congrArg List.length h
    simp only [List.length_ofFn, List.length_nil] at this
    omega
  obtain ⟨rad, hrad, -⟩ := defaultInitialRadius_ok (List.ofFn x) hxs
  have hv := ho.rest
  obtain ⟨start, hst, -⟩ := step_atStart (O := O) env _ hv
  obtain ⟨nz, hnz, hnzk⟩ := plain_ok env noise_kinds hu.noise
  obtain ⟨per, hper⟩ := perPoint_plain (env := env) o hv.perPoint (hnzk "min_n_evals" _ _ rfl rfl) hu.evals
  obtain ⟨q, hq, -⟩ := step_factor (O := O) env _ hv
  obtain ⟨batch, hb, -⟩ := step_batch (O := O) env _ hv
  obtain ⟨size, hsize⟩ := step_size (O := O) env o (defaultModelType o.functype) (List.ofFn x) o.noisy batch
  obtain ⟨fit, hfit, hfit'⟩ := step_fitter (O := O) (R := Option (Piece K n)) _ hv (defaultModelType o.functype)
    (defaultModelType_cases o.functype) size (List.ofFn x)
  obtain ⟨res, hres⟩ := step_residualize (O := O) (R := Option (Piece K n)) o fit
  obtain ⟨filt, hfilt, hfilt'⟩ := step_filter (O := O) (R := Option (Piece K n)) _ hv batch
  obtain ⟨dec, hdec, hdec1⟩ : ∃ s, (o.acceptanceDecider.map (NameOrFunc.str (V := PyVal K O) (R := Option (Piece K n)))).getD
        (.str (if o.noisy then "noisy" else "classic")) = .str s ∧
      (s = "classic" ∨ s = "naive_noisy" ∨ s = "noisy" ∨ s = "classic_line_search") := by
    cases hf : o.acceptanceDecider with
    | none => exact ⟨_, rfl, by cases o.noisy <;> simp⟩
    | some s => exact ⟨s, rfl, ho.decider s hf⟩
  obtain ⟨rd, hrd, hrdk⟩ := plain_ok env (radius_kinds rad) hu.radius
  obtain ⟨sg, hsg, hsgk⟩ := plain_ok env (stagnation_kinds o.noisy batch) hu.stagnation
  obtain ⟨ft', agg, mt, hft', hagg, hmt⟩ : ∃ f g mt, Functype.parse o.functype = .ok f ∧
      defaultAggregator o.functype (defaultModelType o.functype) = .ok g ∧
      modelTypeOf (defaultModelType o.functype) = some mt := by
    rcases hv.functype with h | h | h
    · rw [show o.functype = _ from h]; exact ⟨_, _, _, rfl, rfl, rfl⟩
    · rw [show o.functype = _ from h]; exact ⟨_, _, _, rfl, rfl, rfl⟩
    · rw [show o.functype = _ from h]; exact ⟨_, _, _, rfl, rfl, rfl⟩
  obtain ⟨c1, S, hc1, hS⟩ := sampler_plain env ext o.sampler u.sampler hv.sampler hu.sampler hu.distribution hu.criterion
  obtain ⟨c2, d2, hc2, hd2⟩ := sphere_plain env ext o.sphereSubsolver u.subsolver hv.sphere hu.subsolver
  obtain ⟨c3, d3, hc3, hd3⟩ := cube_plain env ext o.cubeSubsolver u.subsolver hv.cube hu.subsolver
  obtain ⟨c4, F, hc4, hF⟩ := filter_plain env ext filt u.filter hfilt' hu.filter
  obtain ⟨c5, T, hc5, hT⟩ := fitter_plain env ext fit u.fitter hfit' hu.fitter
  obtain ⟨c6, nd, nk, hc6, hV⟩ := variance_plain env ext u.variance hu.variance
  obtain ⟨c7, D, hc7, hD⟩ := decider_plain env ext dec u.decider hdec1 hu.decider
  have hseed : checkSeed (.int o.seed : PyVal K O) = .ok () := by
    unfold checkSeed
    exact if_pos (Int.natCast_nonneg _)
  obtain ⟨⟨r0, hr0⟩, rv, hrv⟩ := callRadius_plain hrdk
  obtain ⟨sv, hsv⟩ := callStagnation_plain hsgk
  obtain ⟨⟨nv, hnv⟩, ⟨ni, hni⟩, ⟨nb, hnb⟩⟩ := callNoise_plain hnzk
  have es : ∀ j : ℕ, sizeOf? (j : ℤ) = some j := fun j => if_pos (Int.natCast_nonneg j)
  have et : (PyVal.int (size : ℤ) : PyVal K O).int?.bind sizeOf? = some size := es size
  refine ⟨{ noisy := o.noisy, nCores := o.nCores, disableConvergence := o.disableConvergence
            ftolAbs := .fin o.ftolAbs, gtolAbs := .fin o.gtolAbs, xtolAbs := .fin o.xtolAbs
            ftolRel := .fin o.ftolRel, gtolRel := .fin o.gtolRel, xtolRel := .fin o.xtolRel
            maxIter := o.maxIter, maxEval := o.maxEval, radiusOptions := rd, batchSize := batch
            targetSampleSize := .int size, stagnationOptions := sg
            noiseAdaptationOptions := nz, searchRadiusFactor := .fin q
            nEvalsPerPoint := .int per, nEvalsAtStart := start, functype := ft'
            modelType := defaultModelType o.functype, fitterName := .str fit, residualize := res
            aggregator := agg, samplePoints := c1, sphereSolver := c2, cubeSolver := c3
            retryWithFallback := true, filterPoints := c4, rawFitter := c5, estimateVariance := c6
            acceptCandidate := c7 }, ?_⟩
  have hconf : ∀ p : ProcessedArguments K O (Option (Piece K n)), p.radiusOptions = rd → p.stagnationOptions = sg →
      p.noiseAdaptationOptions = nz → p.batchSize = (batch : ℤ) → p.targetSampleSize = .int size →
      p.searchRadiusFactor = .fin q → p.nEvalsPerPoint = .int per → p.nEvalsAtStart = (start : ℤ) →
      p.acceptCandidate = c7 → p.samplePoints = c1 → p.filterPoints = c4 → p.rawFitter = c5 → p.sphereSolver = c2 →
      p.cubeSolver = c3 → p.estimateVariance = c6 → p.modelType = defaultModelType o.functype →
      (∃ v, callConv p = some v) → (∃ c, callConfig p = some c) ∧ ∃ b, callSettings ext p = some b := by
    intro p e1 e2 e3 e4 e5 e6 e7 e8 e9 e10 e11 e12 e13 e14 e15 e16 ⟨v, hv⟩
    constructor
    · unfold callConfig
      rw [hv, e1, e2, e3, e4, e5, e6, e7, e8, e9, hrv, hnv, hsv, es, es, hD, et]
      exact ⟨_, rfl⟩
    · unfold callSettings
      rw [e10, e11, e12, e13, e14, e15, e16, hS, hF, hT, hd2, hd3, hV, hmt, e3, hni, hnb]
      exact ⟨_, rfl⟩
  obtain ⟨⟨c, hc⟩, b, hb'⟩ := hconf
    { noisy := o.noisy, nCores := o.nCores, disableConvergence := o.disableConvergence
      ftolAbs := .fin o.ftolAbs, gtolAbs := .fin o.gtolAbs, xtolAbs := .fin o.xtolAbs
      ftolRel := .fin o.ftolRel, gtolRel := .fin o.gtolRel, xtolRel := .fin o.xtolRel
      maxIter := o.maxIter, maxEval := o.maxEval, radiusOptions := rd, batchSize := batch
      targetSampleSize := .int size, stagnationOptions := sg
      noiseAdaptationOptions := nz, searchRadiusFactor := .fin q
      nEvalsPerPoint := .int per, nEvalsAtStart := start, functype := ft'
      modelType := defaultModelType o.functype, fitterName := .str fit, residualize := res
      aggregator := agg, samplePoints := c1, sphereSolver := c2, cubeSolver := c3
      retryWithFallback := true, filterPoints := c4, rawFitter := c5, estimateVariance := c6
      acceptCandidate := c7 } rfl rfl rfl rfl rfl rfl rfl rfl rfl rfl rfl rfl rfl rfl rfl rfl ⟨_, rfl⟩
  refine ⟨c, b, r0, ?_, hc, hb', hr0⟩
  simp only at hst hq hb hfit hfilt
  simp only [processArguments, CallOptions.withBundles, CallOptions.arguments, pyGt, toFloat, toInt, toBool, hseed, bind,
    Except.bind, hnz, hper, hst, hq, hb, hrad, hrd, hsg, processModelType, hsize, hfit, hres, hft', checkBatchEvaluator,
    hc1, hc2, hc3, hfilt, hc4, hc5, checkInfinityHandler, hagg, hc6, if_true, true_or]
  erw [hdec, hc7]
  rfl

/-- C119: a call of built in components with plain option bundles and sane values returns an evaluated point within the
bounds, after evaluations within the bounds only and at most `maxiter + 1` iterations. -/
theorem C119_call_with_options_returns [IsStrictOrderedRing K] (env : PyEnv K O) (ext : Externals K O n m)
    (hext : ext.Spec) (o : CallOptions K) (ho : o.Accepted) (u : Bundles K O) (hu : u.Plain env) (x : Vec K n)
    (hn : 0 < n) (bounds : Bounds K n) (hs : SaneCall env ext (o.withBundles u) x bounds)
    (hball : (∀ y, InBounds bounds y) ∨ ext.StaysInBall o.sphereSubsolver) (hx : InBounds bounds x)
    (hsides : ∀ i l u, bounds.lower i = some l → bounds.upper i = some u → l < u) :
    ∃ r, tranquiloCall env ext (o.withBundles u) x bounds = .ok (some r) ∧ InBounds bounds r.state.x ∧
      (∀ y ∈ r.log.xs, InBounds bounds y) ∧ r.log.xs[r.state.index]? = some r.state.x ∧
      (r.states.length : ℤ) ≤ max o.maxIter 0 + 1 := by
  obtain ⟨p, c, b, radius, hp, hc, hb, hr⟩ := plain_processed env ext o ho u hu x hn
  rcases C119_exceptions_come_early env ext hext (o.withBundles u) x bounds hs (hball.imp_right fun h s hs => by cases hs; exact h) hx hsides with
    ⟨e, he, -⟩ | h | ⟨r, h1, h2, h3, h4, i, hi, h5⟩
  · rw [hp] at he
    cases he
  · exfalso
    unfold tranquiloCall at h
    rw [hp] at h
    change (match callConfig p, callSettings ext p, numOf p.radiusOptions "initial_radius" with
      | some c, some b, some radius => (tranquiloR c (builtinComponents b) x radius bounds).map some
      | _, _, _ => .ok none) = _ at h
    rw [hc, hb, hr] at h
    obtain ⟨a, -, ha⟩ := except_map_ok.1 h
    cases ha
  · refine ⟨r, h1, h2, h3, h4, ?_⟩
    have : i = o.maxIter := by
      rcases hi with hi | ⟨hi, -⟩ | ⟨hi, -⟩
      · cases hi; rfl
      · cases hi
      · cases hi
    rw [← this]
    exact h5

/-! ## Example -/

theorem uses_untouched {env : PyEnv K O} {user : Option (UserOptions K O)} {k : String} {default w : PyVal K O}
    (h : Uses env user k default w) (hu : user = none ∨ ∃ d, user = some (.dict d) ∧ d.lookup k = none) :
    w = default ∨ ∃ i : ℤ, default = .int i ∧ w = .flt (.fin i) := by
  have key : ∀ w, InForce env user k default w → w = default := by
    rintro w (⟨rfl, -⟩ | ⟨d, v, hg, hl, -⟩)
    · rfl
    · rcases hu with rfl | ⟨d', rfl, hd'⟩
      · rcases hg with hg | hg <;> cases hg
      · rcases hg with hg | hg <;> cases hg
        rw [hl] at hd'
        cases hd'
  rcases h with h | ⟨i, h, rfl⟩
  · exact Or.inl (key _ h)
  · exact Or.inr ⟨i, (key _ h).symm, rfl⟩

theorem uses_given {env : PyEnv K O} {d : Dict (PyVal K O)} {k : String} {default w v : PyVal K O}
    (h : Uses env (some (.dict d)) k default w) (hl : d.lookup k = some v) :
    StoredAs env default v w ∨ ∃ i : ℤ, StoredAs env default v (.int i) ∧ w = .flt (.fin i) := by
  have key : ∀ w, InForce env (some (.dict d)) k default w → StoredAs env default v w := by
    rintro w (⟨rfl, hn | ⟨d', hg, hd'⟩⟩ | ⟨d', v', hg, hl', hst⟩)
    · cases hn
    · rcases hg with hg | hg <;> cases hg
      rw [hl] at hd'
      cases hd'
    · rcases hg with hg | hg <;> cases hg
      rw [hl] at hl'
      cases hl'
      exact hst
  rcases h with h | ⟨i, h, rfl⟩
  · exact Or.inl (key _ h)
  · exact Or.inr ⟨i, key _ h, rfl⟩

/-- The options of the example: an initial radius, so that a call can start at zero, and a filter with an option. -/
noncomputable def exampleBundles : Bundles ℝ Unit where
  radius := some (.dict [("initial_radius", .int 2), ("shrinking_factor", .flt (.fin (1 / 4)))])
  filter := some (.dict [("n_max_factor", .int 4)])

theorem exampleBundles_plain (env : PyEnv ℝ Unit) : exampleBundles.Plain env where
  radius := Or.inr ⟨_, Or.inl rfl, by
    simp only [List.forall_mem_cons, List.not_mem_nil, false_imp_iff, implies_true, and_true]
    exact ⟨⟨_, rfl, Or.inr ⟨_, rfl⟩⟩, ⟨_, rfl, Or.inl ⟨_, rfl⟩⟩⟩⟩
  stagnation := Or.inl rfl
  noise := Or.inl rfl
  sampler := Or.inl rfl
  filter := Or.inr ⟨_, Or.inl rfl, by
    simp only [List.forall_mem_cons, List.not_mem_nil, false_imp_iff, implies_true, and_true]
    exact ⟨_, rfl, _, rfl, by norm_num⟩⟩
  fitter := Or.inl rfl
  subsolver := Or.inl rfl
  decider := Or.inl rfl
  variance := Or.inl rfl
  distribution := fun w h => by
    rcases uses_untouched (Or.inl h) (Or.inl rfl) with h | ⟨i, h, -⟩
    · exact Or.inl h
    · cases h
  criterion := fun w h => by
    rcases uses_untouched (Or.inl h) (Or.inl rfl) with h | ⟨i, h, -⟩
    · exact Or.inl h
    · cases h
  evals := fun w h => by
    rcases uses_untouched (Or.inl h) (Or.inl rfl) with h | ⟨i, -, h⟩
    · cases h; norm_num
    · cases h

/-- C118 and C119, example: a call that starts at zero with `radius_options={"initial_radius": 2, ...}` and
`sample_filter_options={"n_max_factor": 4}`, within bounds. -/
theorem example_bundles_return (env : PyEnv ℝ Unit) : ∃ r, tranquiloCall env plainExternals
    (({ functype := "least_squares", sampleFilter := some "drop_excess" } : CallOptions ℝ).withBundles exampleBundles)
    (fun _ => 0) ⟨fun _ => some (-1), fun _ => some 1⟩ = .ok (some r) ∧
      InBounds ⟨fun _ => some (-1), fun _ => some 1⟩ r.state.x := by
  obtain ⟨r, h1, h2, -⟩ := C119_call_with_options_returns env plainExternals plainExternals_spec
    { functype := "least_squares", sampleFilter := some "drop_excess" }
    { rest :=
        { functype := Or.inr (Or.inr rfl), cores := le_refl _, batch := fun _ h => (by cases h)
          factor := fun _ h => (by cases h), perPoint := fun _ h => (by cases h), atStart := fun _ h => (by cases h)
          sampler := Or.inr (Or.inr rfl), filter := fun _ h => (by cases h; simp), fitter := fun _ h => (by cases h)
          cube := Or.inr rfl, sphere := Or.inr (Or.inl rfl), decider := fun _ h => (by cases h) }
      decider := fun _ h => (by cases h) }
    exampleBundles (exampleBundles_plain env) (fun _ => 0) (by norm_num) ⟨fun _ => some (-1), fun _ => some 1⟩
    { scalar := fun h => absurd h (by decide)
      batch := fun i h => by
        rcases h with ⟨-, h | ⟨h, -⟩ | ⟨h, -⟩⟩ | h | ⟨h, -⟩ | ⟨h, -⟩ <;> cases h
        norm_num
      initialRadius := fun initial q _ h => by
        rcases uses_given h (v := .int 2) rfl with h | ⟨i, h, -⟩ <;> cases h
        norm_num
      minRadius := fun q h => by
        rcases uses_untouched h (Or.inr ⟨_, rfl, rfl⟩) with h | ⟨i, h, -⟩ <;> cases h
        norm_num
      maxRadius := fun q h => by
        rcases uses_untouched h (Or.inr ⟨_, rfl, rfl⟩) with h | ⟨i, h, -⟩ <;> cases h
        norm_num
      ratio := fun q h => by
        rcases uses_untouched h (Or.inr ⟨_, rfl, rfl⟩) with h | ⟨i, h, -⟩ <;> cases h
        rfl
      sampler := ⟨_, rfl⟩
      distribution := fun d h => by
        rcases uses_untouched h (Or.inl rfl) with h | ⟨i, h, -⟩
        · cases d with
          | none => exact Or.inl rfl
          | some d => cases h
        · cases h
      randomsearch := fun k h => by
        rcases uses_untouched h (Or.inl rfl) with h | ⟨i, -, h⟩
        · have : (k : ℤ) = 1 := by injection h
          omega
        · cases h
      filter := Or.inr ⟨_, rfl⟩
      strictness := fun q h => by
        rcases uses_untouched h (Or.inr ⟨_, rfl, rfl⟩) with h | ⟨i, h, -⟩ <;> cases h
        norm_num
      shape := fun s h => by
        rcases uses_untouched h (Or.inr ⟨_, rfl, rfl⟩) with h | ⟨i, h, -⟩ <;> cases h
        rfl
      nMax := fun q h => by
        rcases uses_given h (v := .int 4) rfl with h | ⟨i, h, hq⟩
        · cases h
        · cases h
          cases hq
          norm_num
      sphere := ⟨_, rfl⟩
      cube := ⟨_, rfl⟩
      retry := .bool _ _
      decider := Or.inl rfl
      noNoise := fun _ h => by cases h
      lineSearch := fun h => by cases h
      noise := fun h => by cases h }
    (Or.inr fun _ _ _ _ h => by cases h)
    (fun i => ⟨fun l h => (by cases h; norm_num), fun u h => (by cases h; norm_num)⟩)
    (fun i l u hl hu => by cases hl; cases hu; norm_num)
  exact ⟨r, h1, h2⟩

/-- C118, example: the run of this call starts with the radius 2, shrinks the region to a fourth, and keeps at most four
times the target size. -/
example (env : PyEnv ℝ Unit) : ∃ c b r, tranquiloR c (builtinComponents b) (fun _ => 0) 2
    ⟨fun _ => some (-1), fun _ => some 1⟩ = .ok r ∧ tranquiloCall env plainExternals
    (({ functype := "least_squares", sampleFilter := some "drop_excess" } : CallOptions ℝ).withBundles exampleBundles)
    (fun _ => 0) ⟨fun _ => some (-1), fun _ => some 1⟩ = .ok (some r) ∧ c.radius.shrinkingFactor = 1 / 4 ∧
      c.radius.expansionFactor = 2 ∧ b.filter = .dropExcess 4 := by
  obtain ⟨r, h, -⟩ := example_bundles_return env
  obtain ⟨c, b, radius, hr, hu⟩ := C118_run_uses_the_arguments env plainExternals _ _ _ r h
  obtain ⟨initial, -, -, hrad⟩ := hu.radius
  have h1 : radius = 2 := by
    have h1 := hrad ("initial_radius", num initial, num radius) (by simp [radiusTable])
    rcases uses_given h1 (v := .int 2) rfl with h | ⟨i, h, -⟩ <;> cases h
    norm_num
  have h2 : c.radius.shrinkingFactor = 1 / 4 := by
    have h1 := hrad ("shrinking_factor", num (1 / 2), num c.radius.shrinkingFactor) (by simp [radiusTable])
    rcases uses_given h1 (v := .flt (.fin (1 / 4))) rfl with h | ⟨i, h, -⟩
    · generalize c.radius.shrinkingFactor = q at h
      cases h
      rfl
    · cases h
  have h3 : c.radius.expansionFactor = 2 := by
    have h1 := hrad ("expansion_factor", num 2, num c.radius.expansionFactor) (by simp [radiusTable])
    rcases uses_untouched h1 (Or.inr ⟨_, rfl, rfl⟩) with h | ⟨i, h, -⟩
    · generalize c.radius.expansionFactor = q at h
      cases h
      rfl
    · cases h
  have h4 : b.filter = .dropExcess 4 := by
    have h1 := hu.filter "drop_excess" rfl
    generalize b.filter = F at h1
    generalize hname : "drop_excess" = name at h1
    cases h1 with
    | discardAll => exact absurd hname (by decide)
    | keepAll => exact absurd hname (by decide)
    | clustering => exact absurd hname (by decide)
    | dropExcess factor hf =>
      rcases uses_given hf (v := .int 4) rfl with h | ⟨i, h, hq⟩
      · cases h
      · cases h
        cases hq
        norm_num
  subst h1
  exact ⟨c, b, r, hr, h, h2, h3, h4⟩

end Tranquilo
