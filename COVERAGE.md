# Which code is modelled

Written by `tools/coverage.py` from the citations in `lean/Verif/Model`. Names are `file.definition`.
What a definition leaves out of the cited lines is said in its comment; `DESIGN.md` lists what holds for all
definitions.

## acceptance_decision.py

| function | lines | definitions of the model |
|---|---|---|
| `get_acceptance_decider` | 19-38 | `BuiltinComponents.builtinAcceptanceDeciders`, `BuiltinComponents.getAcceptanceDecider`, `MainLoop.DeciderChoice`, `TranquiloCall.deciderPiece` |
| `_accept_classic` | 41-70 | `Acceptance.acceptClassic`, `BuiltinComponents.builtinAcceptanceDeciders` |
| `accept_naive_noisy` | 73-90 | `Acceptance.acceptNaiveNoisy`, `BuiltinComponents.builtinAcceptanceDeciders` |
| `accept_classic_line_search` | 93-239 | `Acceptance.finishDecision`, `Acceptance.idxMin`, `Acceptance.lineSearchXs`, `Acceptance.acceptLineSearch`, `BuiltinComponents.builtinAcceptanceDeciders`, `MainLoopRaise.lineSearchXsR`, `MainLoopRaise.idxMinR`, `MainLoopRaise.finishLineSearchR`, `MainLoopRaise.acceptLineSearchR` |
| `_accept_simple` | 242-302 | `Acceptance.finishDecision`, `Acceptance.acceptSimple` |
| `accept_noisy` | 305-372 | `Acceptance.finishDecision`, `Acceptance.acceptNoisy`, `BuiltinComponents.builtinAcceptanceDeciders`, `BuiltinRun.builtinNoiseSigma` |
| `_get_acceptance_result` | 388-415 | `Acceptance.getAcceptanceResult` |
| `calculate_rho` | 418-425 | `Acceptance.calculateRho` |
| `_generate_speculative_sample` | 433-478 | `Acceptance.speculativeSample`, `MainLoopRaise.speculativeSampleR` |
| `_sample_on_line` | 481-496 | `Acceptance.sampleOnLine` |
| `_is_on_border` | 499-515 | `Acceptance.isOnBorder` |
| `_is_on_sphere_border` | 518-520 | `Acceptance.isOnBorder` |
| `_is_on_cube_border` | 523-527 | `Acceptance.isOnBorder` |
| `_generate_alpha_grid` | 530-532 | `Acceptance.alphaGrid` |

## acceptance_sample_size.py

| function | lines | definitions of the model |
|---|---|---|
| `get_acceptance_sample_sizes` | 5-25 | `MainLoopRaise.runDeciderR`, `SampleSize.getAcceptanceSampleSizes`, `TranquiloCall.deciderPiece` |
| `_get_optimal_sample_sizes` | 28-57 | `MainLoopRaise.runDeciderR`, `SampleSize.getOptimalSampleSizes` |
| `_compute_factor` | 60-69 | `SampleSize.computeFactor`, `TranquiloCall.Externals`, `TranquiloCall.deciderPiece` |

## adjust_n_evals.py

| function | lines | definitions of the model |
|---|---|---|
| `adjust_n_evals` | 1-29 | `Adjust.adjustNEvals` |

## adjust_radius.py

| function | lines | definitions of the model |
|---|---|---|
| `adjust_radius` | 4-43 | `Adjust.adjustRadius` |

## aggregate_models.py

| function | lines | definitions of the model |
|---|---|---|
| `get_aggregator` | 8-34 | `Aggregate.aggregate` |
| `_aggregate_models_template` | 37-56 | `Aggregate.aggregateWith` |
| `aggregator_identity` | 59-78 | `Aggregate.aggregatorIdentity` |
| `aggregator_sum` | 81-99 | `Aggregate.aggregatorSum` |
| `aggregator_least_squares_linear` | 102-126 | `Aggregate.aggregatorLeastSquares` |
| `aggregator_information_equality_linear` | 129-152 | `Aggregate.aggregatorInformation` |

## bounds.py

| function | lines | definitions of the model |
|---|---|---|
| `Bounds.__post_init__` | 13-15 | `Region.Bounds` |
| `Bounds._replace` | 18-19 | `Region.Bounds` |
| `_any_finite` | 22-28 | `Region.RawBounds.hasAny` |

## clustering.py

| function | lines | definitions of the model |
|---|---|---|
| `cluster` | 6-31 | `BuiltinRun.keepClusterCenters` |
| `_cluster` | 35-75 | `Filter.Clusters`, `Filter.nNeighbors`, `Filter.scanPoint`, `Filter.clusterPass`, `Filter.clusterLoop`, `Filter.clusterFuel` |

## estimate_variance.py

| function | lines | definitions of the model |
|---|---|---|
| `get_variance_estimator` | 12-25 | `BuiltinComponents.builtinVarianceEstimators`, `BuiltinComponents.getVarianceEstimator`, `TranquiloCall.variancePiece` |
| `_estimate_variance_classic` | 28-61 | `BuiltinComponents.builtinVarianceEstimators`, `NoiseVariance.varianceCandidates`, `NoiseVariance.nEvalsAt`, `NoiseVariance.varianceCutoff`, `NoiseVariance.validIndices`, `NoiseVariance.varianceWeights`, `NoiseVariance.weightedSum`, `NoiseVariance.estimateVariance`, `NoiseVariance.sampleCov`, `NoiseVariance.estimateCovariance` |

## exploration_sample.py

| function | lines | definitions of the model |
|---|---|---|
| `draw_exploration_sample` | 6-87 | `Exploration.scaleDraws`, `Exploration.seedCheck`, `Exploration.explorationSample` |

## filter_points.py

| function | lines | definitions of the model |
|---|---|---|
| `get_sample_filter` | 10-42 | `BuiltinComponents.builtinFilters`, `BuiltinComponents.getSampleFilter`, `BuiltinRun.FilterChoice`, `TranquiloCall.filterPiece` |
| `discard_all` | 45-46 | `BuiltinComponents.builtinFilters`, `Filter.discardAll` |
| `keep_all` | 49-50 | `BuiltinComponents.builtinFilters`, `Filter.keepAll` |
| `drop_excess` | 53-61 | `BuiltinComponents.builtinFilters`, `Filter.dropExcess` |
| `drop_worst_points` | 64-114 | `Filter.argMinPair`, `Filter.Points.delete`, `Filter.dropOutside`, `Filter.pairDists`, `Filter.deleteCross`, `Filter.chooseDrop`, `Filter.dropClose`, `Filter.dropWorst` |
| `keep_cluster_centers` | 117-131 | `BuiltinComponents.builtinFilters`, `BuiltinRun.keepClusterCenters` |

## fit_models.py

| function | lines | definitions of the model |
|---|---|---|
| `get_fitter` | 18-82 | `BuiltinComponents.builtinFitters`, `BuiltinComponents.getRawFitter`, `BuiltinRun.FitterChoice`, `TranquiloCall.fitterPiece` |
| `_fitter_template` | 85-149 | `BuiltinComponents.fitterCallKeys`, `BuiltinRun.builtinFitTemplate`, `FitModels.modelOfCoef`, `FitModels.fitModel` |
| `fit_ols` | 152-173 | `BuiltinComponents.builtinFitters`, `FitModels.fitOls` |
| `_fit_ols` | 176-190 | `FitModels.fitOls` |
| `fit_tranquilo` | 193-228 | `BuiltinComponents.builtinFitters`, `FitModels.byTerm`, `FitModels.fitTranquilo` |
| `fit_ridge` | 231-273 | `BuiltinComponents.builtinFitters`, `FitModels.byTerm`, `FitModels.fitRidge` |
| `_fit_ridge` | 276-294 | `FitModels.fitRidgeRaw` |
| `fit_powell` | 297-339 | `BuiltinComponents.builtinFitters`, `FitModels.fitPowell` |
| `_fit_minimal_frobenius_norm_of_hessian` | 342-396 | `FitModels.fitMinFrobenius` |
| `_get_current_fit_minimal_frobenius_norm_of_hessian` | 399-433 | `FitModels.secondStage`, `FitModels.linearStage`, `FitModels.fitMinFrobenius` |
| `_get_feature_matrices_minimal_frobenius_norm_of_hessian` | 436-461 | `FitModels.quadFeature`, `FitModels.zMat`, `FitModels.nZMat`, `FitModels.linearStage`, `FitModels.fitMinFrobenius` |
| `_build_feature_matrix` | 464-468 | `FitModels.featureRow`, `FitModels.featureMatrix` |
| `_reshape_square_terms_to_hess` | 471-477 | `FitModels.triuIndices`, `FitModels.reshapeToHess` |
| `_quadratic_features` | 481-496 | `FitModels.quadraticTerms`, `FitModels.featureRow` |
| `_add_weighting` | 499-507 | `FitModels.weightMat`, `FitModels.weightVec` |

## geometry.py

| function | lines | definitions of the model |
|---|---|---|
| `log_d_quality_calculator` | 4-24 | `Visualize.gramMatrix`, `Visualize.logDQuality` |

## get_component.py

| function | lines | definitions of the model |
|---|---|---|
| `get_component` | 10-84 | `Components.PyFun.signature`, `Components.wrapperCall`, `Components.getComponent` |
| `_get_function_and_name` | 87-118 | `Components.getFunctionAndName` |
| `_get_valid_options` | 121-166 | `Components.getValidOptions` |
| `_fail_if_mandatory_argument_is_missing` | 169-198 | `Components.getComponent` |
| `_add_redundant_argument_handling` | 201-231 | `Components.wrapperCall` |

## handle_infinity.py

| function | lines | definitions of the model |
|---|---|---|
| `get_infinity_handler` | 4-11 | `ProcessArgs.checkInfinityHandler` |
| `clip_relative` | 14-49 | `BuiltinRun.clipColumns`, `Infinity.finitePart`, `Infinity.maskedMin`, `Infinity.maskedMax`, `Infinity.posPenalty`, `Infinity.negPenalty`, `Infinity.replaceInfinite`, `Infinity.clipRelative` |

## history.py

| function | lines | definitions of the model |
|---|---|---|
| `History.__init__` | 14-33 | `History.Functype`, `History.Functype.parse`, `History.Functype.aggregateRow`, `History.History`, `History.History.init`, `Small.Functype.pyName` |
| `History.add_xs` | 35-67 | `History.History`, `History.XsArg`, `History.XsArg.toMat`, `History.IdxOut`, `History.addXs`, `Log.addXs` |
| `History.add_evals` | 69-110 | `History.evalsToMat`, `History.appendToMapper`, `History.addEvals` |
| `History.get_xs` | 112-130 | `History.getX`, `History.getXs`, `History.getAllXs` |
| `History.get_fvecs` | 132-152 | `History.getFvec`, `History.getFvecs` |
| `History.get_fvals` | 154-174 | `History.getFval`, `History.getFvals` |
| `History.get_n_evals` | 176-179 | `History.getNEvals` |
| `History.get_model_data` | 181-196 | `History.columnMean`, `History.getModelDataAveraged`, `History.getModelDataFull` |
| `History.get_n_fun` | 198-199 | `History.getNFun`, `Log.nFun` |
| `History.get_n_xs` | 201-202 | `History.getNXs` |
| `History.get_x_indices_in_region` | 204-211 | `History.getXIndicesInRegion`, `History.inBall`, `Log.indicesInRegion` |
| `History.__repr__` | 213-214 | `Small.History.repr` |
| `_add_entries_to_array` | 217-234 | `History.initialRows`, `History.growBuffer`, `History.writeAt`, `History.broadcastRow`, `History.addEntries1`, `History.addEntries2` |
| `_extract_from_indices` | 237-266 | `History.lookupEvals`, `History.extractMany`, `History.extractOne` |

## models.py

| function | lines | definitions of the model |
|---|---|---|
| `VectorModel.predict` | 21-22 | `Models.VectorModel` |
| `VectorModel._replace` | 25-26 | `Models.VectorModel` |
| `ScalarModel.predict` | 40-41 | `Models.ScalarModel` |
| `ScalarModel._replace` | 44-45 | `Models.ScalarModel` |
| `_predict_vector` | 48-87 | `Models.halfQuad`, `Models.VectorModel.predict`, `Models.VectorModel.predictMany` |
| `add_models` | 90-123 | `Models.allClose`, `Models.addSquare`, `Models.ScalarModel.add`, `Models.VectorModel.add`, `Models.addModels` |
| `move_model` | 126-150 | `Models.ScalarModel.move`, `Models.VectorModel.move` |
| `_scale_model` | 153-172 | `Models.ScalarModel.scaleBy`, `Models.VectorModel.scaleBy` |
| `_shift_scalar_model` | 175-194 | `Models.ScalarModel.shiftBy` |
| `_shift_vector_model` | 197-220 | `Models.VectorModel.shiftBy` |
| `_predict_scalar` | 223-261 | `Models.halfQuad`, `Models.ScalarModel.predict` |
| `n_free_params` | 264-272 | `Models.nFreeParams` |
| `n_second_order_terms` | 276-278 | `Models.nSecondOrderTerms` |
| `n_interactions` | 282-284 | `Models.nInteractions` |
| `is_second_order_model` | 287-295 | `Small.isSecondOrder` |

## options.py

| function | lines | definitions of the model |
|---|---|---|
| `get_default_stagnation_options` | 7-23 | `BuiltinComponents.stagnationDefaults` |
| `get_default_sample_filter` | 26-27 | `ProcessArgs.processArguments` |
| `get_default_radius_options` | 30-31 | `Adjust.defaultRadius`, `BuiltinComponents.radiusDefaults`, `ProcessArgs.defaultInitialRadius` |
| `get_default_batch_size` | 34-35 | `ProcessArgs.processBatchSize` |
| `get_default_acceptance_decider` | 38-39 | `ProcessArgs.processArguments` |
| `get_default_sample_size` | 42-54 | `ProcessArgs.defaultSampleSize` |
| `get_default_model_fitter` | 57-63 | `ProcessArgs.defaultModelFitter` |
| `get_default_residualize` | 66-67 | `ProcessArgs.processResidualize` |
| `get_default_subsolver` | 70-71 | `Small.defaultSubsolver` |
| `get_default_search_radius_factor` | 74-75 | `ProcessArgs.rawSearchRadiusFactor` |
| `get_default_model_type` | 78-79 | `ProcessArgs.defaultModelType` |
| `get_default_aggregator` | 82-100 | `ProcessArgs.defaultAggregator` |
| `get_default_n_evals_at_start` | 103-104 | `ProcessArgs.rawNEvalsAtStart` |
| `get_default_n_evals_per_point` | 107-108 | `ProcessArgs.rawNEvalsPerPoint` |
| `update_option_bundle` | 218-258 | `Components.keepsValue`, `Components.convertTo`, `Components.typedValue`, `Components.UserOptions`, `Components.UserOptions.asDict`, `Components.typedOptions`, `Components.replaceFields`, `Components.updateOptionBundle` |

## poisedness.py

| function | lines | definitions of the model |
|---|---|---|
| `get_poisedness_constant` | 7-81 | `Poisedness.reshapeSquare`, `Poisedness.evalAbsolute`, `Poisedness.PoisedState`, `Poisedness.poisedStep`, `Poisedness.poisednessConstant` |
| `improve_poisedness` | 84-118 | `Poisedness.improvePoisedness` |
| `_lagrange_poly_matrix` | 121-137 | `Poisedness.lagrangeMat` |
| `_scaled_polynomial_features` | 140-171 | `Poisedness.featurePairs`, `Poisedness.pairFeature`, `Poisedness.lagrangeRow`, `Poisedness.basisMat` |
| `_reshape_coef_to_square_terms` | 174-185 | `Poisedness.reshapePairs`, `Poisedness.reshapeSquare` |
| `_get_minimize_options` | 188-203 | `Poisedness.shapeOfName` |
| `_eval_absolute_value` | 206-207 | `Poisedness.evalAbsolute` |
| `_eval_neg_absolute_value` | 210-211 | `Poisedness.poisedStep` |

## process_arguments.py

| function | lines | definitions of the model |
|---|---|---|
| `process_arguments` | 36-256 | `ProcessArgs.checkSeed`, `ProcessArgs.Arguments`, `ProcessArgs.ProcessedArguments`, `ProcessArgs.processArguments`, `Region.RawBounds` |
| `_process_x` | 259-260 | `ProcessArgs.processArguments` |
| `_process_noisy` | 263-264 | `ProcessArgs.processArguments` |
| `_process_n_cores` | 267-268 | `ProcessArgs.processArguments` |
| `_process_batch_size` | 271-278 | `ProcessArgs.processBatchSize` |
| `_process_sample_filter` | 281-287 | `ProcessArgs.processArguments` |
| `_process_sample_size` | 290-299 | `ProcessArgs.processSampleSize` |
| `_process_model_type` | 302-308 | `FitModels.ModelType`, `ProcessArgs.processModelType`, `TranquiloCall.modelTypeOf` |
| `_process_search_radius_factor` | 311-320 | `ProcessArgs.rawSearchRadiusFactor`, `ProcessArgs.processSearchRadiusFactor` |
| `_process_seed` | 323-324 | `ProcessArgs.checkSeed` |
| `_process_acceptance_decider` | 327-333 | `ProcessArgs.processArguments` |
| `_process_model_fitter` | 336-342 | `ProcessArgs.processModelFitter` |
| `_process_residualize` | 345-353 | `ProcessArgs.processResidualize` |
| `_process_n_evals_at_start` | 356-365 | `ProcessArgs.rawNEvalsAtStart`, `ProcessArgs.processNEvalsAtStart` |
| `next_multiple` | 368-369 | `SampleSize.nextMultiple` |
| `_process_n_evals_per_point` | 372-381 | `ProcessArgs.rawNEvalsPerPoint`, `ProcessArgs.processNEvalsPerPoint` |

## region.py

| function | lines | definitions of the model |
|---|---|---|
| `Region.__post_init__` | 19-31 | `Region.Region` |
| `Region.cube_bounds` | 34-39 | `Region.mapToUnit` |
| `Region.cube_center` | 42-47 | `Region.mapToUnit` |
| `Region.map_to_unit` | 49-55 | `Region.mapToUnit` |
| `Region.map_from_unit` | 57-66 | `Region.mapFromUnit` |
| `Region._replace` | 69-70 | `Region.Region` |
| `_map_to_unit_cube` | 73-76 | `BuiltinRun.builtinFitTemplate`, `Region.mapToUnit`, `Visualize.logDQuality` |
| `_map_to_unit_sphere` | 79-82 | `BuiltinRun.builtinFitTemplate`, `Region.mapToUnit`, `Visualize.logDQuality` |
| `_map_from_unit_cube` | 85-88 | `Region.mapFromUnit` |
| `_map_from_unit_sphere` | 91-94 | `Region.mapFromUnit` |
| `_get_shape` | 97-101 | `Region.Shape`, `Region.shape` |
| `_get_cube_bounds` | 104-108 | `Region.cubeRadius`, `Region.cubeLower`, `Region.cubeUpper` |
| `_get_cube_center` | 111-113 | `Region.cubeCenter` |
| `_get_effective_center` | 116-118 | `Region.effectiveCenter` |
| `_get_effective_radius` | 121-126 | `Region.effectiveRadius` |
| `_create_cube_bounds` | 129-140 | `Region.clipLower`, `Region.clipUpper`, `Region.cubeLower`, `Region.cubeUpper` |
| `_any_bounds_binding` | 143-152 | `Region.lowerBinding`, `Region.upperBinding`, `Region.anyBoundsBinding` |

## rho_noise.py

| function | lines | definitions of the model |
|---|---|---|
| `simulate_rho_noise` | 6-92 | `NoiseVariance.dropCorrelation`, `NoiseVariance.simulateOneRho`, `NoiseVariance.simulateRhoNoise` |

## sample_points.py

| function | lines | definitions of the model |
|---|---|---|
| `get_sampler` | 13-55 | `BuiltinComponents.builtinSamplers`, `BuiltinComponents.getSampler`, `Samplers.BuiltInSampler`, `TranquiloCall.samplerPiece` |
| `_interior_sampler` | 58-85 | `BuiltinComponents.builtinSamplers`, `Samplers.interiorSampler` |
| `_box_sampler` | 88-111 | `Samplers.boxSampler` |
| `_ball_sampler` | 114-138 | `Samplers.ballRow`, `Samplers.ballSampler` |
| `_hull_sampler` | 141-172 | `BuiltinComponents.builtinSamplers`, `Samplers.theDistribution`, `Samplers.hullSampler` |
| `_optimal_hull_sampler` | 175-338 | `BuiltinComponents.builtinSamplers`, `Samplers.theDistribution`, `Samplers.SampleCriterion`, `Samplers.theCriterion`, `Samplers.existingUnit`, `Samplers.SampleInfo`, `Samplers.startSample`, `Samplers.sampleObjective`, `Samplers.optimizerResult`, `Samplers.optimizeSample`, `Samplers.optimalHullSampler`, `TranquiloCall.criterionOf` |
| `_minimal_pairwise_distance_on_hull` | 346-391 | `Samplers.pdistSq`, `Samplers.hullDistances`, `Samplers.distanceOnHull` |
| `_determinant_on_hull` | 394-425 | `Samplers.designMatrix`, `Samplers.determinantOnHull` |
| `_draw_from_distribution` | 428-449 | `Samplers.drawRows`, `Samplers.drawBlocks` |
| `_project_onto_unit_hull` | 452-466 | `Samplers.hullNorm`, `Samplers.projectRow`, `Samplers.projectHull` |
| `switch_sign` | 469-474 | `Samplers.sampleObjective` |

## solve_subproblem.py

| function | lines | definitions of the model |
|---|---|---|
| `get_subsolver` | 27-133 | `BuiltinComponents.builtinSphereSolvers`, `BuiltinComponents.builtinCubeSolvers`, `BuiltinComponents.getSphereSolver`, `BuiltinComponents.getCubeSolver`, `BuiltinComponents.getFallbackSphereSolver`, `BuiltinComponents.getFallbackCubeSolver`, `TranquiloCall.callSettings` |
| `_solve_subproblem_template` | 136-237 | `BuiltinComponents.subsolverCallKeys`, `BuiltinComponents.fallbackCallKeys`, `Subproblem.callSolver`, `Subproblem.solveSubproblem` |

## subsolvers/_conjugate_gradient.py

| function | lines | definitions of the model |
|---|---|---|
| `minimize_trust_cg` | 5-65 | `ConjugateGradient.cgLoop`, `ConjugateGradient.cgStart`, `ConjugateGradient.minimizeCg` |
| `_update_vectors_for_next_iteration` | 68-96 | `ConjugateGradient.cgUpdate` |
| `_get_distance_to_trustregion_boundary` | 99-125 | `ConjugateGradient.cgDistance` |

## subsolvers/_conjugate_gradient_fast.py

| function | lines | definitions of the model |
|---|---|---|
| `minimize_trust_cg_fast` | 7-67 | `ConjugateGradient.minimizeCgFast` |
| `_update_vectors_for_next_iteration` | 71-105 | `ConjugateGradient.cgUpdateLoop`, `ConjugateGradient.cgUpdateFast` |
| `_get_distance_to_trustregion_boundary` | 109-138 | `ConjugateGradient.cgDistanceSums`, `ConjugateGradient.cgDistanceFast` |

## subsolvers/_steihaug_toint.py

| function | lines | definitions of the model |
|---|---|---|
| `minimize_trust_stcg` | 5-145 | `ConjugateGradient.stLoop`, `ConjugateGradient.minimizeSt` |
| `_update_candidate_vector_and_iteration_number` | 148-179 | `ConjugateGradient.stFirstStep` |
| `_take_step_to_trustregion_boundary` | 182-187 | `ConjugateGradient.stBoundaryStep` |
| `_check_convergence` | 190-199 | `ConjugateGradient.stLoop` |

## subsolvers/_steihaug_toint_fast.py

| function | lines | definitions of the model |
|---|---|---|
| `minimize_trust_stcg_fast` | 7-150 | `SlowSolvers.stLoopFast`, `SlowSolvers.stTolFast`, `SlowSolvers.minimizeStFast`, `SlowSolvers.trsSmallNp` |
| `_update_candidate_vector_and_iteration_number` | 154-185 | `SlowSolvers.minimizeStFast` |
| `_take_step_to_trustregion_boundary` | 189-194 | `SlowSolvers.minimizeStFast` |
| `_check_convergence` | 198-207 | `SlowSolvers.stLoopFast`, `SlowSolvers.minimizeStFast` |

## subsolvers/_trsbox.py

| function | lines | definitions of the model |
|---|---|---|
| `minimize_trust_trsbox` | 5-192 | `SlowSolvers.trsStepNp`, `SlowSolvers.trsPassNp`, `SlowSolvers.trsLoopNp`, `SlowSolvers.minimizeTrsboxNp` |
| `_perform_alternative_trustregion_step` | 195-349 | `SlowSolvers.altTurnNp`, `SlowSolvers.altPassNp`, `SlowSolvers.altInnerNp`, `SlowSolvers.altOuterNp` |
| `_apply_bounds_to_candidate_vector` | 352-363 | `SlowSolvers.trsboxBoundsNp` |
| `_take_unconstrained_step_up_to_boundary` | 366-382 | `SlowSolvers.trsboxDistanceNp` |
| `_update_candidate_vectors_and_reduction` | 385-430 | `SlowSolvers.trsStepNp` |
| `_take_constrained_step_up_to_boundary` | 433-454 | `SlowSolvers.trsStepNp` |
| `_calc_upper_bound_on_tangent` | 457-513 | `SlowSolvers.altPassNp` |
| `_calc_greatest_criterion_reduction` | 516-557 | `SlowSolvers.altStepNp` |
| `_update_candidate_vectors_and_reduction_alt_step` | 560-595 | `SlowSolvers.altTurnNp` |
| `_compute_new_search_direction_and_norm` | 598-611 | `SlowSolvers.altPassNp` |
| `_calc_new_reduction` | 614-619 | `SlowSolvers.altStepNp` |
| `_update_tangent` | 622-639 | `SlowSolvers.altStepNp` |

## subsolvers/_trsbox_fast.py

| function | lines | definitions of the model |
|---|---|---|
| `minimize_trust_trsbox_fast` | 7-196 | `Trsbox.trsDirection`, `Trsbox.trsPrepare`, `Trsbox.trsSmall`, `Trsbox.trsReduction`, `Trsbox.trsMove`, `Trsbox.trsFix`, `Trsbox.trsStep`, `Trsbox.trsPass`, `Trsbox.trsLoop`, `Trsbox.trsboxSides`, `Trsbox.trsStart`, `Trsbox.minimizeTrsbox` |
| `_perform_alternative_trustregion_step` | 200-354 | `Trsbox.chosenTangent`, `Trsbox.tangentCosine`, `Trsbox.tangentSine`, `Trsbox.altTurn`, `Trsbox.altFix`, `Trsbox.altPass`, `Trsbox.altInner`, `Trsbox.altOuter` |
| `_apply_bounds_to_candidate_vector` | 358-376 | `Trsbox.trsboxBounds` |
| `_take_unconstrained_step_up_to_boundary` | 380-397 | `Trsbox.boundaryDistance`, `Trsbox.trsboxDistance` |
| `_update_candidate_vectors_and_reduction` | 401-446 | `Trsbox.trsReduction`, `Trsbox.trsMove` |
| `_take_constrained_step_up_to_boundary` | 450-469 | `Trsbox.limitStep`, `Trsbox.trsboxConstrained` |
| `_calc_upper_bound_on_tangent` | 473-527 | `Trsbox.tangentLoop`, `Trsbox.altFix` |
| `_calc_greatest_criterion_reduction` | 531-572 | `Trsbox.angleIndex`, `Trsbox.anglePass`, `Trsbox.angleSearch`, `Trsbox.chosenTangent` |
| `_update_candidate_vectors_and_reduction_alt_step` | 576-611 | `Trsbox.altTurn`, `Trsbox.altHessian`, `Trsbox.altPass` |
| `_compute_new_search_direction_and_norm` | 615-628 | `Trsbox.altDirection` |
| `_calc_new_reduction` | 632-637 | `Trsbox.tangentReduction` |
| `_update_tangent` | 641-658 | `Trsbox.updateTangent` |

## subsolvers/bntr.py

| function | lines | definitions of the model |
|---|---|---|
| `bntr` | 25-238 | `BntrNp.bntrTrialNp`, `BntrNp.bntrInnerNp`, `BntrNp.bntrOuterNp`, `BntrNp.BntrNpResult`, `BntrNp.bntrNp`, `BuiltinComponents.bntrParams` |
| `_take_preliminary_gradient_descent_step_and_check_for_solution` | 241-385 | `BntrNp.bntrPreliminaryNp` |
| `_compute_conjugate_gradient_step` | 388-510 | `BntrNp.freeStepNp`, `BntrNp.trialStepNp`, `BntrNp.innerCgNp`, `BntrNp.innerTrsboxNp`, `BntrNp.innerStNp` |
| `_compute_predicted_reduction_from_conjugate_gradient_step` | 513-540 | `BntrNp.predictedReductionNp` |
| `_perform_gradient_descent_step` | 543-609 | `BntrNp.gdStepNp`, `BntrNp.gdLoopNp`, `BntrNp.gradientDescentNp` |
| `_update_trustregion_radius_conjugate_gradient` | 612-665 | `BntrNp.cgUpdateRadiusNp` |
| `_get_information_on_active_bounds` | 668-689 | `Bntr.ActiveSets`, `Bntr.activeSets` |
| `_find_hessian_submatrix_where_bounds_inactive` | 692-698 | `BntrNp.pickMat` |
| `_check_for_convergence` | 701-754 | `BntrNp.bntrConvergedNp` |
| `_apply_bounds_to_x_candidate` | 757-762 | `Bntr.applyBoundsNp` |
| `_project_gradient_onto_feasible_set` | 765-772 | `BntrNp.projectGradientNp` |
| `_apply_bounds_to_conjugate_gradient_step` | 775-801 | `Bntr.boundedStepNp`, `BntrNp.trialStepNp` |
| `_update_trustregion_radius_and_gradient_descent` | 804-889 | `BntrNp.gdStepNp` |
| `_get_fischer_burmeister_direction_vector` | 892-903 | `Bntr.fbDirectionNp` |
| `_get_fischer_burmeister_scalar` | 906-925 | `Bntr.fbScalar` |
| `_evaluate_model_criterion` | 928-946 | `Bntr.bntrCriterion` |

## subsolvers/bntr_fast.py

| function | lines | definitions of the model |
|---|---|---|
| `bntr_fast` | 17-123 | `Bntr.BntrResult`, `Bntr.bntrFast`, `BuiltinComponents.bntrParams` |
| `_bntr_fast_jitted` | 127-341 | `Bntr.cgUpdateRadius`, `Bntr.bntrTrial`, `Bntr.bntrInner`, `Bntr.bntrOuter`, `Bntr.bntrFast` |
| `_take_preliminary_gradient_descent_step_and_check_for_solution` | 345-530 | `Bntr.gdTau`, `Bntr.gdUpdateRadius`, `Bntr.gradientDescent`, `Bntr.bntrMinRadius`, `Bntr.bntrMaxRadius`, `Bntr.bntrPreliminary` |
| `_compute_conjugate_gradient_step` | 534-688 | `Bntr.applyBounds`, `Bntr.innerCg`, `Bntr.freeStep`, `Bntr.trialStep`, `BntrNp.innerSt`, `Trsbox.innerTrsbox` |
| `_compute_predicted_reduction_from_conjugate_gradient_step` | 692-738 | `Bntr.predictedReduction` |
| `_perform_gradient_descent_step` | 742-822 | `Bntr.gdStep`, `Bntr.gradientDescent` |
| `_update_trustregion_radius_conjugate_gradient` | 826-884 | `Bntr.cgKappa`, `Bntr.boundaryFactor`, `Bntr.cgUpdateRadius` |
| `_get_information_on_active_bounds` | 888-909 | `Bntr.activeBounds` |
| `_find_hessian_submatrix_where_bounds_inactive` | 913-916 | `Bntr.maskMat` |
| `_check_for_convergence` | 920-963 | `Bntr.bntrConverged` |
| `_apply_bounds_to_x_candidate` | 967-974 | `Bntr.applyBounds` |
| `_project_gradient_onto_feasible_set` | 978-983 | `Bntr.projectGradient` |
| `_apply_bounds_to_conjugate_gradient_step` | 987-1016 | `Bntr.boundedStep`, `Bntr.trialStep` |
| `_update_trustregion_radius_and_gradient_descent` | 1020-1107 | `Bntr.gdTau`, `Bntr.gdKappa`, `Bntr.gdUpdateRadius` |
| `_get_fischer_burmeister_direction_vector` | 1111-1122 | `Bntr.fbDirection` |
| `_get_fischer_burmeister_scalar` | 1126-1145 | `Bntr.fbScalar` |
| `_evaluate_model_criterion` | 1149-1167 | `Bntr.bntrCriterion` |

## subsolvers/fallback_subsolvers.py

| function | lines | definitions of the model |
|---|---|---|
| `robust_cube_solver` | 11-38 | `BuiltinComponents.builtinCubeSolvers`, `Fallback.robustCube` |
| `robust_cube_solver_multistart` | 41-72 | `BuiltinComponents.builtinCubeSolvers`, `Exploration.multistartSolver`, `Fallback.multistartLoop`, `Fallback.multistart` |
| `robust_sphere_solver_inscribed_cube` | 80-89 | `BuiltinComponents.builtinSphereSolvers`, `Fallback.inscribedCubeSolver` |
| `robust_sphere_solver_reparametrized` | 92-135 | `BuiltinComponents.builtinSphereSolvers`, `Fallback.projectToBall`, `Fallback.reparametrizedSolver` |
| `robust_sphere_solver_norm_constraint` | 138-165 | `BuiltinComponents.builtinSphereSolvers`, `Fallback.SlsqpResult`, `Fallback.Slsqp`, `Fallback.normConstraintSolver` |
| `_get_crit_and_grad` | 173-183 | `Fallback.fallbackCrit`, `Fallback.fallbackGrad` |
| `_get_constraint` | 186-199 | `Fallback.NormConstraint`, `Fallback.normConstraint` |

## subsolvers/gqtpar.py

| function | lines | definitions of the model |
|---|---|---|
| `gqtpar` | 22-145 | `BuiltinComponents.builtinSphereSolvers`, `SlowSolvers.gqIterationNp`, `SlowSolvers.gqLoopNp`, `SlowSolvers.gqStartNp`, `SlowSolvers.gqtparNp` |
| `_get_initial_guess_for_lambdas` | 148-209 | `SlowSolvers.initialLambdasNp` |
| `add_lambda_and_factorize_hessian` | 212-259 | `SlowSolvers.refactorizeNp` |
| `_find_new_candidate_and_update_parameters` | 262-313 | `SlowSolvers.findNewNp` |
| `_check_for_interior_convergence_and_update` | 316-346 | `SlowSolvers.interiorCheckNp` |
| `_update_lambdas_when_factorization_unsuccessful` | 349-371 | `SlowSolvers.failedUpdateNp` |
| `_get_new_lambda_candidate` | 374-390 | `SlowSolvers.newLambdaNp` |
| `_compute_gershgorin_bounds` | 393-421 | `SlowSolvers.initialLambdasNp` |
| `_compute_newton_step` | 424-439 | `Gqtpar.newtonStep`, `SlowSolvers.findNewNp` |
| `_update_candidate_and_parameters_when_candidate_within_trustregion` | 442-495 | `SlowSolvers.withinUpdateNp` |
| `_update_lambdas_when_candidate_outside_trustregion` | 498-509 | `SlowSolvers.outsideUpdateNp` |
| `_compute_smallest_step_len_for_candidate_vector` | 512-530 | `SlowSolvers.stepLenNp` |
| `_solve_scalar_quadratic_equation` | 533-569 | `SlowSolvers.sphereRootsNp` |
| `_compute_terms_to_make_leading_submatrix_singular` | 572-616 | `SlowSolvers.failedUpdateNp` |

## subsolvers/gqtpar_fast.py

| function | lines | definitions of the model |
|---|---|---|
| `gqtpar_fast` | 8-155 | `BuiltinComponents.builtinSphereSolvers`, `Gqtpar.refactorize`, `Gqtpar.gqIteration`, `Gqtpar.gqLoop`, `Gqtpar.gqStart`, `Gqtpar.gqThreshold`, `Gqtpar.gqtpar` |
| `_get_initial_guess_for_lambdas` | 159-208 | `Gqtpar.initialLower`, `Gqtpar.initialUpper`, `Gqtpar.initialLambda` |
| `_add_lambda_and_factorize_hessian` | 211-237 | `Gqtpar.addDiag` |
| `_find_new_candidate_and_update_parameters` | 240-307 | `Gqtpar.findNew` |
| `_check_for_interior_convergence_and_update` | 310-341 | `Gqtpar.interiorCheck` |
| `_update_lambdas_when_factorization_unsuccessful` | 344-364 | `Gqtpar.failedUpdate` |
| `_get_new_lambda_candidate` | 368-384 | `Gqtpar.newLambda` |
| `_compute_gershgorin_bounds` | 388-410 | `Gqtpar.gershgorinLower`, `Gqtpar.gershgorinUpper` |
| `_compute_newton_step` | 414-428 | `Gqtpar.newtonStep` |
| `_update_candidate_and_parameters_when_candidate_within_trustregion` | 431-484 | `Gqtpar.addDiag`, `Gqtpar.withinUpdate` |
| `_compute_smallest_step_len_for_candidate_vector` | 488-511 | `Gqtpar.stepLen` |
| `_compute_terms_to_make_leading_submatrix_singular` | 514-560 | `Gqtpar.singularDelta`, `Gqtpar.singularVector` |
| `_estimate_condition` | 564-603 | `Gqtpar.conditionStep`, `Gqtpar.estimateCondition` |
| `_estimate_smallest_singular_value` | 606-652 | `Gqtpar.smallestSingular` |
| `_norm` | 656-662 | `ConjugateGradient.norm2` |
| `_identity` | 666-668 | `Gqtpar.addDiag` |

## subsolvers/linear_subsolvers.py

| function | lines | definitions of the model |
|---|---|---|
| `minimize_trsbox_linear` | 12-90 | `LinearTrsbox.linearTrsboxLoop`, `LinearTrsbox.linearDirection`, `LinearTrsbox.minimizeTrsboxLinear` |
| `improve_geomtery_trsbox_linear` | 93-178 | `LinearTrsbox.improveGeometryLinear` |
| `_find_next_active_bound` | 181-230 | `LinearTrsbox.scanBounds`, `LinearTrsbox.nextActiveBound` |
| `_take_constrained_step_up_to_boundary` | 233-262 | `LinearTrsbox.constrainedStep`, `LinearTrsbox.dropDirection` |
| `_take_unconstrained_step_up_to_boundary` | 265-286 | `LinearTrsbox.unconstrainedStep` |
| `_get_distance_to_trustregion_boundary` | 289-336 | `LinearTrsbox.linearDistance` |

## tranquilo.py

| function | lines | definitions of the model |
|---|---|---|
| `_tranquilo` | 22-24 | `TranquiloCall.tranquiloCall` |
| `_internal_tranquilo` | 27-395 | `Adjust.RadiusInput`, `Adjust.radiusAfter`, `Adjust.nEvalsAfter`, `BuiltinComponents.samplerCallKeys`, `BuiltinComponents.filterCallKeys`, `BuiltinComponents.varianceCallKeys`, `BuiltinComponents.acceptanceCallKeys`, `BuiltinRun.BuiltinSettings`, `BuiltinRun.builtinFilter`, `BuiltinRun.builtinSampleR`, `BuiltinRun.builtinFit`, `BuiltinRun.builtinSolve`, `BuiltinRun.builtinInit`, `BuiltinRun.builtinNoiseSigma`, `BuiltinRun.builtinRhoNoise`, `MainLoop.Config`, `MainLoop.Components`, `MainLoop.Msg`, `MainLoop.relStepLength`, `MainLoop.buildModel`, `MainLoop.dropLoop`, `MainLoop.stagnationRound`, `MainLoop.stagnationLoop`, `MainLoop.runDecider`, `MainLoop.buildPhase`, `MainLoop.iteration`, `MainLoop.runLoop`, `MainLoop.startRun`, `MainLoop.tranquilo`, `MainLoopRaise.ComponentsR`, `MainLoopRaise.relStepLengthR`, `MainLoopRaise.buildModelR`, `MainLoopRaise.dropLoopR`, `MainLoopRaise.stagnationKeepR`, `MainLoopRaise.stagnationRoundR`, `MainLoopRaise.stagnationLoopR`, `MainLoopRaise.noiseR`, `MainLoopRaise.runDeciderR`, `MainLoopRaise.buildPhaseR`, `MainLoopRaise.stateR`, `MainLoopRaise.nextNEvalsR`, `MainLoopRaise.endIterationR`, `MainLoopRaise.iterationR`, `MainLoopRaise.runLoopR`, `MainLoopRaise.startLogR`, `MainLoopRaise.startRunR`, `MainLoopRaise.tranquiloR`, `TranquiloCall.callConfig`, `TranquiloCall.callSettings` |
| `_is_converged` | 484-511 | `MainLoop.Msg`, `MainLoop.isConverged` |
| `_concatenate_indices` | 514-517 | `MainLoop.buildPhase` |
| `_get_additional_eval_info` | 520-538 | `MainLoop.additionalEvalInfo` |

## utilities.py

| function | lines | definitions of the model |
|---|---|---|
| `propose_alternatives` | 6-33 | `Components.getFunctionAndName` |
| `get_rng` | 36-53 | `Exploration.getRng` |

## visualize.py

| function | lines | definitions of the model |
|---|---|---|
| `visualize_tranquilo` | 17-117 | `Plots.paramsHistory`, `Plots.criterionHistory`, `Plots.plotCases` |
| `_plot_criterion` | 120-198 | `Plots.markers`, `Plots.CriterionPlot`, `Plots.criterionPlot` |
| `_plot_sample_points` | 201-268 | `Plots.circleCorners`, `Plots.samplePointsPlot`, `Plots.radiiPlot` |
| `_plot_radii` | 271-284 | `Plots.radiiPlot`, `Plots.rhosPlot` |
| `_plot_rhos` | 287-301 | `Plots.rhosPlot` |
| `_plot_fekete_criterion` | 304-317 | `Plots.feketePlot` |
| `_plot_clusters_points_ratio` | 320-371 | `Plots.distancesPlot`, `Plots.clusterRatio`, `Plots.clusterPlot` |
| `_plot_distances_from_center` | 374-420 | `Plots.distancesPlot` |
| `_get_fekete_criterion` | 423-434 | `Plots.feketePlot` |
| `_get_sample_points` | 437-457 | `Plots.samplePoints`, `Visualize.samplePointCases` |
| `plot_line_with_lighlighted_point` | 460-499 | `Plots.highlighted` |
| `_clean_legend_duplicates` | 502-513 | `Small.cleanLegendFrom`, `Small.cleanLegend` |
| `_process_results` | 516-537 | `Visualize.acceptedIndex` |
| `_find_indices_in_trust_region` | 541-571 | `Visualize.rowInCube`, `Visualize.findIndices` |
| `_find_index` | 574-583 | `Visualize.findIndexLoop`, `Visualize.findIndex` |
| `_get_model_indices` | 586-590 | `Visualize.appendIndex`, `Visualize.getModelIndices` |

## volume.py

| function | lines | definitions of the model |
|---|---|---|
| `get_radius_after_volume_scaling` | 13-15 | `BuiltinRun.keepClusterCenters`, `Volume.radiusAfterVolumeScaling` |
| `get_radius_of_sphere_with_volume_of_cube` | 18-28 | `Volume.radiusOfSphereWithVolumeOfCube` |
| `get_radius_of_cube_with_volume_of_sphere` | 31-41 | `Volume.radiusOfCubeWithVolumeOfSphere` |
| `get_volume` | 44-51 | `Volume.getVolume` |
| `get_radius` | 54-61 | `Volume.getRadius` |
| `_sphere_volume` | 64-66 | `Volume.sphereVolume` |
| `_cube_volume` | 69-71 | `Volume.cubeVolume` |
| `_sphere_radius` | 74-76 | `Volume.sphereRadius` |
| `_cube_radius` | 79-81 | `Volume.cubeRadiusOfVolume` |

## weighting.py

| function | lines | definitions of the model |
|---|---|---|
| `get_sample_weighter` | 4-23 | `Small.sampleWeighter` |
| `no_weights` | 26-27 | `Small.sampleWeighter` |

## wrap_criterion.py

| function | lines | definitions of the model |
|---|---|---|
| `get_wrapped_criterion` | 6-73 | `Log.evaluate`, `WrapCriterion.nanToInf`, `WrapCriterion.clipEval`, `WrapCriterion.wrapperCriterion` |
| `process_batch_evaluator` | 76-94 | `ProcessArgs.checkBatchEvaluator`, `WrapCriterion.processBatchEvaluator` |
