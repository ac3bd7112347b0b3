import Verif.Model.ProcessArgs
import Verif.Model.BuiltinRun
import Verif.Model.Fallback

/-!
# A call of the optimizer

`_tranquilo` (tranquilo.py:21-24): the arguments are processed, then the main loop runs with the result. This file
translates the result of `processArguments` (values of Python, components with bound options) into the options
`Config` and `BuiltinSettings` of the modelled main loop.

Simplifications: values that `Config` and `BuiltinSettings` do not represent (infinite or NaN where a number is
expected, negative sizes, names of distributions that are not strings, components that are not built in) give
`none`, that is, the call is outside of what is modelled. The random number generators and the evaluations are
functions of `Externals`.
-/

namespace Tranquilo

variable {K O : Type} [Field K] [LinearOrder K] {n m : Nat}

/-- A built in component with its options. -/
inductive Piece (K : Type) (n : Nat) where
  | sampler (s : BuiltInSampler K n)
  | filter (f : FilterChoice K)
  | fitter (f : FitterChoice K)
  | solver (s : SubSolver K n)
  | variance (maxDistanceFactor : K) (minNEvals : ℤ)
  | decider (d : DeciderChoice K)

/-- The sampler. -/
def Piece.sampler? : Piece K n → Option (BuiltInSampler K n)
  | .sampler s => some s
  | _ => none

/-- The filter. -/
def Piece.filter? : Piece K n → Option (FilterChoice K)
  | .filter f => some f
  | _ => none

/-- The fitter. -/
def Piece.fitter? : Piece K n → Option (FitterChoice K)
  | .fitter f => some f
  | _ => none

/-- The solver. -/
def Piece.solver? : Piece K n → Option (SubSolver K n)
  | .solver s => some s
  | _ => none

/-- The options of the variance estimator. -/
def Piece.variance? : Piece K n → Option (K × ℤ)
  | .variance f k => some (f, k)
  | _ => none

/-- The acceptance decider. -/
def Piece.decider? : Piece K n → Option (DeciderChoice K)
  | .decider d => some d
  | _ => none

/-- Functions of numpy and scipy, random numbers, and the criterion: the fields of `BuiltinSettings` that are not
options. `quantile` is `scipy.stats.norm.ppf` (acceptance_sample_size.py:62-66), `minimize` is
`scipy.optimize.minimize` as called by the optimal sampler (given `algorithm` and `algo_options`), `scipy` as called by
the fallback solvers. `solver` are the registered subsolvers, by name and options. -/
structure Externals (K O : Type) (n m : Nat) where
  nrm : Vec K n → K
  root : K → K
  radial : K → K
  cubeRadius : K → K
  dimRoot : K → K
  lstsq : Lstsq K
  qr : (N : Nat) → (Fin N → Vec K n) → Mat K N N
  oracle : Oracle K n
  data : Log K n → Nat → Fin m → XVal K
  start : Log K n → Vec K m
  fvecs : Log K n → Nat → List (Fin m → XVal K)
  rng : Nat → Nat → Log K n → SampleRng K n
  draws : Nat → Log K n → (N : Nat) → Mat K m m → Nat → List (Fin N → Vec K m)
  covOfOne : (Fin m → XVal K) → Fin m → Fin m → XVal K
  quantile : K → K
  logsumexp : List K → K
  minimize : PyVal K O → PyVal K O → (List (Row K n) → XVal K) → List (Row K n) → List (Row K n)
  scipy : ScipyMinimize K n
  solver : String → Dict (PyVal K O) → SubSolver K n

/-! ## Reading options -/

/-- An option that is a finite number. -/
def numOf (d : Dict (PyVal K O)) (key : String) : Option K :=
  match d.lookup key with
  | some (.flt (.fin q)) => some q
  | some (.int i) => some i
  | _ => none

/-- An option that is an integer. -/
def intOf (d : Dict (PyVal K O)) (key : String) : Option ℤ :=
  match d.lookup key with
  | some (.int i) => some i
  | _ => none

/-- A size. -/
def sizeOf? (i : ℤ) : Option Nat := if 0 ≤ i then some i.toNat else none

/-- An option that is a size. -/
def natOf (d : Dict (PyVal K O)) (key : String) : Option Nat := (intOf d key).bind sizeOf?

/-- An option that is a truth value. -/
def boolOf (d : Dict (PyVal K O)) (key : String) : Option Bool :=
  match d.lookup key with
  | some (.bool b) => some b
  | _ => none

/-- An option that is a number or infinite. -/
def ratioOf (d : Dict (PyVal K O)) (key : String) : Option (XVal K) :=
  match d.lookup key with
  | some (.flt .nan) => none
  | some (.flt q) => some q
  | _ => none

/-- An option that is a name. -/
def strOf (d : Dict (PyVal K O)) (key : String) : Option String :=
  match d.lookup key with
  | some (.str s) => some s
  | _ => none

/-- An option that is a name or `None`. -/
def nameOf (d : Dict (PyVal K O)) (key : String) : Option (Option String) :=
  match d.lookup key with
  | some .none => some none
  | some (.str s) => some (some s)
  | _ => none

/-- The criterion of the optimal sampler, sample_points.py:241-242, 272-279. -/
def criterionOf (name : Option String) : Option (Option SampleCriterion) :=
  if name = none then some none
  else if name = some "determinant" then some (some .determinant)
  else if name = some "distance" then some (some .distance)
  else none

/-! ## The registered functions -/

/-- The samplers, sample_points.py:33-37; options 58-63, 141-147, 175-187. -/
def samplerPiece (ext : Externals K O n m) (name : String) (d : Dict (PyVal K O)) : Option (Piece K n) :=
  if name = "random_interior" then some (.sampler .randomInterior)
  else if name = "random_hull" then (nameOf d "distribution").map fun dist => .sampler (.randomHull dist)
  else if name = "optimal_hull" then do
    let dist ← nameOf d "distribution"
    let hardness ← numOf d "hardness"
    let criterion ← (nameOf d "criterion").bind criterionOf
    let nPoints ← natOf d "n_points_randomsearch"
    let algorithm ← d.lookup "algorithm"
    let algoOptions ← d.lookup "algo_options"
    pure (.sampler (.optimalHull
      { distribution := dist, hardness := hardness, criterion := criterion, nPointsRandomsearch := nPoints
        logsumexp := ext.logsumexp, minimize := ext.minimize algorithm algoOptions }))
  else none

/-- The filters, filter_points.py:27-32. -/
def filterPiece (name : String) (d : Dict (PyVal K O)) : Option (Piece K n) :=
  if name = "discard_all" then some (.filter .discardAll)
  else if name = "keep_all" then some (.filter .keepAll)
  else if name = "clustering" then do
    let strictness ← numOf d "strictness"
    let shape ← strOf d "shape"
    pure (.filter (.clustering strictness shape))
  else if name = "drop_excess" then do
    let f ← numOf d "n_max_factor"
    pure (.filter (.dropExcess f))
  else none

/-- The fitters, fit_models.py:54-59. -/
def fitterPiece (name : String) (d : Dict (PyVal K O)) : Option (Piece K n) :=
  if name = "ols" then some (.fitter .ols)
  else if name = "powell" then some (.fitter .powell)
  else if name = "ridge" then do
    let l ← numOf d "l2_penalty_linear"
    let s ← numOf d "l2_penalty_square"
    pure (.fitter (.ridge l s))
  else if name = "tranquilo" then do
    let i ← numOf d "p_intercept"
    let l ← numOf d "p_linear"
    let s ← numOf d "p_square"
    pure (.fitter (.tranquilo i l s))
  else none

/-- The variance estimators, estimate_variance.py:13-15. -/
def variancePiece (name : String) (d : Dict (PyVal K O)) : Option (Piece K n) :=
  if name = "classic" then do
    let f ← numOf d "max_distance_factor"
    let k ← intOf d "min_n_evals"
    pure (.variance f k)
  else none

/-- The acceptance deciders, acceptance_decision.py:23-28. The levels become quantiles,
acceptance_sample_size.py:14-21, 62-66. -/
def deciderPiece (ext : Externals K O n m) (name : String) (d : Dict (PyVal K O)) : Option (Piece K n) := do
  let mi ← numOf d "min_improvement"
  if name = "classic" then some (.decider (.classic mi))
  else if name = "naive_noisy" then some (.decider (.naiveNoisy mi))
  else if name = "noisy" then do
    let confidence ← numOf d "confidence_level"
    let power ← numOf d "power_level"
    let nMin ← natOf d "n_min"
    let nMax ← natOf d "n_max"
    pure (.decider (.noisy mi (ext.quantile confidence) (ext.quantile power) nMin nMax))
  else if name = "classic_line_search" then do
    let f ← numOf d "speculative_sampling_radius_factor"
    pure (.decider (.lineSearch mi f))
  else none

/-- What the registered functions do with their options (the other arguments are those of the loop). -/
def pieces (ext : Externals K O n m) (component name : String) (d : Dict (PyVal K O)) :
    Except Err (Option (Piece K n)) :=
  .ok (if component = "sampler" then samplerPiece ext name d
    else if component = "sample_filter" then filterPiece name d
    else if component = "fitter" then fitterPiece name d
    else if component = "variance estimator" then variancePiece name d
    else if component = "acceptance_decider" then deciderPiece ext name d
    else if component = "sphere_solver" ∨ component = "cube_solver" then
      some (.solver (ext.solver name d))
    else none)

/-- The component that runs when the loop calls it with the given keywords. -/
def calledPiece (c : Component (PyVal K O) (Option (Piece K n))) (keys : List String) : Option (Piece K n) :=
  match c.call [] (keys.map fun k => (k, .none)) with
  | .ok (some p) => some p
  | _ => none

/-! ## The options of the loop -/

/-- `RadiusOptions` without the initial radius, options.py:132-143. -/
def callRadius (d : Dict (PyVal K O)) : Option (RadiusOptions K) := do
  let maxRadius ← numOf d "max_radius"
  let minRadius ← numOf d "min_radius"
  let rhoDecrease ← numOf d "rho_decrease"
  let rhoIncrease ← numOf d "rho_increase"
  let shrinkingFactor ← numOf d "shrinking_factor"
  let expansionFactor ← numOf d "expansion_factor"
  let largeStep ← numOf d "large_step"
  let maxRadiusToStepRatio ← ratioOf d "max_radius_to_step_ratio"
  pure { maxRadius, minRadius, rhoDecrease, rhoIncrease, shrinkingFactor, expansionFactor, largeStep,
         maxRadiusToStepRatio }

/-- `StagnationOptions`, options.py:156-161. -/
def callStagnation (d : Dict (PyVal K O)) : Option (StagnationOptions K) := do
  let minRelativeStepKeep ← numOf d "min_relative_step_keep"
  let drop ← boolOf d "drop"
  let minRelativeStep ← numOf d "min_relative_step"
  let sampleIncrement ← natOf d "sample_increment"
  let maxTrials ← natOf d "max_trials"
  pure { minRelativeStepKeep, drop, minRelativeStep, sampleIncrement, maxTrials }

/-- The fields of `NoiseAdaptationOptions` for the number of evaluations, options.py:206-215. -/
def callNoise (d : Dict (PyVal K O)) : Option (NEvalsOptions K) := do
  let highRho ← numOf d "high_rho"
  let lowRho ← numOf d "low_rho"
  let minShareHighRho ← numOf d "min_share_high_rho"
  let minShareLowRho ← numOf d "min_share_low_rho"
  let minNEvals ← intOf d "min_n_evals"
  let maxNEvals ← intOf d "max_n_evals"
  let goodRhoThreshold ← numOf d "good_rho_threshold"
  pure { highRho, lowRho, minShareHighRho, minShareLowRho, minNEvals, maxNEvals, goodRhoThreshold }

/-- An integer. -/
def PyVal.int? : PyVal K O → Option ℤ
  | .int i => some i
  | _ => Option.none

/-- A finite number. -/
def XVal.number? : XVal K → Option K
  | .fin q => some q
  | _ => Option.none

/-- `ConvOptions`, options.py:119-129. -/
def callConv {R : Type} (p : ProcessedArguments K O R) : Option (ConvOptions K) := do
  let ftolAbs ← p.ftolAbs.number?
  let gtolAbs ← p.gtolAbs.number?
  let xtolAbs ← p.xtolAbs.number?
  let ftolRel ← p.ftolRel.number?
  let gtolRel ← p.gtolRel.number?
  let xtolRel ← p.xtolRel.number?
  pure { disable := p.disableConvergence, ftolAbs, gtolAbs, xtolAbs, ftolRel, gtolRel, xtolRel }

/-- The arguments of `_internal_tranquilo` that are data, tranquilo.py:27-52. -/
def callConfig (p : ProcessedArguments K O (Option (Piece K n))) : Option (Config K) := do
  let conv ← callConv p
  let radius ← callRadius p.radiusOptions
  let noise ← callNoise p.noiseAdaptationOptions
  let stagnation ← callStagnation p.stagnationOptions
  let batchSize ← sizeOf? p.batchSize
  let targetSize ← p.targetSampleSize.int?.bind sizeOf?
  let searchRadiusFactor ← p.searchRadiusFactor.number?
  let nEvalsPerPoint ← p.nEvalsPerPoint.int?
  let nEvalsAtStart ← sizeOf? p.nEvalsAtStart
  let decider ← (calledPiece p.acceptCandidate acceptanceCallKeys).bind Piece.decider?
  pure { noisy := p.noisy, conv, maxIter := p.maxIter.toNat, maxEval := p.maxEval.toNat, radius, noise,
         batchSize, targetSize, stagnation, searchRadiusFactor, nEvalsPerPoint, nEvalsAtStart, decider }

/-- The name of a model type, process_arguments.py:302-308. -/
def modelTypeOf (name : String) : Option ModelType :=
  if name = "linear" then some .linear else if name = "quadratic" then some .quadratic else none

/-- The components of `_internal_tranquilo`, tranquilo.py:27-52. The fallback solvers are those of
solve_subproblem.py:108-122. -/
def callSettings (ext : Externals K O n m) (p : ProcessedArguments K O (Option (Piece K n))) :
    Option (BuiltinSettings K n m) := do
  let sampler ← (calledPiece p.samplePoints samplerCallKeys).bind Piece.sampler?
  let filter ← (calledPiece p.filterPoints filterCallKeys).bind Piece.filter?
  let fitter ← (calledPiece p.rawFitter fitterCallKeys).bind Piece.fitter?
  let sphere ← (calledPiece p.sphereSolver subsolverCallKeys).bind Piece.solver?
  let cube ← (calledPiece p.cubeSolver subsolverCallKeys).bind Piece.solver?
  let variance ← (calledPiece p.estimateVariance varianceCallKeys).bind Piece.variance?
  let modelType ← modelTypeOf p.modelType
  let nDraws ← intOf p.noiseAdaptationOptions "rho_noise_n_draws"
  let ignoreCorrelation ← boolOf p.noiseAdaptationOptions "ignore_corelation"
  pure
    { nrm := ext.nrm, root := ext.root, radial := ext.radial, cubeRadius := ext.cubeRadius
      dimRoot := ext.dimRoot, lstsq := ext.lstsq, qr := ext.qr, oracle := ext.oracle, data := ext.data
      start := ext.start, filter, sampler, rng := ext.rng, fitter, modelType, residualize := p.residualize
      aggregator := p.aggregator, sphere, cube
      fallbackSphere := inscribedCubeSolver ext.root ext.scipy
      fallbackCube := fallbackCubeSolver ext.scipy
      retry := p.retryWithFallback, fvecs := ext.fvecs, noiseDistance := variance.1
      noiseMinEvals := variance.2, covOfOne := ext.covOfOne, draws := ext.draws, nDraws
      ignoreCorrelation }

/-- `_tranquilo`, tranquilo.py:21-24, for the start vector `x` and the bounds; `none` if the options are outside of
what is modelled. -/
def tranquiloCall [FloorRing K] (env : PyEnv K O) (ext : Externals K O n m)
    (a : Arguments K O (Option (Piece K n))) (x : Vec K n) (bounds : Bounds K n) :
    Except Err (Option (Run K n (VectorModel K n m) (ScalarModel K n))) := do
  let p ← processArguments env (pieces ext) { a with x := List.ofFn x }
  match callConfig p, callSettings ext p, numOf p.radiusOptions "initial_radius" with
  | some c, some b, some radius => (tranquiloR c (builtinComponents b) x radius bounds).map some
  | _, _, _ => .ok none

end Tranquilo
