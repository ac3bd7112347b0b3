import Verif.Model.BuiltinComponents
import Verif.Model.Models
import Verif.Model.History

/-!
# `process_arguments`

Models process_arguments.py:36-381 and the defaults of options.py:7-108.

Simplifications: the start vector is a list of numbers (the conversion to a float array, line 260, is
not modelled); the random number generators, the wrapped criterion, `Bounds`, `Region` and the
objects that only pass through are left out; numbers in strings are read by `PyEnv`. A batch
evaluator given by name is only checked for its name.
-/

namespace Tranquilo

variable {K O R : Type} [Field K] [LinearOrder K] [FloorRing K]

/-- `v < bound` for a Python value and an integer. Comparisons with NaN are false; values that are
not numbers raise a `TypeError`. -/
def pyLt (v : PyVal K O) (bound : ℤ) : Except Err Bool :=
  match v with
  | .bool b => .ok (decide ((if b then 1 else 0) < bound))
  | .int i => .ok (decide (i < bound))
  | .flt (.fin x) => .ok (decide (x < (bound : K)))
  | .flt .ninf => .ok true
  | .flt _ => .ok false
  | _ => .error .typeError

/-- `v > bound` for a Python value and an integer. -/
def pyGt (v : PyVal K O) (bound : ℤ) : Except Err Bool :=
  match v with
  | .bool b => .ok (decide (bound < (if b then 1 else 0)))
  | .int i => .ok (decide (bound < i))
  | .flt (.fin x) => .ok (decide ((bound : K) < x))
  | .flt .pinf => .ok true
  | .flt _ => .ok false
  | _ => .error .typeError

/-- `get_default_model_type`, options.py:78-79. -/
def defaultModelType (functype : String) : String :=
  if functype = "scalar" then "quadratic" else "linear"

/-- `_process_model_type`, process_arguments.py:302-308. -/
def processModelType (modelType : PyVal K O) (functype : String) : Except Err String :=
  match modelType with
  | .none => .ok (defaultModelType functype)
  | .str s => if s = "linear" ∨ s = "quadratic" then .ok s else .error .valueError
  | _ => .error .valueError

/-- `_process_batch_size`, process_arguments.py:271-278, and options.py:34-35. -/
def processBatchSize (env : PyEnv K O) (batchSize : PyVal K O) (nCores : ℤ) : Except Err ℤ :=
  match batchSize with
  | .none => .ok nCores
  | b => do
    if ← pyLt b nCores then .error .valueError else toInt env b

/-- process_arguments.py:312-315, and options.py:74-75. -/
def rawSearchRadiusFactor (env : PyEnv K O) (factor : PyVal K O) (functype : String) :
    Except Err (XVal K) :=
  match factor with
  | .none => .ok (.fin (if functype = "scalar" then 17 / 4 else 5))
  | f => toFloat env f

/-- `_process_search_radius_factor`, process_arguments.py:311-320. -/
def processSearchRadiusFactor (env : PyEnv K O) (factor : PyVal K O) (functype : String) :
    Except Err (XVal K) := do
  let out ← rawSearchRadiusFactor env factor functype
  if out ≤ .fin 0 then .error .valueError else .ok out

/-- process_arguments.py:357-360, and options.py:103-104. -/
def rawNEvalsAtStart (env : PyEnv K O) (nEvals : PyVal K O) (noisy : Bool) : Except Err ℤ :=
  match nEvals with
  | .none => .ok (if noisy then 5 else 1)
  | v => toInt env v

/-- `_process_n_evals_at_start`, process_arguments.py:356-365. -/
def processNEvalsAtStart (env : PyEnv K O) (nEvals : PyVal K O) (noisy : Bool) : Except Err ℤ := do
  let out ← rawNEvalsAtStart env nEvals noisy
  if out < 1 then .error .valueError else .ok out

/-- process_arguments.py:373-376, and options.py:107-108. The default is the option `min_n_evals` of
the noise adaptation, as it is stored there. -/
def rawNEvalsPerPoint (env : PyEnv K O) (nEvals : PyVal K O) (noisy : Bool)
    (noiseOptions : Dict (PyVal K O)) : Except Err (PyVal K O) :=
  match nEvals with
  | .none => .ok (if noisy then (noiseOptions.lookup "min_n_evals").getD .none else .int 1)
  | v => (toInt env v).map .int

/-- `_process_n_evals_per_point`, process_arguments.py:372-381. -/
def processNEvalsPerPoint (env : PyEnv K O) (nEvals : PyVal K O) (noisy : Bool)
    (noiseOptions : Dict (PyVal K O)) : Except Err (PyVal K O) := do
  let out ← rawNEvalsPerPoint env nEvals noisy noiseOptions
  if ← pyLt out 1 then .error .valueError else .ok out

/-- `get_default_sample_size`, options.py:42-54. -/
def defaultSampleSize (modelType : String) (n : ℕ) (noisy : Bool) (batchSize : ℤ) : ℤ :=
  if modelType = "quadratic" then 2 * n + 1
  else if noisy || decide (1 < batchSize) then n + 1
  else n + 2

/-- The argument `sample_size`: a value or a callable. -/
inductive SampleSizeArg (K O : Type) where
  | value (v : PyVal K O)
  | callable (g : List K → String → Except Err (PyVal K O))

/-- `_process_sample_size`, process_arguments.py:290-299. -/
def processSampleSize (env : PyEnv K O) (sampleSize : SampleSizeArg K O) (modelType : String)
    (x : List K) (noisy : Bool) (batchSize : ℤ) : Except Err (PyVal K O) :=
  match sampleSize with
  | .value .none => .ok (.int (defaultSampleSize modelType x.length noisy batchSize))
  | .value v => (toInt env v).map .int
  | .callable g => g x modelType

/-- `get_default_model_fitter`, options.py:57-63. -/
def defaultModelFitter (modelType : String) (sampleSize : PyVal K O) (x : List K) :
    Except Err String := do
  let nParams ← nFreeParams x.length modelType
  if modelType = "linear" then .ok "ols"
  else if ← pyLt sampleSize (nParams : ℤ) then .ok "tranquilo"
  else match sampleSize with
    | .flt .nan => .ok "tranquilo"
    | _ => .ok "ols"

/-- `_process_model_fitter`, process_arguments.py:336-342. -/
def processModelFitter (fitter : Option (NameOrFunc (PyVal K O) R)) (modelType : String)
    (sampleSize : PyVal K O) (x : List K) : Except Err (NameOrFunc (PyVal K O) R) :=
  match fitter with
  | none => (defaultModelFitter modelType sampleSize x).map .str
  | some f => .ok f

/-- `_process_residualize`, process_arguments.py:345-353, and options.py:66-67. -/
def processResidualize (residualize : PyVal K O) (fitter : NameOrFunc (PyVal K O) R) :
    Except Err Bool :=
  match residualize, fitter with
  | .none, .str s => .ok (decide (s = "tranquilo"))
  | .none, _ => .ok false
  | .bool b, _ => .ok b
  | _, _ => .error .valueError

/-- `get_default_aggregator`, options.py:82-100. -/
def defaultAggregator (functype modelType : String) : Except Err String :=
  if functype = "scalar" ∧ modelType = "quadratic" then .ok "identity"
  else if functype = "least_squares" ∧ modelType = "linear" then .ok "least_squares_linear"
  else if functype = "likelihood" ∧ modelType = "linear" then .ok "information_equality_linear"
  else .error .notImplementedError

/-- `_process_seed(seed)` and `_process_seed(seed + 1000)`, process_arguments.py:135-136, 323-324:
which seeds are accepted. `default_rng` takes non-negative integers; `None` and generators fail in
`seed + 1000`. -/
def checkSeed (seed : PyVal K O) : Except Err Unit :=
  match seed with
  | .int i => if 0 ≤ i then .ok () else .error .valueError
  | .bool _ => .ok ()
  | _ => .error .typeError

/-- `get_infinity_handler`, handle_infinity.py:4-11. Unknown names raise a `KeyError`. -/
def checkInfinityHandler (handler : NameOrFunc (PyVal K O) R) : Except Err Unit :=
  match handler with
  | .str s => if s = "relative" then .ok () else .error .keyError
  | .callable _ => .ok ()
  | .other => .error .typeError

/-- `process_batch_evaluator`, wrap_criterion.py:76-94. `None` stands for the default. -/
def checkBatchEvaluator (b : Option (NameOrFunc (PyVal K O) R)) : Except Err Unit :=
  match b with
  | none => .ok ()
  | some (.str s) => if s = "joblib" ∨ s = "pathos" then .ok () else .error .valueError
  | some (.callable _) => .ok ()
  | some .other => .error .typeError

/-- `0.1 * np.max(np.abs(x))`, options.py:31. The maximum of an empty array is a `ValueError`. -/
def defaultInitialRadius : List K → Except Err K
  | [] => .error .valueError
  | a :: rest => .ok (1 / 10 * (rest.foldl (fun m b => max m |b|) |a|))

/-- The arguments of `process_arguments`, process_arguments.py:36-91, with their defaults. -/
structure Arguments (K O R : Type) [Field K] where
  functype : String
  x : List K
  noisy : PyVal K O := .bool false
  disableConvergence : PyVal K O := .bool false
  ftolAbs : PyVal K O := .flt (.fin 0)
  gtolAbs : PyVal K O := .flt (.fin 0)
  xtolAbs : PyVal K O := .flt (.fin 0)
  ftolRel : PyVal K O := .flt (.fin (2 / 10 ^ 9))
  gtolRel : PyVal K O := .flt (.fin (1 / 10 ^ 8))
  xtolRel : PyVal K O := .flt (.fin (1 / 10 ^ 8))
  minRadius : PyVal K O := .flt (.fin 0)
  maxEval : PyVal K O := .int 2000
  maxIter : PyVal K O := .int 200
  maxTime : PyVal K O := .flt .pinf
  batchEvaluator : Option (NameOrFunc (PyVal K O) R) := some (.str "joblib")
  nCores : PyVal K O := .int 1
  batchSize : PyVal K O := .none
  sampleSize : SampleSizeArg K O := .value .none
  modelType : PyVal K O := .none
  searchRadiusFactor : PyVal K O := .none
  nEvalsPerPoint : PyVal K O := .none
  nEvalsAtStart : PyVal K O := .none
  seed : PyVal K O := .int 925408
  radiusOptions : Option (UserOptions K O) := none
  stagnationOptions : Option (UserOptions K O) := none
  noiseAdaptationOptions : Option (UserOptions K O) := none
  sampler : NameOrFunc (PyVal K O) R := .str "optimal_hull"
  samplerOptions : Option (UserOptions K O) := none
  sampleFilter : Option (NameOrFunc (PyVal K O) R) := none
  sampleFilterOptions : Option (UserOptions K O) := none
  modelFitter : Option (NameOrFunc (PyVal K O) R) := none
  modelFitterOptions : Option (UserOptions K O) := none
  cubeSubsolver : NameOrFunc (PyVal K O) R := .str "bntr_fast"
  sphereSubsolver : NameOrFunc (PyVal K O) R := .str "gqtpar_fast"
  retryWithFallback : PyVal K O := .bool true
  subsolverOptions : Option (UserOptions K O) := none
  acceptanceDecider : Option (NameOrFunc (PyVal K O) R) := none
  acceptanceDeciderOptions : Option (UserOptions K O) := none
  varianceEstimator : NameOrFunc (PyVal K O) R := .str "classic"
  varianceEstimatorOptions : Option (UserOptions K O) := none
  infinityHandler : NameOrFunc (PyVal K O) R := .str "relative"
  residualize : PyVal K O := .none

/-- The result of `process_arguments`, process_arguments.py:229-256, without the objects that are
left out (see the head of the file). -/
structure ProcessedArguments (K O R : Type) where
  noisy : Bool
  nCores : ℤ
  disableConvergence : Bool
  ftolAbs : XVal K
  gtolAbs : XVal K
  xtolAbs : XVal K
  ftolRel : XVal K
  gtolRel : XVal K
  xtolRel : XVal K
  maxIter : ℤ
  maxEval : ℤ
  radiusOptions : Dict (PyVal K O)
  batchSize : ℤ
  targetSampleSize : PyVal K O
  stagnationOptions : Dict (PyVal K O)
  noiseAdaptationOptions : Dict (PyVal K O)
  searchRadiusFactor : XVal K
  nEvalsPerPoint : PyVal K O
  nEvalsAtStart : ℤ
  functype : Functype
  modelType : String
  fitterName : NameOrFunc (PyVal K O) R
  residualize : Bool
  aggregator : String
  samplePoints : Component (PyVal K O) R
  sphereSolver : Component (PyVal K O) R
  cubeSolver : Component (PyVal K O) R
  retryWithFallback : Bool
  filterPoints : Component (PyVal K O) R
  rawFitter : Component (PyVal K O) R
  estimateVariance : Component (PyVal K O) R
  acceptCandidate : Component (PyVal K O) R

/-- `process_arguments`, process_arguments.py:36-256, with the short functions in lines 259-268, 281-287 and
327-333, and options.py:26-27, 38-39. `beh c s` is the behaviour of the function that is registered for component `c` under the name `s`. -/
def processArguments (env : PyEnv K O)
    (beh : String → String → Dict (PyVal K O) → Except Err R) (a : Arguments K O R) :
    Except Err (ProcessedArguments K O R) := do
  -- lines 93-110: the warnings compare n_cores with 1
  let _ ← pyGt a.nCores 1
  -- lines 113-129
  let ftolAbs ← toFloat env a.ftolAbs
  let gtolAbs ← toFloat env a.gtolAbs
  let xtolAbs ← toFloat env a.xtolAbs
  let ftolRel ← toFloat env a.ftolRel
  let gtolRel ← toFloat env a.gtolRel
  let xtolRel ← toFloat env a.xtolRel
  let _ ← toFloat env a.minRadius
  let maxIter ← toInt env a.maxIter
  let maxEval ← toInt env a.maxEval
  let _ ← toFloat env a.maxTime
  -- lines 132-150
  let noisy := toBool env a.noisy
  let nCores ← toInt env a.nCores
  checkSeed a.seed
  let nEvalsAtStart ← processNEvalsAtStart env a.nEvalsAtStart noisy
  let noiseOptions ← updateOptionBundle env noiseAdaptationDefaults a.noiseAdaptationOptions
  let nEvalsPerPoint ← processNEvalsPerPoint env a.nEvalsPerPoint noisy noiseOptions
  -- lines 153-157
  let searchRadiusFactor ← processSearchRadiusFactor env a.searchRadiusFactor a.functype
  let batchSize ← processBatchSize env a.batchSize nCores
  let initialRadius ← defaultInitialRadius a.x
  let radiusOptions ← updateOptionBundle env (radiusDefaults initialRadius) a.radiusOptions
  let modelType ← processModelType a.modelType a.functype
  let decider := a.acceptanceDecider.getD (.str (if noisy then "noisy" else "classic"))
  -- lines 160-174
  let filter := a.sampleFilter.getD (.str (if 1 < batchSize then "drop_excess" else "keep_all"))
  let stagnationOptions ←
    updateOptionBundle env (stagnationDefaults noisy batchSize) a.stagnationOptions
  let sampleSize ← processSampleSize env a.sampleSize modelType a.x noisy batchSize
  let fitter ← processModelFitter a.modelFitter modelType sampleSize a.x
  let residualize ← processResidualize a.residualize fitter
  -- lines 177-226
  let functype ← Functype.parse a.functype
  checkBatchEvaluator a.batchEvaluator
  let samplePoints ← getSampler env (beh "sampler") a.sampler a.samplerOptions
  let sphereSolver ← getSphereSolver env (beh "sphere_solver") a.sphereSubsolver a.subsolverOptions
  let cubeSolver ← getCubeSolver env (beh "cube_solver") a.cubeSubsolver a.subsolverOptions
  let filterPoints ← getSampleFilter env (beh "sample_filter") filter a.sampleFilterOptions
  let rawFitter ← getRawFitter env (beh "fitter") fitter a.modelFitterOptions
  checkInfinityHandler a.infinityHandler
  let aggregator ← defaultAggregator a.functype modelType
  let estimateVariance ← getVarianceEstimator env (beh "variance estimator") a.varianceEstimator
    a.varianceEstimatorOptions
  let acceptCandidate ← getAcceptanceDecider env (beh "acceptance_decider") decider
    a.acceptanceDeciderOptions
  pure { noisy, nCores, disableConvergence := toBool env a.disableConvergence, ftolAbs, gtolAbs, xtolAbs,
         ftolRel, gtolRel, xtolRel, maxIter, maxEval, radiusOptions, batchSize, targetSampleSize := sampleSize,
         stagnationOptions, noiseAdaptationOptions := noiseOptions, searchRadiusFactor,
         nEvalsPerPoint, nEvalsAtStart, functype, modelType, fitterName := fitter, residualize,
         aggregator, samplePoints, sphereSolver, cubeSolver,
         retryWithFallback := toBool env a.retryWithFallback, filterPoints, rawFitter,
         estimateVariance, acceptCandidate }

end Tranquilo
