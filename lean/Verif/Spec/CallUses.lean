import Verif.Model.TranquiloCall
import Verif.Spec.Components

/-!
# Specification: what a run uses of the arguments of a call

Used by the statements of C118. The names and defaults are those of the signature of `process_arguments`
(process_arguments.py:36-91) and of the option classes (options.py:119-215); they are repeated here, the tables of the
model are not used.
-/

namespace Tranquilo

variable {K O : Type} [Field K] [LinearOrder K] [FloorRing K] {n m : Nat}

/-- `float(v)` is `q`. -/
def ReadsFloat (env : PyEnv K O) (v : PyVal K O) (q : K) : Prop :=
  StoredAs env (.flt (.fin 0)) v (.flt (.fin q))

/-- `int(v)` is `i`. -/
def ReadsInt (env : PyEnv K O) (v : PyVal K O) (i : ℤ) : Prop :=
  StoredAs env (.int 0) v (.int i) ∨ (v = .bool true ∧ i = 1) ∨ (v = .bool false ∧ i = 0)

/-- `bool(v)` is `b`. -/
def ReadsBool (env : PyEnv K O) (v : PyVal K O) (b : Bool) : Prop :=
  StoredAs env (.bool false) v (.bool b)

/-- The user passed a dict or a `NamedTuple` with the entries `d`. -/
def Gives (user : Option (UserOptions K O)) (d : Dict (PyVal K O)) : Prop :=
  user = some (.dict d) ∨ user = some (.namedTuple d)

/-- `w` is the value of an option: what the user gave for its name, stored with the type of the default, and the default
if the user gave nothing. -/
def InForce (env : PyEnv K O) (user : Option (UserOptions K O)) (name : String) (default w : PyVal K O) : Prop :=
  (w = default ∧ (user = none ∨ ∃ d, Gives user d ∧ d.lookup name = none)) ∨
  ∃ d v, Gives user d ∧ d.lookup name = some v ∧ StoredAs env default v w

/-- The option is in force with the value `w`, where an integer counts as a number (`1 == 1.0`). -/
def Uses (env : PyEnv K O) (user : Option (UserOptions K O)) (name : String) (default w : PyVal K O) : Prop :=
  InForce env user name default w ∨ ∃ i : ℤ, InForce env user name default (.int i) ∧ w = .flt (.fin i)

/-- The number `q` as a value of Python. -/
def num (q : K) : PyVal K O := .flt (.fin q)

/-- The options of the radius, with the default `initial` of the initial radius: name, default, and what a run with
initial radius `radius` and options `o` uses. -/
def radiusTable (initial radius : K) (o : RadiusOptions K) : List (String × PyVal K O × PyVal K O) :=
  [("initial_radius", num initial, num radius),
   ("min_radius", num (1 / 10 ^ 6), num o.minRadius),
   ("max_radius", num (10 ^ 6), num o.maxRadius),
   ("rho_decrease", num (1 / 10), num o.rhoDecrease),
   ("rho_increase", num (1 / 10), num o.rhoIncrease),
   ("shrinking_factor", num (1 / 2), num o.shrinkingFactor),
   ("expansion_factor", num 2, num o.expansionFactor),
   ("large_step", num (1 / 2), num o.largeStep),
   ("max_radius_to_step_ratio", .flt .pinf, .flt o.maxRadiusToStepRatio)]

/-- The options of the stagnation. -/
def stagnationTable (noisy : Bool) (batchSize : ℕ) (o : StagnationOptions K) :
    List (String × PyVal K O × PyVal K O) :=
  [("min_relative_step_keep", num (if noisy = true ∨ 1 < batchSize then 0 else 1 / 8),
      num o.minRelativeStepKeep),
   ("drop", .bool (!noisy), .bool o.drop),
   ("min_relative_step", num (1 / 20), num o.minRelativeStep),
   ("sample_increment", .int 1, .int o.sampleIncrement),
   ("max_trials", .int 1, .int o.maxTrials)]

/-- The options of the noise adaptation. `ignore_corelation` is spelled like this in the code. -/
def noiseTable (o : NEvalsOptions K) (nDraws : ℤ) (ignoreCorrelation : Bool) :
    List (String × PyVal K O × PyVal K O) :=
  [("rho_noise_n_draws", .int 100, .int nDraws),
   ("high_rho", num (3 / 5), num o.highRho),
   ("low_rho", num (1 / 10), num o.lowRho),
   ("ignore_corelation", .bool true, .bool ignoreCorrelation),
   ("min_share_high_rho", num (7 / 10), num o.minShareHighRho),
   ("min_share_low_rho", num (9 / 10), num o.minShareLowRho),
   ("min_n_evals", .int 1, .int o.minNEvals),
   ("max_n_evals", .int 30, .int o.maxNEvals),
   ("good_rho_threshold", num (1 / 10), num o.goodRhoThreshold)]

/-- All options of a table are used. -/
def UsesAll (env : PyEnv K O) (user : Option (UserOptions K O))
    (table : List (String × PyVal K O × PyVal K O)) : Prop :=
  ∀ e ∈ table, Uses env user e.1 e.2.1 e.2.2

/-- An optional name as a value of Python. -/
def pyName : Option String → PyVal K O
  | none => .none
  | some s => .str s

/-- `determinant`, `distance`, or chosen by the number of points. -/
def criterionName : Option SampleCriterion → Option String
  | none => none
  | some .determinant => some "determinant"
  | some .distance => some "distance"

/-- The sampler that runs under a name with the options `user`. -/
inductive SamplerIs (env : PyEnv K O) (ext : Externals K O n m) (user : Option (UserOptions K O)) :
    String → BuiltInSampler K n → Prop
  | interior : SamplerIs env ext user "random_interior" .randomInterior
  | hull (dist) : Uses env user "distribution" .none (pyName dist) →
      SamplerIs env ext user "random_hull" (.randomHull dist)
  | optimal (dist hardness criterion nPoints algorithm algoOptions) :
      UsesAll env user
        [("distribution", .none, pyName dist), ("hardness", .int 1, num hardness),
         ("algorithm", .str "L-BFGS-B", algorithm), ("algo_options", .none, algoOptions),
         ("criterion", .none, pyName (criterionName criterion)),
         ("n_points_randomsearch", .int 1, .int (nPoints : ℕ))] →
      SamplerIs env ext user "optimal_hull" (.optimalHull
        { distribution := dist, hardness := hardness, criterion := criterion, nPointsRandomsearch := nPoints
          logsumexp := ext.logsumexp, minimize := ext.minimize algorithm algoOptions })

/-- The filter. -/
inductive FilterIs (env : PyEnv K O) (user : Option (UserOptions K O)) : String → FilterChoice K → Prop
  | discardAll : FilterIs env user "discard_all" .discardAll
  | keepAll : FilterIs env user "keep_all" .keepAll
  | clustering (strictness shape) :
      UsesAll env user [("strictness", num (1 / 10 ^ 10), num strictness), ("shape", .str "sphere", .str shape)] →
      FilterIs env user "clustering" (.clustering strictness shape)
  | dropExcess (factor) : Uses env user "n_max_factor" (.int 3) (num factor) →
      FilterIs env user "drop_excess" (.dropExcess factor)

/-- The fitter. -/
inductive FitterIs (env : PyEnv K O) (user : Option (UserOptions K O)) : String → FitterChoice K → Prop
  | ols : FitterIs env user "ols" .ols
  | powell : FitterIs env user "powell" .powell
  | ridge (linear square) :
      UsesAll env user [("l2_penalty_linear", num 0, num linear), ("l2_penalty_square", num (1 / 10), num square)] →
      FitterIs env user "ridge" (.ridge linear square)
  | tranquilo (intercept linear square) :
      UsesAll env user [("p_intercept", num (1 / 20), num intercept), ("p_linear", num (2 / 5), num linear),
        ("p_square", num 1, num square)] →
      FitterIs env user "tranquilo" (.tranquilo intercept linear square)

/-- The acceptance decider. The noisy decider works with the quantiles of its two levels. -/
inductive DeciderIs (env : PyEnv K O) (ext : Externals K O n m) (user : Option (UserOptions K O)) :
    String → DeciderChoice K → Prop
  | classic (mi) : Uses env user "min_improvement" (num 0) (num mi) → DeciderIs env ext user "classic" (.classic mi)
  | naiveNoisy (mi) : Uses env user "min_improvement" (num 0) (num mi) →
      DeciderIs env ext user "naive_noisy" (.naiveNoisy mi)
  | noisy (mi confidence power nMin nMax) :
      UsesAll env user
        [("min_improvement", num 0, num mi), ("confidence_level", num (19 / 20), num confidence),
         ("power_level", num (19 / 20), num power), ("n_min", .int 4, .int (nMin : ℕ)),
         ("n_max", .int 50, .int (nMax : ℕ))] →
      DeciderIs env ext user "noisy" (.noisy mi (ext.quantile confidence) (ext.quantile power) nMin nMax)
  | lineSearch (mi factor) :
      UsesAll env user
        [("min_improvement", num 0, num mi), ("speculative_sampling_radius_factor", num (3 / 4), num factor)] →
      DeciderIs env ext user "classic_line_search" (.lineSearch mi factor)

/-- The options of a subsolver, with their defaults. -/
def solverOptions (name : String) : List (String × PyVal K O) :=
  if name = "gqtpar" ∨ name = "gqtpar_fast" then
    [("k_easy", num (1 / 10)), ("k_hard", num (1 / 5)), ("maxiter", .int 20)]
  else if name = "bntr" ∨ name = "bntr_fast" then
    [("conjugate_gradient_method", .str "cg"), ("maxiter", .int 20), ("maxiter_gradient_descent", .int 5),
     ("gtol_abs", num (1 / 10 ^ 8)), ("gtol_rel", num (1 / 10 ^ 8)), ("gtol_scaled", num 0),
     ("gtol_abs_conjugate_gradient", num (1 / 10 ^ 8)), ("gtol_rel_conjugate_gradient", num (1 / 10 ^ 6))]
  else []

/-- The subsolver is the one registered under the name, called with its options. -/
def SolverIs (env : PyEnv K O) (ext : Externals K O n m) (user : Option (UserOptions K O)) (name : String)
    (solver : SubSolver K n) : Prop :=
  ∃ d, solver = ext.solver name d ∧
    ∀ e ∈ (solverOptions name : List (String × PyVal K O)), ∃ w, d.lookup e.1 = some w ∧
      InForce env user e.1 e.2 w

/-- The type of the model: what the user chose, or quadratic for scalar functions and linear otherwise. -/
inductive ModelTypeIs (functype : String) : PyVal K O → ModelType → Prop
  | linear : ModelTypeIs functype (.str "linear") .linear
  | quadratic : ModelTypeIs functype (.str "quadratic") .quadratic
  | scalar : functype = "scalar" → ModelTypeIs functype .none .quadratic
  | vector : functype ≠ "scalar" → ModelTypeIs functype .none .linear

/-- How the models of the parts of the criterion become one model. -/
inductive AggregatorIs : String → ModelType → String → Prop
  | scalar : AggregatorIs "scalar" .quadratic "identity"
  | leastSquares : AggregatorIs "least_squares" .linear "least_squares_linear"
  | likelihood : AggregatorIs "likelihood" .linear "information_equality_linear"

/-- The name of a component: the one the user passed, or the default. -/
def requestedName {R : Type} (request : Option (NameOrFunc (PyVal K O) R)) (default : String) : Option String :=
  match request with
  | none => some default
  | some (.str s) => some s
  | _ => none

/-- A run with the configuration `c`, the settings `b` and the initial radius `radius` uses what the user passed in `a`
for the start vector `x`. -/
structure CallUses (env : PyEnv K O) (ext : Externals K O n m) (a : Arguments K O (Option (Piece K n)))
    (x : Vec K n) (c : Config K) (b : BuiltinSettings K n m) (radius : K) : Prop where
  noisy : ReadsBool env a.noisy c.noisy
  disable : ReadsBool env a.disableConvergence c.conv.disable
  ftolAbs : ReadsFloat env a.ftolAbs c.conv.ftolAbs
  gtolAbs : ReadsFloat env a.gtolAbs c.conv.gtolAbs
  xtolAbs : ReadsFloat env a.xtolAbs c.conv.xtolAbs
  ftolRel : ReadsFloat env a.ftolRel c.conv.ftolRel
  gtolRel : ReadsFloat env a.gtolRel c.conv.gtolRel
  xtolRel : ReadsFloat env a.xtolRel c.conv.xtolRel
  /-- negative limits are like zero -/
  maxIter : ∃ i, ReadsInt env a.maxIter i ∧ (c.maxIter : ℤ) = max i 0
  maxEval : ∃ i, ReadsInt env a.maxEval i ∧ (c.maxEval : ℤ) = max i 0
  batchSize : (a.batchSize = .none ∧ ReadsInt env a.nCores c.batchSize) ∨ ReadsInt env a.batchSize c.batchSize
  sampleSize : (∀ v, a.sampleSize = .value v → v ≠ .none → ReadsInt env v c.targetSize) ∧
    (∀ g, a.sampleSize = .callable g → ∃ s, g (List.ofFn x) s = .ok (.int c.targetSize) ∧
      ((s = "linear" ∧ b.modelType = .linear) ∨ (s = "quadratic" ∧ b.modelType = .quadratic))) ∧
    (a.sampleSize = .value .none → c.targetSize = if b.modelType = .quadratic then 2 * n + 1
      else if c.noisy = true ∨ 1 < c.batchSize then n + 1 else n + 2)
  factor : (a.searchRadiusFactor = .none ∧ c.searchRadiusFactor = if a.functype = "scalar" then 17 / 4 else 5) ∨
    ReadsFloat env a.searchRadiusFactor c.searchRadiusFactor
  /-- other values are rejected -/
  factorPositive : 0 < c.searchRadiusFactor
  perPoint : (a.nEvalsPerPoint = .none ∧ c.nEvalsPerPoint = if c.noisy then c.noise.minNEvals else 1) ∨
    ReadsInt env a.nEvalsPerPoint c.nEvalsPerPoint
  atStart : (a.nEvalsAtStart = .none ∧ c.nEvalsAtStart = if c.noisy then 5 else 1) ∨
    ReadsInt env a.nEvalsAtStart c.nEvalsAtStart
  /-- the default of the initial radius is a tenth of the largest parameter -/
  radius : ∃ initial, (∀ i, |x i| / 10 ≤ initial) ∧ (∃ i, initial = |x i| / 10) ∧
    UsesAll env a.radiusOptions (radiusTable initial radius c.radius)
  stagnation : UsesAll env a.stagnationOptions (stagnationTable c.noisy c.batchSize c.stagnation)
  noise : UsesAll env a.noiseAdaptationOptions (noiseTable c.noise b.nDraws b.ignoreCorrelation)
  modelType : ModelTypeIs a.functype a.modelType b.modelType
  aggregator : AggregatorIs a.functype b.modelType b.aggregator
  retry : ReadsBool env a.retryWithFallback b.retry
  sampler : ∀ s, a.sampler = .str s → SamplerIs env ext a.samplerOptions s b.sampler
  filter : ∀ s, requestedName a.sampleFilter (if 1 < c.batchSize then "drop_excess" else "keep_all") = some s →
    FilterIs env a.sampleFilterOptions s b.filter
  /-- the default fitter: `ols` if there are enough points for the model, otherwise the regularized fitter; the
  regularized fitter corrects the previous model, unless the user says otherwise -/
  fitter : ∀ s, requestedName a.modelFitter (if b.modelType = .linear ∨ 1 + n + n * (n + 1) / 2 ≤ c.targetSize
      then "ols" else "tranquilo") = some s →
    FitterIs env a.modelFitterOptions s b.fitter ∧
      (a.residualize = .none → b.residualize = decide (s = "tranquilo"))
  residualize : ∀ r, a.residualize = .bool r → b.residualize = r
  decider : ∀ s, requestedName a.acceptanceDecider (if c.noisy then "noisy" else "classic") = some s →
    DeciderIs env ext a.acceptanceDeciderOptions s c.decider
  variance : ∀ s, a.varianceEstimator = .str s → UsesAll env a.varianceEstimatorOptions
    [("max_distance_factor", num 3, num b.noiseDistance), ("min_n_evals", .int 3, .int b.noiseMinEvals)]
  sphere : ∀ s, a.sphereSubsolver = .str s → SolverIs env ext a.subsolverOptions s b.sphere
  cube : ∀ s, a.cubeSubsolver = .str s → SolverIs env ext a.subsolverOptions s b.cube
  /-- a failing subsolver is replaced by the cube that is inscribed in the ball, and by the solver for cubes -/
  fallbacks : b.fallbackSphere = inscribedCubeSolver ext.root ext.scipy ∧ b.fallbackCube = fallbackCubeSolver ext.scipy
  /-- the functions of numpy and scipy, and the random numbers -/
  numpy : b.nrm = ext.nrm ∧ b.root = ext.root ∧ b.radial = ext.radial ∧ b.cubeRadius = ext.cubeRadius ∧
    b.dimRoot = ext.dimRoot ∧ b.lstsq = ext.lstsq ∧ b.qr = ext.qr ∧ b.rng = ext.rng ∧ b.covOfOne = ext.covOfOne ∧
    b.draws = ext.draws
  criterion : b.oracle = ext.oracle ∧ b.data = ext.data ∧ b.start = ext.start ∧ b.fvecs = ext.fvecs

end Tranquilo
