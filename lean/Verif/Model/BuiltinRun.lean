import Verif.Model.MainLoopRaise
import Verif.Model.Samplers
import Verif.Model.FitModels
import Verif.Model.Aggregate
import Verif.Model.Subproblem
import Verif.Model.Infinity
import Verif.Model.NoiseVariance

/-!
# The main loop with the built in components

The components of `Model/MainLoopRaise.lean` are filled with the models of the built in filters,
samplers, fitters, aggregators, of the subproblem template, of the variance estimator and of the
simulation of the noise of rho. Left open: the criterion, the subsolvers, the random numbers and the
external numerical functions.
-/

namespace Tranquilo

variable {K : Type} [Field K] [LinearOrder K] {n m : Nat}

/-- `keep_cluster_centers`, filter_points.py:117-131, with `cluster`, clustering.py:6-31.
`dimRoot a` is `a ** (1 / dim)` (volume.py:13-15). `cluster` only knows the shape "sphere". Without
points the distance matrix has one entry and line 130 raises an `IndexError`. A run of `_cluster` that
does not end does not exist (C26); in the model it would be an error. -/
def keepClusterCenters (nrm : Vec K n → K) (dimRoot : K → K) (strictness : K) (shape : String)
    (radius : K) (targetSize : Nat) (xs : List (Vec K n)) (indices : List Nat) :
    Except Err (List (Vec K n) × List Nat) :=
  let epsilon := radius * dimRoot (strictness / (targetSize : K))
  if shape ≠ "sphere" then .error .notImplementedError
  else if xs = [] then .error .indexError
  else
    match clusterFuel (fun i j : Fin xs.length => nrm fun k => xs[i] k - xs[j] k) epsilon
        (xs.length + 1) with
    | some (.ok c) => .ok (c.centers.map fun i => xs[i], c.centers.map fun i => indices.getD i.val 0)
    | _ => .error .indexError

/-- The names of `get_sample_filter` with their options, filter_points.py:27-32 and options.py:190-193. -/
inductive FilterChoice (K : Type) where
  | discardAll
  | keepAll
  | clustering (strictness : K) (shape : String)
  | dropExcess (nMaxFactor : K)

/-- The names of `get_fitter` with their options, fit_models.py:52-57 and options.py:177-182. -/
inductive FitterChoice (K : Type) where
  | ols
  | ridge (penaltyLinear penaltySquare : K)
  | powell
  | tranquilo (intercept linear square : K)

/-- The settings of the built in components. `data` are the averaged vector valued evaluations
(`History.get_model_data`), `start` those of the start point (tranquilo.py:60), `fvecs` all vector valued
evaluations of a point (`History.get_fvecs`). Simplified: `start` is finite. If an evaluation of the start point is
not, then the first models that are fitted as corrections of the start model (`residualize`) are those of
`np.linalg.lstsq` for infinite targets, which is not modelled. `noiseDistance` and `noiseMinEvals` are the options of the
variance estimator (options.py:185-187), `nDraws` and `ignoreCorrelation` those of the simulation
(options.py:206-215), `draws` its random numbers (see `simulateRhoNoise`). -/
structure BuiltinSettings (K : Type) (n m : Nat) where
  nrm : Vec K n → K
  root : K → K
  radial : K → K
  cubeRadius : K → K
  dimRoot : K → K
  lstsq : Lstsq K
  qr : (N : Nat) → (Fin N → Vec K n) → Mat K N N
  oracle : Oracle K n
  data : Log K n → Nat → Fin m → XVal K
  start : Log K n → Vec K m
  filter : FilterChoice K
  sampler : BuiltInSampler K n
  rng : Nat → Nat → Log K n → SampleRng K n
  fitter : FitterChoice K
  modelType : ModelType
  residualize : Bool
  aggregator : String
  sphere : SubSolver K n
  cube : SubSolver K n
  fallbackSphere : SubSolver K n
  fallbackCube : SubSolver K n
  retry : Bool
  fvecs : Log K n → Nat → List (Fin m → XVal K)
  noiseDistance : K
  noiseMinEvals : Int
  covOfOne : (Fin m → XVal K) → Fin m → Fin m → XVal K
  draws : Nat → Log K n → (N : Nat) → Mat K m m → Nat → List (Fin N → Vec K m)
  nDraws : Int
  ignoreCorrelation : Bool

/-- The filter as it is called in tranquilo.py:108-115. -/
def builtinFilter [FloorRing K] (b : BuiltinSettings K n m)
    (state : LoopState K n (VectorModel K n m) (ScalarModel K n)) (target : Nat)
    (xs : List (Vec K n)) (is : List Nat) : Except Err (List (Vec K n) × List Nat) :=
  match b.filter with
  | .discardAll => .ok (discardAll state.x state.index)
  | .keepAll => .ok (keepAll xs is)
  | .clustering s shape =>
    keepClusterCenters b.nrm b.dimRoot s shape state.trustregion.radius target xs is
  | .dropExcess f => dropExcess b.nrm state.x state.index state.trustregion.radius xs is target f

/-- The sampler as it is called in tranquilo.py:133-139, 229-235 and acceptance_decision.py:466-476.
Rows of NaN, which occur if the generator draws a zero vector, are an error of the model (in the code
they would end the run later, in the fitter). -/
def builtinSampleR (b : BuiltinSettings K n m) (it round : Nat) : SamplerR K n :=
  fun log region k existing => do
    let rows ← match b.sampler with
      | .randomInterior => interiorSampler b.root b.radial b.cubeRadius region k (b.rng it round log)
      | .randomHull d => hullSampler b.root b.cubeRadius region k (b.rng it round log) d
      | .optimalHull o =>
        (optimalHullSampler b.root b.cubeRadius region k (b.rng it round log) o (some existing)).map
          Prod.fst
    match allRows rows with
    | some ys => pure ys
    | none => .error .valueError

/-- The raw fitter for one residual; the main loop passes no weights. -/
def builtinFitter {N : Nat} (b : BuiltinSettings K n m) (xs : Fin N → Vec K n) (y : Vec K N) :
    Except Err (Vec K (nCols n b.modelType)) :=
  match b.fitter with
  | .ols => .ok (fitOls b.lstsq b.root b.modelType xs y none)
  | .ridge pl ps => .ok (fitRidge b.lstsq b.root pl ps b.modelType xs y none)
  | .powell => fitPowell b.lstsq b.root (b.qr N) b.modelType xs y
  | .tranquilo pi pl ps => .ok (fitTranquilo b.lstsq b.root pi pl ps b.modelType xs y none)

/-- `clip_relative` for all columns, handle_infinity.py:14-49. -/
def clipColumns {N : Nat} (y : Fin N → Fin m → XVal K) : Fin N → Fin m → K := fun s k =>
  (clipRelative (List.ofFn fun t => y t k)).getD s 0

/-- The rows of the coefficient matrix, one for every residual. -/
def collectColumns {p : Nat} (f : Fin m → Except Err (Vec K p)) : Except Err (Fin m → Vec K p) := do
  let l ← (List.finRange m).mapM f
  pure fun k => l.getD k fun _ => 0

/-- `_fitter_template`, fit_models.py:85-149, with a raw fitter that may raise (see `fitModel`). If the
region has a side of length zero the unit coordinates are NaN (region.py:73-82) and `np.linalg.lstsq`
raises `LinAlgError`. -/
def builtinFitTemplate {N : Nat} (b : BuiltinSettings K n m) (region : Region K n)
    (old : VectorModel K n m) (xs : Fin N → Vec K n) (y : Fin N → Fin m → XVal K) :
    Except Err (VectorModel K n m) :=
  if ∃ i, region.effectiveRadius b.cubeRadius i = 0 then .error .linAlgError
  else do
    let yClipped := clipColumns y
    let xUnit : Fin N → Vec K n := fun s => region.mapToUnit b.cubeRadius (xs s)
    let oldMoved := old.move b.cubeRadius region
    let target : Fin N → Fin m → K := fun s k =>
      if b.residualize then yClipped s k - oldMoved.predict (xUnit s) k else yClipped s k
    let coef ← collectColumns fun k => builtinFitter b xUnit fun s => target s k
    let results := modelOfCoef b.modelType coef (region.effectiveCenter b.cubeRadius)
      (region.effectiveRadius b.cubeRadius)
    if b.residualize then results.add oldMoved else .ok results

/-- The call of the fitter in tranquilo.py:150-162, 189-201, 244-256, with the data of `History.get_model_data`.
Indices outside of the history do not occur (C62); the model then takes the center of the region. -/
def builtinFit (b : BuiltinSettings K n m) (log : Log K n) (is : List Nat) (region : Region K n)
    (old : VectorModel K n m) : Except Err (VectorModel K n m) :=
  builtinFitTemplate (N := is.length) b region old (fun s => (log.xs[is[s]]?).getD region.center)
    fun s => b.data log is[s]

/-- The call of the solver in tranquilo.py:166, 205-207, 260-262. -/
def builtinSolve (b : BuiltinSettings K n m) (model : ScalarModel K n) (region : Region K n) :
    Except Err (SubSolution K n) :=
  (solveSubproblem b.cubeRadius b.sphere b.cube b.fallbackSphere b.fallbackCube b.retry model region).map
    fun r => { x := r.x, expectedImprovement := r.expectedImprovement }

/-- The start model, tranquilo.py:60-68. -/
def builtinInit (b : BuiltinSettings K n m) (log : Log K n) (region : Region K n) :
    VectorModel K n m where
  intercepts := b.start log
  linearTerms _ _ := 0
  squareTerms := some fun _ _ _ => 0
  shift := region.center
  scale _ := region.radius

/-- The call of the variance estimator in tranquilo.py:277-281 and the square root in
acceptance_decision.py:324; `none` is NaN. (The estimate is never infinite: an infinite value makes it
NaN, see `C71_undefined`.) -/
def builtinNoiseSigma (b : BuiltinSettings K n m) (log : Log K n) (region : Region K n) :
    Except Err (Option K) :=
  (estimateVariance b.nrm b.noiseDistance b.noiseMinEvals region log).map fun
    | .fin v => if 0 ≤ v then some (b.root v) else none
    | _ => none

/-- A matrix of numbers, or nothing if an entry is infinite or NaN. -/
def finiteMat (cov : Fin m → Fin m → XVal K) : Option (Mat K m m) :=
  if ∀ i j, (cov i j).isFinite = true then
    some fun i j => match cov i j with
      | .fin v => v
      | _ => 0
  else none

/-- The call of the variance estimator for vector valued evaluations, tranquilo.py:282-286, and of
`simulate_rho_noise`, tranquilo.py:328-339. For a covariance matrix with NaN the singular value
decomposition in `multivariate_normal` raises a `LinAlgError`. -/
def builtinRhoNoise (b : BuiltinSettings K n m) (it : Nat) (log : Log K n) (xs : List (Vec K n))
    (vm old : VectorModel K n m) (region : Region K n) : Except Err (List (XVal K)) := do
  let cov ← estimateCovariance b.nrm b.noiseDistance b.noiseMinEvals b.covOfOne region log (b.fvecs log)
  match finiteMat cov with
  | none => .error .linAlgError
  | some cov =>
    simulateRhoNoise (N := xs.length) b.cubeRadius
      (fun xs y region old => builtinFitTemplate b region old xs fun s k => .fin (y s k))
      (aggregate b.aggregator)
      (solveSubproblem b.cubeRadius b.sphere b.cube b.fallbackSphere b.fallbackCube b.retry)
      (b.draws it log xs.length) b.nDraws b.ignoreCorrelation (fun s => xs[s]) vm old region cov

/-- The built in components. -/
def builtinComponents [FloorRing K] (b : BuiltinSettings K n m) :
    ComponentsR K n (VectorModel K n m) (ScalarModel K n) where
  nrm := b.nrm
  cubeRadius := b.cubeRadius
  oracle := b.oracle
  filter state _ target _ xs is := builtinFilter b state target xs is
  sample := builtinSampleR b
  fit := builtinFit b
  aggregate := aggregate b.aggregator
  solve := builtinSolve b
  initModel := builtinInit b
  gradNorm model := b.nrm model.linearTerms
  noiseSigma := builtinNoiseSigma b
  rhoNoise := builtinRhoNoise b

end Tranquilo
