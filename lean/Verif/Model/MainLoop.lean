import Verif.Model.Filter
import Mathlib.Algebra.Order.Floor.Ring

/-!
# Model of the main loop, tranquilo.py

The history is an abstract `Log` (see `Model/Log.lean`). The exchangeable components (filter, sampler,
fitter, aggregator, subsolver, variance estimator, simulation of rhos) are arbitrary functions; `VM` and
`SM` are the types of vector and scalar surrogate models. Random draws are represented by letting
sampler and simulation depend on the iteration number and on the number of the sampling round within
the iteration (0: acceptance decision, 1: first sample, 2, 3, ...: stagnation rounds). The fitter may depend on the whole history, so the vector valued evaluations, which a
`Log` does not store, are covered. Components do not raise in this model.
-/

namespace Tranquilo

variable {K : Type} [Field K] [LinearOrder K] {n : Nat} {VM SM : Type}

/-- `StagnationOptions`, options.py:156-161. -/
structure StagnationOptions (K : Type) where
  minRelativeStepKeep : K
  drop : Bool
  minRelativeStep : K
  sampleIncrement : Nat
  maxTrials : Nat

/-- `ConvOptions`, options.py:119-129. `min_radius` is not used anywhere and left out. -/
structure ConvOptions (K : Type) where
  disable : Bool
  ftolAbs : K
  gtolAbs : K
  xtolAbs : K
  ftolRel : K
  gtolRel : K
  xtolRel : K

/-- The built in acceptance deciders with the options they use, acceptance_decision.py:20-38. -/
inductive DeciderChoice (K : Type) where
  | classic (minImprovement : K)
  | naiveNoisy (minImprovement : K)
  | noisy (minImprovement zConf zPower : K) (nMin nMax : Nat)
  | lineSearch (minImprovement radiusFactor : K)

/-- The arguments of `_internal_tranquilo` that are plain data, tranquilo.py:27-52. `max_time` is not
used by the code and left out. -/
structure Config (K : Type) where
  noisy : Bool
  conv : ConvOptions K
  maxIter : Nat
  maxEval : Nat
  radius : RadiusOptions K
  noise : NEvalsOptions K
  batchSize : Nat
  targetSize : Nat
  stagnation : StagnationOptions K
  searchRadiusFactor : K
  nEvalsPerPoint : Int
  nEvalsAtStart : Nat
  decider : DeciderChoice K

/-- `State`, tranquilo.py:398-481. -/
structure LoopState (K : Type) (n : Nat) (VM SM : Type) where
  trustregion : Region K n
  modelIndices : List Nat
  model : SM
  vectorModel : VM
  candidateIndex : Nat
  candidateX : Vec K n
  index : Nat
  x : Vec K n
  fval : XVal K
  rho : XVal K
  accepted : Bool
  newIndices : List Nat
  oldIndicesUsed : List Nat
  oldIndicesDiscarded : List Nat
  stepLength : Option K
  relativeStepLength : Option (XVal K)
  nEvalsPerPoint : Option Int
  nEvalsAcceptance : Option Int

/-- The fields of the state that the deciders read. -/
def LoopState.current (s : LoopState K n VM SM) : Current K n :=
  { trustregion := s.trustregion, x := s.x, fval := s.fval, index := s.index }

/-- The components, tranquilo.py:27-52, and external functions. -/
structure Components (K : Type) (n : Nat) (VM SM : Type) where
  /-- `np.linalg.norm` -/
  nrm : Vec K n → K
  /-- radius of the cube that replaces a ball -/
  cubeRadius : K → K
  /-- the criterion -/
  oracle : Oracle K n
  filter : LoopState K n VM SM → Log K n → Nat → Int → List (Vec K n) → List Nat →
    List (Vec K n) × List Nat
  sample : Nat → Nat → Sampler K n
  fit : Log K n → List Nat → Region K n → VM → VM
  aggregate : VM → SM
  solve : SM → Region K n → SubSolution K n
  /-- `VectorModel` with the mean of the start evaluations as intercept, tranquilo.py:60-68 -/
  initModel : Log K n → Region K n → VM
  /-- `np.linalg.norm(model.linear_terms)` -/
  gradNorm : SM → K
  /-- square root of the estimated scalar noise variance -/
  noiseSigma : Log K n → Region K n → K
  /-- `simulate_rho_noise` -/
  rhoNoise : Nat → Log K n → List (Vec K n) → VM → VM → Region K n → List (XVal K)

/-- The messages, tranquilo.py:381 and 484-511. -/
inductive Msg where
  | gtolRel | gtolAbs | ftolRel | ftolAbs | xtolRel | xtolAbs | maxEval
  deriving DecidableEq, Repr

/-- Local variables of `_internal_tranquilo` at the end of an iteration. `stop` is the `break`. -/
structure Run (K : Type) (n : Nat) (VM SM : Type) where
  log : Log K n
  state : LoopState K n VM SM
  states : List (LoopState K n VM SM)
  nEvals : Int
  converged : Bool
  msg : Option Msg
  stop : Bool

/-- Local variables of one iteration that belong to the current model. -/
structure Build (K : Type) (n : Nat) (VM SM : Type) where
  log : Log K n
  modelXs : List (Vec K n)
  modelIndices : List Nat
  vectorModel : VM
  model : SM
  sub : SubSolution K n
  relStep : XVal K

/-- IEEE absolute value. -/
def XVal.abs : XVal K → XVal K
  | .fin a => .fin |a|
  | .pinf => .pinf
  | .ninf => .pinf
  | .nan => .nan

/-- Python's `max(a, 1)` for a float `a`: `1` only if `1 > a`. -/
def XVal.maxOne (a : XVal K) : XVal K := if a < .fin 1 then .fin 1 else a

/-- IEEE division (no rounding) by a value that is not zero. -/
def XVal.divX : XVal K → XVal K → XVal K
  | .nan, _ => .nan
  | _, .nan => .nan
  | .fin a, .fin b => .fin (a / b)
  | .fin _, _ => .fin 0
  | a, .fin b => a.divBy b
  | _, _ => .nan

/-- `_is_converged`, tranquilo.py:484-511; `none` is `(False, None)`. -/
def isConverged (nrm : Vec K n → K) (gradNorm : SM → K) (o : ConvOptions K)
    (old new : LoopState K n VM SM) : Option Msg :=
  let fChangeAbs := (old.fval - new.fval).abs
  let fChangeRel := fChangeAbs.divX old.fval.abs.maxOne
  let xChangeAbs := nrm fun i => old.x i - new.x i
  let xChangeRel := nrm fun i => (old.x i - new.x i) / max |old.x i| 1
  let gNormAbs := gradNorm new.model
  let gNormRel := gNormAbs / max gNormAbs 1
  if gNormRel ≤ o.gtolRel then some .gtolRel
  else if gNormAbs ≤ o.gtolAbs then some .gtolAbs
  else if fChangeRel ≤ .fin o.ftolRel then some .ftolRel
  else if fChangeAbs ≤ .fin o.ftolAbs then some .ftolAbs
  else if xChangeRel ≤ o.xtolRel then some .xtolRel
  else if xChangeAbs ≤ o.xtolAbs then some .xtolAbs
  else none

/-- `np.setdiff1d(a, b)`: sorted and without repetitions. -/
def setDiff1d (a b : List Nat) : List Nat :=
  ((a.filter fun i => decide (i ∉ b)).dedup).mergeSort (· ≤ ·)

/-- `np.intersect1d(a, b)`. -/
def intersect1d (a b : List Nat) : List Nat :=
  ((a.filter fun i => decide (i ∈ b)).dedup).mergeSort (· ≤ ·)

/-- `_get_additional_eval_info`, tranquilo.py:520-538. -/
def additionalEvalInfo (log : Log K n) (modelIndices : List Nat) (nEvals : Int) : List (Nat × Nat) :=
  (modelIndices.dedup.map fun i => (i, (nEvals - ((log.fvals i).length : Int)).toNat)).filter
    fun p => decide (0 < p.2)

/-- Relative step length, tranquilo.py:168-170, 209-211, 264-266. -/
def relStepLength (comp : Components K n VM SM) (state : LoopState K n VM SM)
    (sub : SubSolution K n) : XVal K :=
  XVal.divFin (comp.nrm fun i => sub.x i - state.x i) state.trustregion.radius

/-- Fit, aggregate and solve, tranquilo.py:150-170, 189-211, 244-266. -/
def buildModel (comp : Components K n VM SM) (state : LoopState K n VM SM) (log : Log K n)
    (modelXs : List (Vec K n)) (modelIndices : List Nat) : Build K n VM SM :=
  let vm := comp.fit log modelIndices state.trustregion state.vectorModel
  let sm := comp.aggregate vm
  let sub := comp.solve sm state.trustregion
  { log := log, modelXs := modelXs, modelIndices := modelIndices, vectorModel := vm, model := sm
    sub := sub, relStep := relStepLength comp state sub }

/-- `drop_worst_points` as it is called in the loop. It cannot fail there, because never more points
are dropped than there are (see `C23_drop_worst`); in the impossible case the model keeps the arrays. -/
def dropWorstInLoop (comp : Components K n VM SM) (state : LoopState K n VM SM)
    (xs : List (Vec K n)) (indices : List Nat) (nToDrop : Nat) : List (Vec K n) × List Nat :=
  match dropWorst comp.nrm state.x state.index state.trustregion.radius xs indices nToDrop with
  | .ok r => r
  | .error _ => (xs, indices)

/-- The `while` loop of tranquilo.py:177-211 with fuel. -/
def dropLoop (c : Config K) (comp : Components K n VM SM) (state : LoopState K n VM SM) :
    Nat → Build K n VM SM → Build K n VM SM
  | 0, b => b
  | fuel + 1, b =>
    if b.relStep < .fin c.stagnation.minRelativeStepKeep ∧ c.targetSize < b.modelXs.length then
      let r := dropWorstInLoop comp state b.modelXs b.modelIndices 1
      dropLoop c comp state fuel (buildModel comp state b.log r.1 r.2)
    else b

/-- One round of the loop tranquilo.py:218-266. -/
def stagnationRound (c : Config K) (comp : Components K n VM SM) (state : LoopState K n VM SM)
    (nEvals : Int) (it round : Nat) (b : Build K n VM SM) : Build K n VM SM :=
  let nToDrop := c.stagnation.sampleIncrement
  let r := if c.stagnation.drop = true ∧ nToDrop < b.modelXs.length then
      dropWorstInLoop comp state b.modelXs b.modelIndices nToDrop
    else (b.modelXs, b.modelIndices)
  let newXs := comp.sample it round b.log state.trustregion nToDrop r.1
  let (log, newIndices) := b.log.addXs newXs
  let log := log.evaluate comp.oracle (newIndices.map fun i => (i, nEvals.toNat))
  let modelIndices := r.2 ++ newIndices
  buildModel comp state log (log.getXs modelIndices) modelIndices

/-- The `while` loop of tranquilo.py:217-270 with fuel; `k` is `sample_counter`. -/
def stagnationLoop (c : Config K) (comp : Components K n VM SM) (state : LoopState K n VM SM)
    (nEvals : Int) (it : Nat) : Nat → Nat → Build K n VM SM → Build K n VM SM
  | 0, _, b => b
  | fuel + 1, k, b =>
    if b.relStep < .fin c.stagnation.minRelativeStep then
      let b := stagnationRound c comp state nEvals it (k + 2) b
      if c.stagnation.maxTrials ≤ k + 1 then b
      else stagnationLoop c comp state nEvals it fuel (k + 1) b
    else b

/-- The call of the acceptance decider, tranquilo.py:295-305. -/
def runDecider [FloorRing K] (c : Config K) (comp : Components K n VM SM) (it : Nat) (log : Log K n)
    (region : Region K n) (sub : SubSolution K n) (cur : Current K n) (h : Log K n) :
    Log K n × AcceptanceResult K n :=
  match c.decider with
  | .classic m => acceptClassic comp.nrm comp.oracle m sub cur h
  | .naiveNoisy m => acceptNaiveNoisy comp.nrm comp.oracle m sub cur h
  | .noisy m zc zp nMin nMax =>
    acceptNoisy comp.nrm comp.oracle m (comp.noiseSigma log region) zc zp nMin nMax sub cur h
  | .lineSearch m rf =>
    acceptLineSearch comp.nrm comp.cubeRadius comp.oracle (comp.sample it 0) rf m c.batchSize sub cur h

/-- The part of an iteration before the acceptance decision, tranquilo.py:100-270, with `_concatenate_indices`, lines
514-517. Also returns `old_indices`. -/
def buildPhase [FloorRing K] (c : Config K) (comp : Components K n VM SM) (it : Nat)
    (state : LoopState K n VM SM) (log : Log K n) (nEvals : Int) : List Nat × Build K n VM SM :=
  let oldIndices := log.indicesInRegion comp.nrm state.trustregion.center
    (c.searchRadiusFactor * state.trustregion.radius)
  let oldXs := log.getXs oldIndices
  let (modelXs, modelIndices) := comp.filter state log c.targetSize nEvals oldXs oldIndices
  let additional := additionalEvalInfo log modelIndices nEvals
  let nNew := (nextMultiple (K := K) (c.targetSize - modelXs.length) c.batchSize).toNat
  let newXs := comp.sample it 1 log state.trustregion nNew modelXs
  let (log, newIndices) := log.addXs newXs
  let log := log.evaluate comp.oracle ((newIndices.map fun i => (i, nEvals.toNat)) ++ additional)
  let modelIndices := modelIndices ++ newIndices
  let b := buildModel comp state log (log.getXs modelIndices) modelIndices
  let b := dropLoop c comp state b.modelXs.length b
  let b := stagnationLoop c comp state nEvals it (max 1 c.stagnation.maxTrials) 0 b
  (oldIndices, b)

/-- One iteration of the main loop, tranquilo.py:95-382. `noise_variance` and `noise_cov`
(276-289) enter through `noiseSigma` and `rhoNoise`. -/
def iteration [FloorRing K] (c : Config K) (comp : Components K n VM SM) (it : Nat)
    (r : Run K n VM SM) : Run K n VM SM :=
  let (oldIndices, b) := buildPhase c comp it r.state r.log r.nEvals
  let (log, res) := runDecider c comp it b.log r.state.trustregion b.sub r.state.current b.log
  -- tranquilo.py:311-321
  let state : LoopState K n VM SM :=
    { r.state with
      modelIndices := b.modelIndices
      model := b.model
      newIndices := setDiff1d b.modelIndices oldIndices
      oldIndicesUsed := intersect1d b.modelIndices oldIndices
      oldIndicesDiscarded := setDiff1d oldIndices b.modelIndices
      x := res.x
      fval := res.fval
      index := res.index
      rho := res.rho
      accepted := res.accepted
      stepLength := some res.stepLength
      relativeStepLength := some res.relativeStepLength
      candidateIndex := res.candidateIndex
      candidateX := res.candidateX
      nEvalsAcceptance := some res.nEvalsAcceptance
      nEvalsPerPoint := some r.nEvals }
  let states := r.states ++ [state]
  -- tranquilo.py:327-348
  let (nEvals, increased) :=
    if c.noisy then
      adjustNEvals r.nEvals res.rho
        (comp.rhoNoise it b.log b.modelXs b.vectorModel state.vectorModel state.trustregion) c.noise
    else (r.nEvals, false)
  -- tranquilo.py:353-368
  let newRadius := adjustRadius state.trustregion.radius res.rho res.stepLength c.radius increased
  let finalState :=
    { state with
      trustregion := { state.trustregion with center := res.x, radius := newRadius } }
  -- tranquilo.py:374-382
  let conv := if res.accepted && !c.conv.disable then
      isConverged comp.nrm comp.gradNorm c.conv r.state state else none
  match conv with
  | some m => { log := log, state := finalState, states := states, nEvals := nEvals
                converged := true, msg := some m, stop := true }
  | none =>
    if c.maxEval ≤ log.nFun then
      { log := log, state := finalState, states := states, nEvals := nEvals
        converged := false, msg := some .maxEval, stop := true }
    else
      { log := log, state := finalState, states := states, nEvals := nEvals
        converged := false, msg := none, stop := false }

/-- The `for` loop, tranquilo.py:95: `k` iterations are left. -/
def runLoop [FloorRing K] (c : Config K) (comp : Components K n VM SM) :
    Nat → Nat → Run K n VM SM → Run K n VM SM
  | 0, _, r => r
  | k + 1, it, r =>
    let r := iteration c comp it r
    if r.stop then r else runLoop c comp k (it + 1) r

/-- Start of the run, tranquilo.py:53-89. -/
def startRun [FloorRing K] (c : Config K) (comp : Components K n VM SM) (x : Vec K n) (radius : K)
    (bounds : Bounds K n) : Run K n VM SM :=
  let region : Region K n := { center := x, radius := radius, bounds := bounds }
  let log : Log K n := { xs := [x], evals := [] }
  let log := log.evaluate comp.oracle
    [(0, if 1 < c.nEvalsAtStart then (nextMultiple (K := K) c.nEvalsAtStart c.batchSize).toNat else 1)]
  let vm := comp.initModel log region
  let state : LoopState K n VM SM :=
    { trustregion := region
      modelIndices := [0]
      model := comp.aggregate vm
      vectorModel := vm
      index := 0
      x := x
      fval := XVal.mean (log.fvals 0)
      rho := .nan
      accepted := true
      newIndices := [0]
      oldIndicesDiscarded := []
      oldIndicesUsed := []
      candidateIndex := 0
      candidateX := x
      stepLength := none
      relativeStepLength := none
      nEvalsPerPoint := none
      nEvalsAcceptance := none }
  { log := log, state := state, states := [state], nEvals := c.nEvalsPerPoint
    converged := false, msg := none, stop := false }

/-- `_internal_tranquilo`, tranquilo.py:27-395. The result dictionary consists of fields of the run:
`solution_x = state.x`, `solution_criterion = state.fval`, `states`, `message = msg`,
`tranquilo_history = log`. -/
def tranquilo [FloorRing K] (c : Config K) (comp : Components K n VM SM) (x : Vec K n) (radius : K)
    (bounds : Bounds K n) : Run K n VM SM :=
  runLoop c comp c.maxIter 0 (startRun c comp x radius bounds)

end Tranquilo
