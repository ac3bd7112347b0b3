import Verif.Model.MainLoop

/-!
# Model of the main loop with components that may raise, tranquilo.py

`Model/MainLoop.lean` leaves exceptions out: its components are total. Here every component returns a
value or an exception, and an exception ends the run, as in the code (`_internal_tranquilo` has no
`try`). `Props/MainLoopRaise.lean` shows that a run that does not raise is a run of the model without
exceptions, so everything proved there holds for it. The criterion does not raise, because
`wrap_criterion.py` replaces exceptions by values (C09).
-/

namespace Tranquilo

variable {K : Type} [Field K] [LinearOrder K] {n : Nat} {VM SM : Type}

/-- A sampler that may raise, see `Sampler`. -/
abbrev SamplerR (K : Type) (n : Nat) :=
  Log K n → Region K n → Nat → List (Vec K n) → Except Err (List (Vec K n))

/-- The components, tranquilo.py:27-52, with exceptions; see `Components` for the fields. `noiseSigma` is
the square root of the estimate of the variance, `none` stands for NaN (a variance that is NaN or
negative). Infinite variances, which only a user supplied estimator can return, are not modelled. -/
structure ComponentsR (K : Type) (n : Nat) (VM SM : Type) where
  nrm : Vec K n → K
  cubeRadius : K → K
  oracle : Oracle K n
  filter : LoopState K n VM SM → Log K n → Nat → Int → List (Vec K n) → List Nat →
    Except Err (List (Vec K n) × List Nat)
  sample : Nat → Nat → SamplerR K n
  fit : Log K n → List Nat → Region K n → VM → Except Err VM
  aggregate : VM → Except Err SM
  solve : SM → Region K n → Except Err (SubSolution K n)
  initModel : Log K n → Region K n → VM
  gradNorm : SM → K
  noiseSigma : Log K n → Region K n → Except Err (Option K)
  rhoNoise : Nat → Log K n → List (Vec K n) → VM → VM → Region K n → Except Err (List (XVal K))

/-- Relative step length, tranquilo.py:168-170, 209-211, 264-266. -/
def relStepLengthR (comp : ComponentsR K n VM SM) (state : LoopState K n VM SM)
    (sub : SubSolution K n) : XVal K :=
  XVal.divFin (comp.nrm fun i => sub.x i - state.x i) state.trustregion.radius

/-- Fit, aggregate and solve, tranquilo.py:150-170, 189-211, 244-266. -/
def buildModelR (comp : ComponentsR K n VM SM) (state : LoopState K n VM SM) (log : Log K n)
    (modelXs : List (Vec K n)) (modelIndices : List Nat) : Except Err (Build K n VM SM) := do
  let vm ← comp.fit log modelIndices state.trustregion state.vectorModel
  let sm ← comp.aggregate vm
  let sub ← comp.solve sm state.trustregion
  pure { log := log, modelXs := modelXs, modelIndices := modelIndices, vectorModel := vm, model := sm
         sub := sub, relStep := relStepLengthR comp state sub }

/-- The `while` loop of tranquilo.py:177-211 with fuel. -/
def dropLoopR (c : Config K) (comp : ComponentsR K n VM SM) (state : LoopState K n VM SM) :
    Nat → Build K n VM SM → Except Err (Build K n VM SM)
  | 0, b => .ok b
  | fuel + 1, b =>
    if b.relStep < .fin c.stagnation.minRelativeStepKeep ∧ c.targetSize < b.modelXs.length then do
      let r ← dropWorst comp.nrm state.x state.index state.trustregion.radius b.modelXs b.modelIndices 1
      let b ← buildModelR comp state b.log r.1 r.2
      dropLoopR c comp state fuel b
    else .ok b

/-- The points that a stagnation round keeps, tranquilo.py:220-226. -/
def stagnationKeepR (c : Config K) (comp : ComponentsR K n VM SM) (state : LoopState K n VM SM)
    (b : Build K n VM SM) : Except Err (List (Vec K n) × List Nat) :=
  if c.stagnation.drop = true ∧ c.stagnation.sampleIncrement < b.modelXs.length then
    dropWorst comp.nrm state.x state.index state.trustregion.radius b.modelXs b.modelIndices
      c.stagnation.sampleIncrement
  else .ok (b.modelXs, b.modelIndices)

/-- One round of the loop tranquilo.py:218-266. -/
def stagnationRoundR (c : Config K) (comp : ComponentsR K n VM SM) (state : LoopState K n VM SM)
    (nEvals : Int) (it round : Nat) (b : Build K n VM SM) : Except Err (Build K n VM SM) := do
  let r ← stagnationKeepR c comp state b
  let newXs ← comp.sample it round b.log state.trustregion c.stagnation.sampleIncrement r.1
  let log := (b.log.addXs newXs).1.evaluate comp.oracle
    ((b.log.addXs newXs).2.map fun i => (i, nEvals.toNat))
  let modelIndices := r.2 ++ (b.log.addXs newXs).2
  buildModelR comp state log (log.getXs modelIndices) modelIndices

/-- The `while` loop of tranquilo.py:217-270 with fuel; `k` is `sample_counter`. -/
def stagnationLoopR (c : Config K) (comp : ComponentsR K n VM SM) (state : LoopState K n VM SM)
    (nEvals : Int) (it : Nat) : Nat → Nat → Build K n VM SM → Except Err (Build K n VM SM)
  | 0, _, b => .ok b
  | fuel + 1, k, b =>
    if b.relStep < .fin c.stagnation.minRelativeStep then do
      let b ← stagnationRoundR c comp state nEvals it (k + 2) b
      if c.stagnation.maxTrials ≤ k + 1 then pure b
      else stagnationLoopR c comp state nEvals it fuel (k + 1) b
    else .ok b

/-- `_generate_speculative_sample`, acceptance_decision.py:433-478. -/
def speculativeSampleR (nrm : Vec K n → K) (sample : SamplerR K n) (newCenter : Vec K n)
    (r : Region K n) (nPoints : Nat) (h : Log K n) (lineXs : List (Vec K n)) (radiusFactor : K) :
    Except Err (List (Vec K n)) :=
  let searchRegion := { r with center := newCenter, radius := radiusFactor * r.radius }
  let oldIndices := h.indicesInRegion nrm searchRegion.center searchRegion.radius
  let oldXs := h.getXs oldIndices
  sample h searchRegion nPoints (oldXs ++ lineXs)

/-- The points that the line search decider adds besides the candidate,
acceptance_decision.py:129-169. `h` already contains the candidate. -/
def lineSearchXsR (nrm : Vec K n → K) (cr : K → K) (sample : SamplerR K n) (radiusFactor : K)
    (batchSize : Nat) (candidateX : Vec K n) (old : Current K n) (h : Log K n) :
    Except Err (List (Vec K n)) :=
  let lineXs := if isOnBorder nrm cr old.trustregion candidateX (1 / 10) then
    sampleOnLine old.x candidateX (alphaGrid batchSize) else []
  let nUnallocated := batchSize - 1 - lineXs.length
  if 0 < nUnallocated then do
    let speculativeXs ←
      speculativeSampleR nrm sample candidateX old.trustregion nUnallocated h lineXs radiusFactor
    pure (lineXs ++ speculativeXs)
  else .ok (lineXs ++ [])

/-- `new_fvals.idxmin()` and the lookup of the value, acceptance_decision.py:196-198: pandas raises a
`ValueError` if there are no points; if all values are NaN, `idxmin` gives NaN (or raises, depending on
the version), and the lookup of NaN raises a `KeyError`. -/
def idxMinR (l : List (Nat × XVal K)) : Except Err (Nat × XVal K) :=
  match idxMin l with
  | some q => .ok q
  | none => if l = [] then .error .valueError else .error .keyError

/-- `accept_classic_line_search` after the evaluation, acceptance_decision.py:171-239. -/
def finishLineSearchR (nrm : Vec K n → K) (minImprovement : K) (sub : SubSolution K n)
    (old : Current K n) (h : Log K n) (candidateIndex : Nat) (newIndices : List Nat) :
    Except Err (Log K n × AcceptanceResult K n) := do
  let candidateFval := XVal.mean (h.fvals candidateIndex)
  let rho := calculateRho (-(candidateFval - old.fval)) sub.expectedImprovement
  let newFvals := newIndices.map fun i => (i, XVal.mean (h.fvals i))
  let q ← idxMinR newFvals
  let best : Nat × XVal K := if q.2 < candidateFval then q else (candidateIndex, candidateFval)
  let candidateX := (h.xs[best.1]?).getD sub.x
  let isAccepted := decide (XVal.fin minImprovement ≤ -(best.2 - old.fval))
  pure (h, finishDecision nrm candidateX best.2 best.1 rho isAccepted old 1)

/-- `accept_classic_line_search`, acceptance_decision.py:93-239, for `batch_size >= 1`. -/
def acceptLineSearchR (nrm : Vec K n → K) (cr : K → K) (oracle : Oracle K n) (sample : SamplerR K n)
    (radiusFactor minImprovement : K) (batchSize : Nat)
    (sub : SubSolution K n) (old : Current K n) (h : Log K n) :
    Except Err (Log K n × AcceptanceResult K n) :=
  if batchSize = 1 then .ok (acceptClassic nrm oracle minImprovement sub old h)
  else do
    let newXs ← lineSearchXsR nrm cr sample radiusFactor batchSize sub.x old (h.addX sub.x).1
    let newIndices := ((h.addX sub.x).1.addXs newXs).2
    let log := ((h.addX sub.x).1.addXs newXs).1.evaluate oracle
      (((h.addX sub.x).2, 1) :: newIndices.map fun i => (i, 1))
    finishLineSearchR nrm minImprovement sub old log (h.addX sub.x).2 newIndices

/-- The noise estimate, tranquilo.py:276-289: `None` without noise, `some none` is NaN. The call for the
vector valued evaluations is part of `rhoNoise`. -/
def noiseR (c : Config K) (comp : ComponentsR K n VM SM) (log : Log K n) (region : Region K n) :
    Except Err (Option (Option K)) :=
  if c.noisy then (comp.noiseSigma log region).map some else .ok none

/-- The call of the acceptance decider, tranquilo.py:295-305. `accept_noisy` takes the square root of
the noise variance; of `None` that is a `TypeError`. If the root is NaN, then `n1_optimal` is NaN
(acceptance_sample_size.py:47), the comparison in line 50 is false, `n2` is NaN (line 55), and the
conversion of `np.ceil(np.clip(n2, n_min, n_max))` to an integer (line 24) raises a `ValueError`. -/
def runDeciderR [FloorRing K] (c : Config K) (comp : ComponentsR K n VM SM) (it : Nat)
    (sigma : Option (Option K)) (sub : SubSolution K n) (cur : Current K n) (h : Log K n) :
    Except Err (Log K n × AcceptanceResult K n) :=
  match c.decider with
  | .classic m => .ok (acceptClassic comp.nrm comp.oracle m sub cur h)
  | .naiveNoisy m => .ok (acceptNaiveNoisy comp.nrm comp.oracle m sub cur h)
  | .noisy m zc zp nMin nMax =>
    match sigma with
    | some (some s) => .ok (acceptNoisy comp.nrm comp.oracle m s zc zp nMin nMax sub cur h)
    | some none => .error .valueError
    | none => .error .typeError
  | .lineSearch m rf =>
    acceptLineSearchR comp.nrm comp.cubeRadius comp.oracle (comp.sample it 0) rf m c.batchSize sub cur h

/-- The part of an iteration before the acceptance decision, tranquilo.py:100-270. Also returns
`old_indices`. -/
def buildPhaseR [FloorRing K] (c : Config K) (comp : ComponentsR K n VM SM) (it : Nat)
    (state : LoopState K n VM SM) (log : Log K n) (nEvals : Int) :
    Except Err (List Nat × Build K n VM SM) := do
  let oldIndices := log.indicesInRegion comp.nrm state.trustregion.center
    (c.searchRadiusFactor * state.trustregion.radius)
  let kept ← comp.filter state log c.targetSize nEvals (log.getXs oldIndices) oldIndices
  let nNew := (nextMultiple (K := K) (c.targetSize - kept.1.length) c.batchSize).toNat
  let newXs ← comp.sample it 1 log state.trustregion nNew kept.1
  let log' := (log.addXs newXs).1.evaluate comp.oracle
    (((log.addXs newXs).2.map fun i => (i, nEvals.toNat)) ++ additionalEvalInfo log kept.2 nEvals)
  let modelIndices := kept.2 ++ (log.addXs newXs).2
  let b ← buildModelR comp state log' (log'.getXs modelIndices) modelIndices
  let b ← dropLoopR c comp state b.modelXs.length b
  let b ← stagnationLoopR c comp state nEvals it (max 1 c.stagnation.maxTrials) 0 b
  pure (oldIndices, b)

/-- The state after the acceptance decision, tranquilo.py:311-321. -/
def stateR (state : LoopState K n VM SM) (nEvals : Int) (oldIndices : List Nat) (b : Build K n VM SM)
    (res : AcceptanceResult K n) : LoopState K n VM SM :=
  { state with
    modelIndices := b.modelIndices
    model := b.model
    newIndices := setDiff1d b.modelIndices oldIndices
    oldIndicesUsed := intersect1d b.modelIndices oldIndices
    oldIndicesDiscarded := setDiff1d oldIndices b.modelIndices
    x := res.x
    fval := res.fval
    index := res.index
    rho := res.rho
    accepted := res.accepted
    stepLength := some res.stepLength
    relativeStepLength := some res.relativeStepLength
    candidateIndex := res.candidateIndex
    candidateX := res.candidateX
    nEvalsAcceptance := some res.nEvalsAcceptance
    nEvalsPerPoint := some nEvals }

/-- The number of evaluations per point for the next iteration, tranquilo.py:327-348. The covariance of the noise has
been estimated before the acceptance decision (282-286), so from the history `b.log`. -/
def nextNEvalsR (c : Config K) (comp : ComponentsR K n VM SM) (it : Nat) (nEvals : Int) (b : Build K n VM SM) (state : LoopState K n VM SM) (rho : XVal K) :
    Except Err (Int × Bool) :=
  if c.noisy then do
    let rhos ← comp.rhoNoise it b.log b.modelXs b.vectorModel state.vectorModel state.trustregion
    pure (adjustNEvals nEvals rho rhos c.noise)
  else .ok (nEvals, false)

/-- The end of an iteration, tranquilo.py:353-382: new radius and the checks that end the loop. -/
def endIterationR (c : Config K) (comp : ComponentsR K n VM SM) (old state : LoopState K n VM SM)
    (states : List (LoopState K n VM SM)) (log : Log K n) (res : AcceptanceResult K n)
    (next : Int × Bool) : Run K n VM SM :=
  let newRadius := adjustRadius state.trustregion.radius res.rho res.stepLength c.radius next.2
  let finalState :=
    { state with
      trustregion := { state.trustregion with center := res.x, radius := newRadius } }
  let conv := if res.accepted && !c.conv.disable then
      isConverged comp.nrm comp.gradNorm c.conv old state else none
  match conv with
  | some m => { log := log, state := finalState, states := states, nEvals := next.1
                converged := true, msg := some m, stop := true }
  | none =>
    if c.maxEval ≤ log.nFun then
      { log := log, state := finalState, states := states, nEvals := next.1
        converged := false, msg := some .maxEval, stop := true }
    else
      { log := log, state := finalState, states := states, nEvals := next.1
        converged := false, msg := none, stop := false }

/-- One iteration of the main loop, tranquilo.py:95-382. -/
def iterationR [FloorRing K] (c : Config K) (comp : ComponentsR K n VM SM) (it : Nat)
    (r : Run K n VM SM) : Except Err (Run K n VM SM) := do
  let p ← buildPhaseR c comp it r.state r.log r.nEvals
  let sigma ← noiseR c comp p.2.log r.state.trustregion
  let d ← runDeciderR c comp it sigma p.2.sub r.state.current p.2.log
  let state := stateR r.state r.nEvals p.1 p.2 d.2
  let next ← nextNEvalsR c comp it r.nEvals p.2 state d.2.rho
  pure (endIterationR c comp r.state state (r.states ++ [state]) d.1 d.2 next)

/-- The `for` loop, tranquilo.py:95: `k` iterations are left. -/
def runLoopR [FloorRing K] (c : Config K) (comp : ComponentsR K n VM SM) :
    Nat → Nat → Run K n VM SM → Except Err (Run K n VM SM)
  | 0, _, r => .ok r
  | k + 1, it, r => do
    let r ← iterationR c comp it r
    if r.stop then pure r else runLoopR c comp k (it + 1) r

/-- The history after the evaluations at the start, tranquilo.py:53-58. -/
def startLogR [FloorRing K] (c : Config K) (oracle : Oracle K n) (x : Vec K n) : Log K n :=
  ({ xs := [x], evals := [] } : Log K n).evaluate oracle
    [(0, if 1 < c.nEvalsAtStart then (nextMultiple (K := K) c.nEvalsAtStart c.batchSize).toNat else 1)]

/-- Start of the run, tranquilo.py:53-89. -/
def startRunR [FloorRing K] (c : Config K) (comp : ComponentsR K n VM SM) (x : Vec K n) (radius : K)
    (bounds : Bounds K n) : Except Err (Run K n VM SM) := do
  let region : Region K n := { center := x, radius := radius, bounds := bounds }
  let log := startLogR c comp.oracle x
  let vm := comp.initModel log region
  let sm ← comp.aggregate vm
  let state : LoopState K n VM SM :=
    { trustregion := region
      modelIndices := [0]
      model := sm
      vectorModel := vm
      index := 0
      x := x
      fval := XVal.mean (log.fvals 0)
      rho := .nan
      accepted := true
      newIndices := [0]
      oldIndicesDiscarded := []
      oldIndicesUsed := []
      candidateIndex := 0
      candidateX := x
      stepLength := none
      relativeStepLength := none
      nEvalsPerPoint := none
      nEvalsAcceptance := none }
  pure { log := log, state := state, states := [state], nEvals := c.nEvalsPerPoint
         converged := false, msg := none, stop := false }

/-- `_internal_tranquilo`, tranquilo.py:27-395, with components that may raise. -/
def tranquiloR [FloorRing K] (c : Config K) (comp : ComponentsR K n VM SM) (x : Vec K n) (radius : K)
    (bounds : Bounds K n) : Except Err (Run K n VM SM) := do
  let r ← startRunR c comp x radius bounds
  runLoopR c comp c.maxIter 0 r

end Tranquilo
