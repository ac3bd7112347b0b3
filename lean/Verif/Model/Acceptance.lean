import Verif.Model.Log
import Verif.Model.SampleSize

/-!
# Model of `acceptance_decision.py`

`nrm` is `np.linalg.norm`. The criterion is an `Oracle`, the sampler an arbitrary function. The
history is a `Log`.
-/

namespace Tranquilo

variable {K : Type} [Field K] [LinearOrder K] {n : Nat}

/-- The fields of `State` that the deciders read, tranquilo.py:398-481. -/
structure Current (K : Type) (n : Nat) where
  trustregion : Region K n
  x : Vec K n
  fval : XVal K
  index : Nat

/-- The fields of `SubproblemResult` that the deciders read. -/
structure SubSolution (K : Type) (n : Nat) where
  x : Vec K n
  expectedImprovement : K

/-- `AcceptanceResult`, acceptance_decision.py:375-385. -/
structure AcceptanceResult (K : Type) (n : Nat) where
  x : Vec K n
  fval : XVal K
  index : Nat
  rho : XVal K
  accepted : Bool
  stepLength : K
  relativeStepLength : XVal K
  candidateIndex : Nat
  candidateX : Vec K n
  nEvalsAcceptance : Int

/-- Division of a criterion value by a nonzero number. -/
def XVal.divBy (a : XVal K) (b : K) : XVal K :=
  match a with
  | .fin x => .fin (x / b)
  | .pinf => if 0 < b then .pinf else .ninf
  | .ninf => if 0 < b then .ninf else .pinf
  | .nan => .nan

/-- `calculate_rho`, acceptance_decision.py:418-425. -/
def calculateRho (actual : XVal K) (expected : K) : XVal K :=
  if expected = 0 ∧ XVal.fin 0 < actual then .pinf
  else if expected = 0 then .ninf
  else actual.divBy expected

/-- `_get_acceptance_result`, acceptance_decision.py:388-415. -/
def getAcceptanceResult (nrm : Vec K n → K) (candidateX : Vec K n) (candidateFval : XVal K)
    (candidateIndex : Nat) (rho : XVal K) (isAccepted : Bool) (old : Current K n) (nEvals : Int) :
    AcceptanceResult K n :=
  let x := if isAccepted then candidateX else old.x
  let stepLength := nrm fun i => x i - old.x i
  { x := x
    fval := if isAccepted then candidateFval else old.fval
    index := if isAccepted then candidateIndex else old.index
    rho := rho
    accepted := isAccepted
    stepLength := stepLength
    relativeStepLength := XVal.divFin stepLength old.trustregion.radius
    candidateIndex := candidateIndex
    candidateX := candidateX
    nEvalsAcceptance := nEvals }

/-- The last step of all deciders, acceptance_decision.py:218-237, 281-300, 351-370: candidates with a
non-finite value are replaced by the current point. -/
def finishDecision (nrm : Vec K n → K) (candidateX : Vec K n) (candidateFval : XVal K)
    (candidateIndex : Nat) (rho : XVal K) (isAccepted : Bool) (old : Current K n) (nEvals : Int) :
    AcceptanceResult K n :=
  if candidateFval.isFinite then
    getAcceptanceResult nrm candidateX candidateFval candidateIndex rho isAccepted old nEvals
  else
    getAcceptanceResult nrm old.x old.fval old.index .ninf false old nEvals

/-- `_accept_simple`, acceptance_decision.py:242-302. -/
def acceptSimple (nrm : Vec K n → K) (oracle : Oracle K n) (minImprovement : K) (nEvals : Nat)
    (sub : SubSolution K n) (old : Current K n) (h : Log K n) : Log K n × AcceptanceResult K n :=
  let (h, candidateIndex) := h.addX sub.x
  let h := h.evaluate oracle [(candidateIndex, nEvals)]
  let candidateFval := XVal.mean (h.fvals candidateIndex)
  let actual := -(candidateFval - old.fval)
  let rho := calculateRho actual sub.expectedImprovement
  let isAccepted := decide (XVal.fin minImprovement ≤ actual)
  (h, finishDecision nrm sub.x candidateFval candidateIndex rho isAccepted old nEvals)

/-- `_accept_classic`, acceptance_decision.py:41-70. -/
def acceptClassic (nrm : Vec K n → K) (oracle : Oracle K n) (minImprovement : K)
    (sub : SubSolution K n) (old : Current K n) (h : Log K n) : Log K n × AcceptanceResult K n :=
  acceptSimple nrm oracle minImprovement 1 sub old h

/-- `accept_naive_noisy`, acceptance_decision.py:73-90. -/
def acceptNaiveNoisy (nrm : Vec K n → K) (oracle : Oracle K n) (minImprovement : K)
    (sub : SubSolution K n) (old : Current K n) (h : Log K n) : Log K n × AcceptanceResult K n :=
  acceptSimple nrm oracle minImprovement 10 sub old h

/-- `accept_noisy`, acceptance_decision.py:305-372. `sigma` is `np.sqrt(noise_variance)`; the quantiles
are parameters (see `Model/SampleSize.lean`). The request is a dict with the two keys
`state.index` and `candidate_index`, which differ because the latter is new. -/
def acceptNoisy [FloorRing K] (nrm : Vec K n → K) (oracle : Oracle K n) (minImprovement : K)
    (sigma zConf zPower : K) (nMin nMax : Nat)
    (sub : SubSolution K n) (old : Current K n) (h : Log K n) : Log K n × AcceptanceResult K n :=
  let (h, candidateIndex) := h.addX sub.x
  let existing := (h.fvals old.index).length
  let (n1, n2) := getAcceptanceSampleSizes sigma existing sub.expectedImprovement zConf zPower nMin nMax
  let h := h.evaluate oracle [(old.index, n1.toNat), (candidateIndex, n2.toNat)]
  let currentFval := XVal.mean (h.fvals old.index)
  let candidateFval := XVal.mean (h.fvals candidateIndex)
  let actual := -(candidateFval - currentFval)
  let rho := calculateRho actual sub.expectedImprovement
  let isAccepted := decide (XVal.fin minImprovement ≤ actual)
  (h, finishDecision nrm sub.x candidateFval candidateIndex rho isAccepted old n2)

/-- `np.isclose(a, b, rtol)` with the default `atol=1e-8`. -/
def isClose (a b rtol : K) : Bool := decide (|a - b| ≤ 1 / 100000000 + rtol * |b|)

/-- `_is_on_border`, acceptance_decision.py:499-527. -/
def isOnBorder (nrm : Vec K n → K) (cr : K → K) (r : Region K n) (x : Vec K n) (rtol : K) : Bool :=
  match r.shape with
  | .sphere => isClose (nrm fun i => x i - r.center i) r.radius rtol
  | .cube => decide (∃ i, isClose (x i) (r.cubeLower cr i) rtol = true) ||
      decide (∃ i, isClose (x i) (r.cubeUpper cr i) rtol = true)

/-- `_generate_alpha_grid`, acceptance_decision.py:530-532. -/
def alphaGrid (batchSize : Nat) : List K :=
  (List.range (min batchSize 4 - 1)).map fun k => 2 ^ (k + 1)

/-- `_sample_on_line`, acceptance_decision.py:481-496. -/
def sampleOnLine (start direction : Vec K n) (grid : List K) : List (Vec K n) :=
  grid.map fun a i => start i + a * (direction i - start i)

/-- A sampler: region, number of points, existing points; the random number generator and the options
are represented by the dependence on the history so far. -/
abbrev Sampler (K : Type) (n : Nat) :=
  Log K n → Region K n → Nat → List (Vec K n) → List (Vec K n)

/-- `_generate_speculative_sample`, acceptance_decision.py:433-478. -/
def speculativeSample (nrm : Vec K n → K) (sample : Sampler K n) (newCenter : Vec K n)
    (r : Region K n) (nPoints : Nat) (h : Log K n) (lineXs : List (Vec K n)) (radiusFactor : K) :
    List (Vec K n) :=
  let searchRegion := { r with center := newCenter, radius := radiusFactor * r.radius }
  let oldIndices := h.indicesInRegion nrm searchRegion.center searchRegion.radius
  let oldXs := h.getXs oldIndices
  sample h searchRegion nPoints (oldXs ++ lineXs)

/-- `new_fvals.idxmin()` together with its value, acceptance_decision.py:196-198: the first smallest
entry; NaNs are skipped by pandas. `none` if there is no entry that is not NaN (pandas raises or
returns NaN then). -/
def idxMin : List (Nat × XVal K) → Option (Nat × XVal K)
  | [] => none
  | p :: l =>
    match idxMin l with
    | none => if p.2.isNan then none else some p
    | some q => if p.2.isNan then some q else if q.2 < p.2 then some q else some p

/-- The points that the line search decider adds besides the candidate,
acceptance_decision.py:129-169. `h` already contains the candidate. -/
def lineSearchXs (nrm : Vec K n → K) (cr : K → K) (sample : Sampler K n) (radiusFactor : K)
    (batchSize : Nat) (candidateX : Vec K n) (old : Current K n) (h : Log K n) : List (Vec K n) :=
  let lineXs := if isOnBorder nrm cr old.trustregion candidateX (1 / 10) then
    sampleOnLine old.x candidateX (alphaGrid batchSize) else []
  let nUnallocated := batchSize - 1 - lineXs.length
  let speculativeXs := if 0 < nUnallocated then
    speculativeSample nrm sample candidateX old.trustregion nUnallocated h lineXs radiusFactor
    else []
  lineXs ++ speculativeXs

/-- `accept_classic_line_search`, acceptance_decision.py:93-239, for `batch_size >= 1`. -/
def acceptLineSearch (nrm : Vec K n → K) (cr : K → K) (oracle : Oracle K n) (sample : Sampler K n)
    (radiusFactor minImprovement : K) (batchSize : Nat)
    (sub : SubSolution K n) (old : Current K n) (h : Log K n) : Log K n × AcceptanceResult K n :=
  if batchSize = 1 then acceptClassic nrm oracle minImprovement sub old h
  else
    let (h, candidateIndex) := h.addX sub.x
    let newXs := lineSearchXs nrm cr sample radiusFactor batchSize sub.x old h
    let (h, newIndices) := h.addXs newXs
    let h := h.evaluate oracle ((candidateIndex, 1) :: newIndices.map fun i => (i, 1))
    let candidateFval := XVal.mean (h.fvals candidateIndex)
    let rho := calculateRho (-(candidateFval - old.fval)) sub.expectedImprovement
    let newFvals := newIndices.map fun i => (i, XVal.mean (h.fvals i))
    let best : Nat × XVal K :=
      match idxMin newFvals with
      | some q => if q.2 < candidateFval then q else (candidateIndex, candidateFval)
      | none => (candidateIndex, candidateFval)
    let candidateX := (h.xs[best.1]?).getD sub.x
    let isAccepted := decide (XVal.fin minImprovement ≤ -(best.2 - old.fval))
    (h, finishDecision nrm candidateX best.2 best.1 rho isAccepted old 1)

end Tranquilo
