import Verif.Spec.Rescale

/-!
# Specification: the same problem with parameters measured in the other direction

Parameter `i` of the new problem is the negative of parameter `i` of the old one if `σ i` is true; otherwise it is the
same.
-/

namespace Tranquilo

variable {K : Type} [Field K] [LinearOrder K] {n : Nat} {VM SM : Type}

/-- A mirrored parameter vector. -/
def mirror (σ : Fin n → Bool) (x : Vec K n) : Vec K n := fun i => if σ i then -x i else x i

/-- A history with mirrored points. -/
def Log.mirror (σ : Fin n → Bool) (h : Log K n) : Log K n :=
  { xs := h.xs.map (Tranquilo.mirror σ), evals := h.evals }

/-- Mirrored bounds: the lower bound of a mirrored parameter is the negative of its upper bound. -/
def Bounds.mirror (σ : Fin n → Bool) (b : Bounds K n) : Bounds K n where
  lower i := if σ i then (b.upper i).map fun u => -u else b.lower i
  upper i := if σ i then (b.lower i).map fun l => -l else b.upper i

/-- A mirrored trust region. -/
def Region.mirror (σ : Fin n → Bool) (r : Region K n) : Region K n where
  center := Tranquilo.mirror σ r.center
  radius := r.radius
  bounds := r.bounds.mirror σ

/-- A trust region that is not flat. Otherwise the unit coordinates are NaN (region.py:73-82) or `np.clip` has a lower
limit above the upper limit (region.py:57-66). -/
def Region.Proper (cr : K → K) (r : Region K n) : Prop :=
  r.shape = .cube → ∀ i, r.cubeLower cr i < r.cubeUpper cr i

/-- Two states that agree in everything except that parameters are mirrored, and the surrogate
models, which are related by `RV` and `RS`. -/
structure MirroredState (σ : Fin n → Bool) (RV : VM → VM → Prop) (RS : SM → SM → Prop)
    (t t' : LoopState K n VM SM) : Prop where
  trustregion : t'.trustregion = t.trustregion.mirror σ
  modelIndices : t'.modelIndices = t.modelIndices
  model : RS t.model t'.model
  vectorModel : RV t.vectorModel t'.vectorModel
  candidateIndex : t'.candidateIndex = t.candidateIndex
  candidateX : t'.candidateX = mirror σ t.candidateX
  index : t'.index = t.index
  x : t'.x = mirror σ t.x
  fval : t'.fval = t.fval
  rho : t'.rho = t.rho
  accepted : t'.accepted = t.accepted
  newIndices : t'.newIndices = t.newIndices
  oldIndicesUsed : t'.oldIndicesUsed = t.oldIndicesUsed
  oldIndicesDiscarded : t'.oldIndicesDiscarded = t.oldIndicesDiscarded
  stepLength : t'.stepLength = t.stepLength
  relativeStepLength : t'.relativeStepLength = t.relativeStepLength
  nEvalsPerPoint : t'.nEvalsPerPoint = t.nEvalsPerPoint
  nEvalsAcceptance : t'.nEvalsAcceptance = t.nEvalsAcceptance

/-- Two runs that visit the same points (mirrored) one after the other,
record the same values, take the same decisions and end for the same reason. -/
structure MirroredCourse (σ : Fin n → Bool) (RV : VM → VM → Prop) (RS : SM → SM → Prop)
    (r r' : Run K n VM SM) : Prop where
  log : r'.log = r.log.mirror σ
  state : MirroredState σ RV RS r.state r'.state
  states : List.Forall₂ (MirroredState σ RV RS) r.states r'.states
  nEvals : r'.nEvals = r.nEvals
  converged : r'.converged = r.converged
  msg : r'.msg = r.msg
  stop : r'.stop = r.stop

/-- Solutions of related subproblems: the mirrored candidate, the same expected improvement. -/
def MirroredSub (σ : Fin n → Bool) (u u' : SubSolution K n) : Prop :=
  u'.x = mirror σ u.x ∧ u'.expectedImprovement = u.expectedImprovement

/-- Components that have no preferred direction. `comp'` is `comp` for the mirrored parameters: if it gets mirrored
data it returns the mirrored result. -/
structure MirrorRespected (σ : Fin n → Bool) (noisy : Bool) (RV : VM → VM → Prop)
    (RS : SM → SM → Prop) (comp comp' : ComponentsR K n VM SM) : Prop where
  nrm : ∀ v : Vec K n, comp'.nrm (mirror σ v) = comp.nrm v
  cubeRadius : ∀ r, comp'.cubeRadius r = comp.cubeRadius r
  oracle : ∀ k x, comp'.oracle k (mirror σ x) = comp.oracle k x
  filter : ∀ t t' h size k xs is, MirroredState σ RV RS t t' → t.trustregion.Proper comp.cubeRadius →
    SameOutcome (fun p p' => p' = (p.1.map (mirror σ), p.2)) (comp.filter t h size k xs is)
      (comp'.filter t' (h.mirror σ) size k (xs.map (mirror σ)) is)
  sample : ∀ it round h r k xs, r.Proper comp.cubeRadius → SameOutcome (fun ys ys' => ys' = ys.map (mirror σ))
    (comp.sample it round h r k xs)
    (comp'.sample it round (h.mirror σ) (r.mirror σ) k (xs.map (mirror σ)))
  fit : ∀ h is r vm vm', r.Proper comp.cubeRadius → RV vm vm' → SameOutcome RV (comp.fit h is r vm)
    (comp'.fit (h.mirror σ) is (r.mirror σ) vm')
  aggregate : ∀ vm vm', RV vm vm' → SameOutcome RS (comp.aggregate vm) (comp'.aggregate vm')
  solve : ∀ sm sm' r, r.Proper comp.cubeRadius → RS sm sm' →
    SameOutcome (MirroredSub σ) (comp.solve sm r) (comp'.solve sm' (r.mirror σ))
  initModel : ∀ h r, r.Proper comp.cubeRadius → RV (comp.initModel h r) (comp'.initModel (h.mirror σ) (r.mirror σ))
  gradNorm : ∀ sm sm', RS sm sm' → comp'.gradNorm sm' = comp.gradNorm sm
  noiseSigma : noisy = true → ∀ h r, r.Proper comp.cubeRadius →
    comp'.noiseSigma (h.mirror σ) (r.mirror σ) = comp.noiseSigma h r
  rhoNoise : noisy = true → ∀ it h xs vm vm' old old' r, r.Proper comp.cubeRadius → RV vm vm' → RV old old' →
    comp'.rhoNoise it (h.mirror σ) (xs.map (mirror σ)) vm' old' (r.mirror σ) =
      comp.rhoNoise it h xs vm old r

end Tranquilo
