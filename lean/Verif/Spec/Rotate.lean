import Verif.Spec.Mix
import Verif.Spec.Rescale

/-!
# Specification: the same problem in other coordinates

The parameters of the new problem are `R @ x`, where the columns of `R` are orthonormal: a rotation, possibly with a
reflection.
-/

namespace Tranquilo

variable {K : Type} [Field K] [LinearOrder K] {n : Nat} {VM SM : Type}

/-- The new coordinates `R @ x`. -/
def rotate (R : Mat K n n) (x : Vec K n) : Vec K n := fun i => ∑ j, R i j * x j

/-- The old coordinates `R.T @ y`. -/
def rotateBack (R : Mat K n n) (y : Vec K n) : Vec K n := fun i => ∑ j, R j i * y j

/-- A history with rotated points. -/
def Log.rotate (R : Mat K n n) (h : Log K n) : Log K n :=
  { xs := h.xs.map (Tranquilo.rotate R), evals := h.evals }

/-- The history in the old coordinates. -/
def Log.rotateBack (R : Mat K n n) (h : Log K n) : Log K n :=
  { xs := h.xs.map (Tranquilo.rotateBack R), evals := h.evals }

/-- A rotated trust region. The bounds stay as they are; they will always be absent. -/
def Region.rotate (R : Mat K n n) (r : Region K n) : Region K n where
  center := Tranquilo.rotate R r.center
  radius := r.radius
  bounds := r.bounds

/-- A trust region in a problem without bounds. -/
def Region.Free (r : Region K n) : Prop := r.bounds = ⟨fun _ => none, fun _ => none⟩

/-- Two states that agree in everything except that parameters are rotated, and the surrogate
models, which are related by `RV` and `RS`. -/
structure RotatedState (R : Mat K n n) (RV : VM → VM → Prop) (RS : SM → SM → Prop)
    (t t' : LoopState K n VM SM) : Prop where
  trustregion : t'.trustregion = t.trustregion.rotate R
  modelIndices : t'.modelIndices = t.modelIndices
  model : RS t.model t'.model
  vectorModel : RV t.vectorModel t'.vectorModel
  candidateIndex : t'.candidateIndex = t.candidateIndex
  candidateX : t'.candidateX = rotate R t.candidateX
  index : t'.index = t.index
  x : t'.x = rotate R t.x
  fval : t'.fval = t.fval
  rho : t'.rho = t.rho
  accepted : t'.accepted = t.accepted
  newIndices : t'.newIndices = t.newIndices
  oldIndicesUsed : t'.oldIndicesUsed = t.oldIndicesUsed
  oldIndicesDiscarded : t'.oldIndicesDiscarded = t.oldIndicesDiscarded
  stepLength : t'.stepLength = t.stepLength
  relativeStepLength : t'.relativeStepLength = t.relativeStepLength
  nEvalsPerPoint : t'.nEvalsPerPoint = t.nEvalsPerPoint
  nEvalsAcceptance : t'.nEvalsAcceptance = t.nEvalsAcceptance

/-- Two runs that visit the same points (rotated) one after the other,
record the same values, take the same decisions and end for the same reason. -/
structure RotatedCourse (R : Mat K n n) (RV : VM → VM → Prop) (RS : SM → SM → Prop)
    (r r' : Run K n VM SM) : Prop where
  log : r'.log = r.log.rotate R
  state : RotatedState R RV RS r.state r'.state
  states : List.Forall₂ (RotatedState R RV RS) r.states r'.states
  nEvals : r'.nEvals = r.nEvals
  converged : r'.converged = r.converged
  msg : r'.msg = r.msg
  stop : r'.stop = r.stop

/-- Solutions of related subproblems: the rotated candidate, the same expected improvement. -/
def RotatedSub (R : Mat K n n) (u u' : SubSolution K n) : Prop :=
  u'.x = rotate R u.x ∧ u'.expectedImprovement = u.expectedImprovement

/-- Components that do not depend on the coordinates. `comp'` is `comp` for the rotated parameters: if it gets rotated
data it returns the rotated result. -/
structure RotationRespected (R : Mat K n n) (noisy : Bool) (RV : VM → VM → Prop)
    (RS : SM → SM → Prop) (comp comp' : ComponentsR K n VM SM) : Prop where
  nrm : ∀ v : Vec K n, comp'.nrm (rotate R v) = comp.nrm v
  definite : ∀ v : Vec K n, comp.nrm v ≤ 0 ↔ v = fun _ => 0
  normZero : comp.nrm (fun _ => 0) = 0
  cubeRadius : ∀ r, comp'.cubeRadius r = comp.cubeRadius r
  oracle : ∀ k x, comp'.oracle k (rotate R x) = comp.oracle k x
  filter : ∀ t t' h size k xs is, RotatedState R RV RS t t' → t.trustregion.Free →
    SameOutcome (fun p p' => p' = (p.1.map (rotate R), p.2)) (comp.filter t h size k xs is)
      (comp'.filter t' (h.rotate R) size k (xs.map (rotate R)) is)
  sample : ∀ it round h r k xs, r.Free → SameOutcome (fun ys ys' => ys' = ys.map (rotate R))
    (comp.sample it round h r k xs)
    (comp'.sample it round (h.rotate R) (r.rotate R) k (xs.map (rotate R)))
  fit : ∀ h is r vm vm', r.Free → RV vm vm' → SameOutcome RV (comp.fit h is r vm)
    (comp'.fit (h.rotate R) is (r.rotate R) vm')
  aggregate : ∀ vm vm', RV vm vm' → SameOutcome RS (comp.aggregate vm) (comp'.aggregate vm')
  solve : ∀ sm sm' r, r.Free → RS sm sm' →
    SameOutcome (RotatedSub R) (comp.solve sm r) (comp'.solve sm' (r.rotate R))
  initModel : ∀ h r, r.Free → RV (comp.initModel h r) (comp'.initModel (h.rotate R) (r.rotate R))
  gradNorm : ∀ sm sm', RS sm sm' → comp'.gradNorm sm' = comp.gradNorm sm
  noiseSigma : noisy = true → ∀ h r, r.Free →
    comp'.noiseSigma (h.rotate R) (r.rotate R) = comp.noiseSigma h r
  rhoNoise : noisy = true → ∀ it h xs vm vm' old old' r, r.Free → RV vm vm' → RV old old' →
    comp'.rhoNoise it (h.rotate R) (xs.map (rotate R)) vm' old' (r.rotate R) =
      comp.rhoNoise it h xs vm old r

/-- The only convergence criterion that depends on the coordinates is the relative tolerance for the parameters
(tranquilo.py:490, 503). It must be zero, or the convergence criteria are switched off. -/
def NoRelativeXTol (g : Config K) : Prop := g.conv.disable = true ∨ g.conv.xtolRel ≤ 0

end Tranquilo
