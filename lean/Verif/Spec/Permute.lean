import Verif.Spec.Rescale
import Mathlib.Logic.Equiv.Defs

/-!
# Specification: the same problem with the parameters in another order

Parameter `i` of the new problem is parameter `σ i` of the old one.
-/

namespace Tranquilo

variable {K : Type} [Field K] [LinearOrder K] {n : Nat} {VM SM : Type}

/-- A parameter vector in the new order. -/
def permute (σ : Equiv.Perm (Fin n)) (x : Vec K n) : Vec K n := fun i => x (σ i)

/-- A history with the points in the new order. -/
def Log.permute (σ : Equiv.Perm (Fin n)) (h : Log K n) : Log K n :=
  { xs := h.xs.map (Tranquilo.permute σ), evals := h.evals }

/-- Bounds in the new order. -/
def Bounds.permute (σ : Equiv.Perm (Fin n)) (b : Bounds K n) : Bounds K n where
  lower i := b.lower (σ i)
  upper i := b.upper (σ i)

/-- A trust region in the new order. -/
def Region.permute (σ : Equiv.Perm (Fin n)) (r : Region K n) : Region K n where
  center := Tranquilo.permute σ r.center
  radius := r.radius
  bounds := r.bounds.permute σ

/-- Two states that agree in everything except for the order of the parameters, and the surrogate
models, which are related by `RV` and `RS`. -/
structure PermutedState (σ : Equiv.Perm (Fin n)) (RV : VM → VM → Prop) (RS : SM → SM → Prop)
    (t t' : LoopState K n VM SM) : Prop where
  trustregion : t'.trustregion = t.trustregion.permute σ
  modelIndices : t'.modelIndices = t.modelIndices
  model : RS t.model t'.model
  vectorModel : RV t.vectorModel t'.vectorModel
  candidateIndex : t'.candidateIndex = t.candidateIndex
  candidateX : t'.candidateX = permute σ t.candidateX
  index : t'.index = t.index
  x : t'.x = permute σ t.x
  fval : t'.fval = t.fval
  rho : t'.rho = t.rho
  accepted : t'.accepted = t.accepted
  newIndices : t'.newIndices = t.newIndices
  oldIndicesUsed : t'.oldIndicesUsed = t.oldIndicesUsed
  oldIndicesDiscarded : t'.oldIndicesDiscarded = t.oldIndicesDiscarded
  stepLength : t'.stepLength = t.stepLength
  relativeStepLength : t'.relativeStepLength = t.relativeStepLength
  nEvalsPerPoint : t'.nEvalsPerPoint = t.nEvalsPerPoint
  nEvalsAcceptance : t'.nEvalsAcceptance = t.nEvalsAcceptance

/-- Two runs that visit the same points (with the parameters in another order) one after the other,
record the same values, take the same decisions and end for the same reason. -/
structure PermutedCourse (σ : Equiv.Perm (Fin n)) (RV : VM → VM → Prop) (RS : SM → SM → Prop)
    (r r' : Run K n VM SM) : Prop where
  log : r'.log = r.log.permute σ
  state : PermutedState σ RV RS r.state r'.state
  states : List.Forall₂ (PermutedState σ RV RS) r.states r'.states
  nEvals : r'.nEvals = r.nEvals
  converged : r'.converged = r.converged
  msg : r'.msg = r.msg
  stop : r'.stop = r.stop

/-- Solutions of related subproblems: the same candidate, the same expected improvement. -/
def PermutedSub (σ : Equiv.Perm (Fin n)) (u u' : SubSolution K n) : Prop :=
  u'.x = permute σ u.x ∧ u'.expectedImprovement = u.expectedImprovement

/-- Components that treat all parameters alike. `comp'` is `comp` for the new order: if it gets the
same data in the new order it returns the same result in the new order. -/
structure OrderRespected (σ : Equiv.Perm (Fin n)) (noisy : Bool) (RV : VM → VM → Prop)
    (RS : SM → SM → Prop) (comp comp' : ComponentsR K n VM SM) : Prop where
  nrm : ∀ v : Vec K n, comp'.nrm (permute σ v) = comp.nrm v
  cubeRadius : ∀ r, comp'.cubeRadius r = comp.cubeRadius r
  oracle : ∀ k x, comp'.oracle k (permute σ x) = comp.oracle k x
  filter : ∀ t t' h size k xs is, PermutedState σ RV RS t t' →
    SameOutcome (fun p p' => p' = (p.1.map (permute σ), p.2)) (comp.filter t h size k xs is)
      (comp'.filter t' (h.permute σ) size k (xs.map (permute σ)) is)
  sample : ∀ it round h r k xs, SameOutcome (fun ys ys' => ys' = ys.map (permute σ))
    (comp.sample it round h r k xs)
    (comp'.sample it round (h.permute σ) (r.permute σ) k (xs.map (permute σ)))
  fit : ∀ h is r vm vm', RV vm vm' → SameOutcome RV (comp.fit h is r vm)
    (comp'.fit (h.permute σ) is (r.permute σ) vm')
  aggregate : ∀ vm vm', RV vm vm' → SameOutcome RS (comp.aggregate vm) (comp'.aggregate vm')
  solve : ∀ sm sm' r, RS sm sm' →
    SameOutcome (PermutedSub σ) (comp.solve sm r) (comp'.solve sm' (r.permute σ))
  initModel : ∀ h r, RV (comp.initModel h r) (comp'.initModel (h.permute σ) (r.permute σ))
  gradNorm : ∀ sm sm', RS sm sm' → comp'.gradNorm sm' = comp.gradNorm sm
  noiseSigma : noisy = true → ∀ h r,
    comp'.noiseSigma (h.permute σ) (r.permute σ) = comp.noiseSigma h r
  rhoNoise : noisy = true → ∀ it h xs vm vm' old old' r, RV vm vm' → RV old old' →
    comp'.rhoNoise it (h.permute σ) (xs.map (permute σ)) vm' old' (r.permute σ) =
      comp.rhoNoise it h xs vm old r

end Tranquilo
