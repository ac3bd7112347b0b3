import Verif.Spec.Rescale

/-!
# Specification: the same problem with another origin and another unit of the parameters

Every parameter vector `x` becomes `s * x + a` with a positive number `s` and a vector `a`. Lengths are
multiplied by `s`. Criterion values stay as they are.
-/

namespace Tranquilo

variable {K : Type} [Field K] [LinearOrder K] {n : Nat} {VM SM : Type}

/-- A parameter vector in the new coordinates. -/
def relocate (s : K) (a : Vec K n) (x : Vec K n) : Vec K n := fun i => s * x i + a i

/-- A parameter vector in the old coordinates. -/
def relocateBack (s : K) (a : Vec K n) (y : Vec K n) : Vec K n := fun i => (y i - a i) / s

/-- A history with the points in the new coordinates. -/
def Log.relocate (s : K) (a : Vec K n) (h : Log K n) : Log K n :=
  { xs := h.xs.map (Tranquilo.relocate s a), evals := h.evals }

/-- Bounds in the new coordinates. -/
def Bounds.relocate (s : K) (a : Vec K n) (b : Bounds K n) : Bounds K n where
  lower i := (b.lower i).map fun l => s * l + a i
  upper i := (b.upper i).map fun u => s * u + a i

/-- A trust region in the new coordinates. -/
def Region.relocate (s : K) (a : Vec K n) (r : Region K n) : Region K n where
  center := Tranquilo.relocate s a r.center
  radius := s * r.radius
  bounds := r.bounds.relocate s a

/-- Two states that agree in everything except for the coordinates of points and regions, and the
surrogate models, which are related by `RV` and `RS`. -/
structure MovedState (s : K) (a : Vec K n) (RV : VM → VM → Prop) (RS : SM → SM → Prop)
    (t t' : LoopState K n VM SM) : Prop where
  trustregion : t'.trustregion = t.trustregion.relocate s a
  modelIndices : t'.modelIndices = t.modelIndices
  model : RS t.model t'.model
  vectorModel : RV t.vectorModel t'.vectorModel
  candidateIndex : t'.candidateIndex = t.candidateIndex
  candidateX : t'.candidateX = relocate s a t.candidateX
  index : t'.index = t.index
  x : t'.x = relocate s a t.x
  fval : t'.fval = t.fval
  rho : t'.rho = t.rho
  accepted : t'.accepted = t.accepted
  newIndices : t'.newIndices = t.newIndices
  oldIndicesUsed : t'.oldIndicesUsed = t.oldIndicesUsed
  oldIndicesDiscarded : t'.oldIndicesDiscarded = t.oldIndicesDiscarded
  stepLength : t'.stepLength = t.stepLength.map fun l => s * l
  relativeStepLength : t'.relativeStepLength = t.relativeStepLength
  nEvalsPerPoint : t'.nEvalsPerPoint = t.nEvalsPerPoint
  nEvalsAcceptance : t'.nEvalsAcceptance = t.nEvalsAcceptance

/-- Two runs that visit the same points in the same order (in different coordinates), record the same
values, take the same decisions and end for the same reason. -/
structure MovedCourse (s : K) (a : Vec K n) (RV : VM → VM → Prop) (RS : SM → SM → Prop)
    (r r' : Run K n VM SM) : Prop where
  log : r'.log = r.log.relocate s a
  state : MovedState s a RV RS r.state r'.state
  states : List.Forall₂ (MovedState s a RV RS) r.states r'.states
  nEvals : r'.nEvals = r.nEvals
  converged : r'.converged = r.converged
  msg : r'.msg = r.msg
  stop : r'.stop = r.stop

/-- Solutions of related subproblems: the same candidate in the new coordinates, the same expected
improvement. -/
def MovedSub (s : K) (a : Vec K n) (u u' : SubSolution K n) : Prop :=
  u'.x = relocate s a u.x ∧ u'.expectedImprovement = u.expectedImprovement

/-- Components that do not depend on the place. `comp'` is `comp` in the new coordinates: if it gets the
same data in the new coordinates it returns the same result in the new coordinates. -/
structure PlaceRespected (s : K) (a : Vec K n) (noisy : Bool) (RV : VM → VM → Prop)
    (RS : SM → SM → Prop) (comp comp' : ComponentsR K n VM SM) : Prop where
  nrm : ∀ v : Vec K n, comp'.nrm (fun i => s * v i) = s * comp.nrm v
  cubeRadius : ∀ r, comp'.cubeRadius (s * r) = s * comp.cubeRadius r
  oracle : ∀ k x, comp'.oracle k (relocate s a x) = comp.oracle k x
  filter : ∀ t t' h size k xs is, MovedState s a RV RS t t' →
    SameOutcome (fun p p' => p' = (p.1.map (relocate s a), p.2)) (comp.filter t h size k xs is)
      (comp'.filter t' (h.relocate s a) size k (xs.map (relocate s a)) is)
  sample : ∀ it round h r k xs, SameOutcome (fun ys ys' => ys' = ys.map (relocate s a))
    (comp.sample it round h r k xs)
    (comp'.sample it round (h.relocate s a) (r.relocate s a) k (xs.map (relocate s a)))
  fit : ∀ h is r vm vm', RV vm vm' → SameOutcome RV (comp.fit h is r vm)
    (comp'.fit (h.relocate s a) is (r.relocate s a) vm')
  aggregate : ∀ vm vm', RV vm vm' → SameOutcome RS (comp.aggregate vm) (comp'.aggregate vm')
  solve : ∀ sm sm' r, RS sm sm' →
    SameOutcome (MovedSub s a) (comp.solve sm r) (comp'.solve sm' (r.relocate s a))
  initModel : ∀ h r, r.radius ≠ 0 →
    RV (comp.initModel h r) (comp'.initModel (h.relocate s a) (r.relocate s a))
  gradNorm : ∀ sm sm', RS sm sm' → comp'.gradNorm sm' = comp.gradNorm sm
  noiseSigma : noisy = true → ∀ h r,
    comp'.noiseSigma (h.relocate s a) (r.relocate s a) = comp.noiseSigma h r
  rhoNoise : noisy = true → ∀ it h xs vm vm' old old' r, RV vm vm' → RV old old' →
    comp'.rhoNoise it (h.relocate s a) (xs.map (relocate s a)) vm' old' (r.relocate s a) =
      comp.rhoNoise it h xs vm old r

/-- All options in the new unit of length: smallest and largest radius, and the absolute tolerance for
the parameters. -/
def Config.relocate (s : K) (g : Config K) : Config K :=
  { g with
    radius := { g.radius with minRadius := s * g.radius.minRadius, maxRadius := s * g.radius.maxRadius }
    conv := { g.conv with xtolAbs := s * g.conv.xtolAbs } }

/-- The options for which origin and unit of the parameters can matter are off: the convergence check
with a tolerance relative to `max(1, |x|)`, and the test of the line search whether the candidate is on
the border of the region, which has an absolute tolerance, and in boxes one relative to the
coordinates. -/
structure PlaceFree (s : K) (a : Vec K n) (g : Config K) (comp comp' : ComponentsR K n VM SM)
    (bounds : Bounds K n) : Prop where
  conv : g.conv.disable = true ∨ (g.conv.xtolRel = 0 ∧ (∀ v, comp.nrm v ≤ 0 ↔ ∀ i, v i = 0) ∧
    ∀ v, comp'.nrm v ≤ 0 ↔ ∀ i, v i = 0)
  border : ∀ m rf, g.decider = .lineSearch m rf → g.batchSize = 1 ∨
    ∀ r x, r.bounds = bounds → isOnBorder comp'.nrm comp'.cubeRadius (r.relocate s a) (relocate s a x)
      (1 / 10) = isOnBorder comp.nrm comp.cubeRadius r x (1 / 10)

end Tranquilo
