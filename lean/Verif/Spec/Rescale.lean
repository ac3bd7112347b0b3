import Verif.Model.MainLoopRaise

/-!
# Specification: the same criterion in other units

Every value `v` of the criterion becomes `c * v + d` with a positive number `c`. Infinities and NaN stay.
-/

namespace Tranquilo

variable {K : Type} [Field K] [LinearOrder K] {n : Nat} {VM VM' SM : Type}

/-- A criterion value in other units. -/
def XVal.rescale (c d : K) : XVal K → XVal K
  | .fin a => .fin (c * a + d)
  | .pinf => .pinf
  | .ninf => .ninf
  | .nan => .nan

/-- A history with the same points and evaluations, but the values in other units. -/
def Log.rescale (c d : K) (h : Log K n) : Log K n :=
  { xs := h.xs, evals := h.evals.map fun p => (p.1, p.2.rescale c d) }

/-- Both calls raise the same exception, or both return and the results are related. -/
def SameOutcome {α β : Type} (R : α → β → Prop) : Except Err α → Except Err β → Prop
  | .ok a, .ok b => R a b
  | .error e, .error e' => e = e'
  | _, _ => False

/-- Two states that agree in everything except for the units of the criterion value and the surrogate
models, which are related by `RV` and `RS`. -/
structure SameState (c d : K) (RV : VM → VM' → Prop) (RS : SM → SM → Prop)
    (s : LoopState K n VM SM) (s' : LoopState K n VM' SM) : Prop where
  trustregion : s'.trustregion = s.trustregion
  modelIndices : s'.modelIndices = s.modelIndices
  model : RS s.model s'.model
  vectorModel : RV s.vectorModel s'.vectorModel
  candidateIndex : s'.candidateIndex = s.candidateIndex
  candidateX : s'.candidateX = s.candidateX
  index : s'.index = s.index
  x : s'.x = s.x
  fval : s'.fval = s.fval.rescale c d
  rho : s'.rho = s.rho
  accepted : s'.accepted = s.accepted
  newIndices : s'.newIndices = s.newIndices
  oldIndicesUsed : s'.oldIndicesUsed = s.oldIndicesUsed
  oldIndicesDiscarded : s'.oldIndicesDiscarded = s.oldIndicesDiscarded
  stepLength : s'.stepLength = s.stepLength
  relativeStepLength : s'.relativeStepLength = s.relativeStepLength
  nEvalsPerPoint : s'.nEvalsPerPoint = s.nEvalsPerPoint
  nEvalsAcceptance : s'.nEvalsAcceptance = s.nEvalsAcceptance

/-- Two runs that visit the same points in the same order, take the same decisions and end for the same
reason; the recorded values differ by the change of units only. -/
structure SameCourse (c d : K) (RV : VM → VM' → Prop) (RS : SM → SM → Prop) (r : Run K n VM SM) (r' : Run K n VM' SM) :
    Prop where
  log : r'.log = r.log.rescale c d
  state : SameState c d RV RS r.state r'.state
  states : List.Forall₂ (SameState c d RV RS) r.states r'.states
  nEvals : r'.nEvals = r.nEvals
  converged : r'.converged = r.converged
  msg : r'.msg = r.msg
  stop : r'.stop = r.stop

/-- Solutions of related subproblems: the same candidate, the expected improvement in the new units. -/
def SameSub (c : K) (s s' : SubSolution K n) : Prop :=
  s'.x = s.x ∧ s'.expectedImprovement = c * s.expectedImprovement

/-- Components that respect the change of units. `comp'` is `comp` for the criterion in the new units:
filters and samplers do not look at values, models are fitted in the new units (`RV`, `RS`), a subproblem
in other units has the same solution, and noise is measured in the new units. -/
structure UnitsRespected (c d : K) (noisy : Bool) (RV : VM → VM' → Prop) (RS : SM → SM → Prop)
    (comp : ComponentsR K n VM SM) (comp' : ComponentsR K n VM' SM) : Prop where
  nrm : comp'.nrm = comp.nrm
  cubeRadius : comp'.cubeRadius = comp.cubeRadius
  oracle : ∀ k x, comp'.oracle k x = (comp.oracle k x).rescale c d
  filter : ∀ s s' h t k xs is, SameState c d RV RS s s' →
    comp'.filter s' (h.rescale c d) t k xs is = comp.filter s h t k xs is
  sample : ∀ it round h r k xs,
    comp'.sample it round (h.rescale c d) r k xs = comp.sample it round h r k xs
  fit : ∀ h is r vm vm', RV vm vm' →
    SameOutcome RV (comp.fit h is r vm) (comp'.fit (h.rescale c d) is r vm')
  aggregate : ∀ vm vm', RV vm vm' → SameOutcome RS (comp.aggregate vm) (comp'.aggregate vm')
  solve : ∀ sm sm' r, RS sm sm' → SameOutcome (SameSub c) (comp.solve sm r) (comp'.solve sm' r)
  initModel : ∀ h r, RV (comp.initModel h r) (comp'.initModel (h.rescale c d) r)
  gradNorm : ∀ sm sm', RS sm sm' → comp'.gradNorm sm' = c * comp.gradNorm sm
  noiseSigma : noisy = true → ∀ h r, SameOutcome (fun a b => b = a.map fun s => c * s)
    (comp.noiseSigma h r) (comp'.noiseSigma (h.rescale c d) r)
  rhoNoise : noisy = true → ∀ it h xs vm vm' old old' r, RV vm vm' → RV old old' →
    comp'.rhoNoise it (h.rescale c d) xs vm' old' r = comp.rhoNoise it h xs vm old r

/-- The options of a decider in the new units: only the minimal improvement has units. -/
def DeciderChoice.rescale (c : K) : DeciderChoice K → DeciderChoice K
  | .classic m => .classic (c * m)
  | .naiveNoisy m => .naiveNoisy (c * m)
  | .noisy m zc zp nMin nMax => .noisy (c * m) zc zp nMin nMax
  | .lineSearch m rf => .lineSearch (c * m) rf

/-- All options in the new units: minimal improvement and the absolute tolerances for criterion and
gradient. -/
def Config.rescale (c : K) (g : Config K) : Config K :=
  { g with
    decider := g.decider.rescale c
    conv := { g.conv with ftolAbs := c * g.conv.ftolAbs, gtolAbs := c * g.conv.gtolAbs } }

/-- The options for which units can matter are off: convergence checks with relative tolerances for
criterion and gradient (relative means relative to `max(1, .)`), and the power calculation of the decider
"noisy" for expected improvements below `1e-8`. (Unless the units are the same, `c = 1` and `d = 0`, and only the
components differ.) -/
structure UnitFree (c d : K) (g : Config K) (comp : ComponentsR K n VM SM) : Prop where
  conv : (c = 1 ∧ d = 0) ∨ g.conv.disable = true ∨ (g.conv.gtolRel = 0 ∧ g.conv.ftolRel = 0)
  decider : g.noisy = true → ∀ m zc zp nMin nMax, g.decider = .noisy m zc zp nMin nMax →
    ∀ sm r s, comp.solve sm r = .ok s →
      1 / 100000000 ≤ s.expectedImprovement ∧ 1 / 100000000 ≤ c * s.expectedImprovement

end Tranquilo
