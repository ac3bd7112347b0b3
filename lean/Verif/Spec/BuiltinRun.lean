import Verif.Model.BuiltinRun
import Verif.Spec.MainLoopRaise
import Verif.Spec.Models
import Verif.Spec.Samplers
import Verif.Spec.Subsolver
import Verif.Spec.Region

/-!
# Specification: settings of the built in components with which a run does not raise
-/

namespace Tranquilo

variable {K : Type} [Field K] [LinearOrder K] {n m : Nat}

/-- Options of the filter that make sense. -/
def FilterChoice.Valid : FilterChoice K → Prop
  | .discardAll => True
  | .keepAll => True
  | .clustering strictness shape => 0 ≤ strictness ∧ shape = "sphere"
  | .dropExcess nMaxFactor => 0 ≤ nMaxFactor

/-- The aggregator fits to the number of residuals and to the type of the model. -/
def AggregatorFits (name : String) (m : Nat) (mt : ModelType) : Prop :=
  (name = "identity" ∧ m = 1) ∨ (name = "sum" ∧ mt = .quadratic) ∨
    name = "information_equality_linear" ∨ name = "least_squares_linear"

/-- A model as the aggregators produce it: with a symmetric matrix of square terms. -/
def SolvableModel (model : ScalarModel K n) : Prop := ∃ h, model.squareTerms = some h ∧ SymmetricMat h

/-- Settings with which the noise can be estimated and simulated: points are evaluated repeatedly, and all
evaluations are finite (that this is needed is C105). -/
structure SafeNoise (c : Config K) (b : BuiltinSettings K n m) : Prop where
  repeats : RepeatsEvaluations c
  distance : 0 ≤ b.noiseDistance
  minEvals : 2 ≤ b.noiseMinEvals
  draws : 0 ≤ b.nDraws
  finite : ∀ k x, (b.oracle k x).isFinite = true
  /-- there is a vector for every evaluation, and it is finite if the value is -/
  rows : ∀ log i, (b.fvecs log i).length = (log.fvals i).length
  finiteRows : ∀ log, (∀ e ∈ log.evals, e.2.isFinite = true) → ∀ i, ∀ row ∈ b.fvecs log i, ∀ k,
    (row k).isFinite = true

/-- Settings with which the built in components do not raise. The first group are contracts of numpy
and scipy, the second conditions on the options, the third conditions on the subsolvers. -/
structure SafeSettings (c : Config K) (b : BuiltinSettings K n m) (bounds : Bounds K n) : Prop where
  zero : b.nrm (fun _ => 0) = 0
  root : SqrtSpec b.root
  radial : RadialSpec b.radial
  cubeRadius : ∀ a, 0 < a → 0 < b.cubeRadius a
  dimRoot : ∀ a, 0 ≤ a → 0 ≤ b.dimRoot a
  rng : ∀ it round log, RngSpec (b.rng it round log)
  filter : b.filter.Valid
  sampler : b.sampler.Valid
  aggregator : AggregatorFits b.aggregator m b.modelType
  /-- no fixed parameters -/
  sides : ∀ i l u, bounds.lower i = some l → bounds.upper i = some u → l < u
  /-- if there is noise -/
  noise : c.noisy = true → SafeNoise c b
  values : ∀ m rf, c.decider = .lineSearch m rf → c.batchSize = 1 ∨ ∀ k x, b.oracle k x ≠ .nan
  /-- the solver for balls or, with retry, its fallback returns; the start is the center of the ball -/
  sphere : ∀ model, SolvableModel model →
    ∃ raw, callSolver b.retry b.sphere b.fallbackSphere model (fun _ => 0) = .ok raw
  /-- the solver for boxes or, with retry, its fallback returns; the start is in the box -/
  cube : ∀ model, SolvableModel model → ∀ x, (∀ i, -1 ≤ x i ∧ x i ≤ 1) →
    ∃ raw, callSolver b.retry b.cube b.fallbackCube model x = .ok raw
  /-- there are no bounds, or the solvers for balls stay in the ball -/
  ball : (∀ y, InBounds bounds y) ∨ ∀ model, SolvableModel model → ∀ x raw,
    (b.sphere model x = .ok raw → sumSq raw.x ≤ 1) ∧
    (b.fallbackSphere model x = .ok raw → sumSq raw.x ≤ 1)

end Tranquilo
