import Verif.Spec.Rotate
import Verif.Spec.Fit
import Verif.Model.BuiltinRun

/-!
# Specification: the built in components in other coordinates
-/

namespace Tranquilo

variable {K : Type} [Field K] [LinearOrder K] {n m : Nat}

/-- The matrix of second derivatives in the new coordinates. -/
def rotateHess (R : Mat K n n) (h : Mat K n n) : Mat K n n := fun i j => ∑ a, ∑ b, R i a * h a b * R j b

/-- A vector model in the new coordinates. -/
def VectorModel.rotate (R : Mat K n n) (v : VectorModel K n m) : VectorModel K n m where
  intercepts := v.intercepts
  linearTerms k := Tranquilo.rotate R (v.linearTerms k)
  squareTerms := v.squareTerms.map fun h k => rotateHess R (h k)
  scale := v.scale
  shift := Tranquilo.rotate R v.shift

/-- A scalar model in the new coordinates. -/
def ScalarModel.rotate (R : Mat K n n) (v : ScalarModel K n) : ScalarModel K n where
  intercept := v.intercept
  linearTerms := Tranquilo.rotate R v.linearTerms
  squareTerms := v.squareTerms.map (rotateHess R)
  scale := v.scale
  shift := Tranquilo.rotate R v.shift

/-- Related vector models: the model in the new coordinates; the region it was fitted in is a sphere. -/
def RotatedModel (R : Mat K n n) (v v' : VectorModel K n m) : Prop :=
  v' = v.rotate R ∧ ∃ c, v.scale = fun _ => c

/-- The rotated normally distributed random vectors. This does not change their distribution. The uniformly distributed
ones are not used. -/
def SampleRng.rotate (R : Mat K n n) (rng : SampleRng K n) : SampleRng K n where
  normal k := (rng.normal k).map (Tranquilo.rotate R)
  uniform01 k := rng.uniform01 k
  normalBlocks m k := (rng.normalBlocks m k).map fun b => b.map (Tranquilo.rotate R)
  uniformBlocks01 m k := rng.uniformBlocks01 m k

/-- The same problem in the new coordinates: the user's criterion first computes the old coordinates of its
argument. Everything that stands for results of the criterion is therefore the same as for the original history.
The random vectors that the samplers draw are rotated too (which does not change their distribution).
All options of the components stay as they are. -/
def BuiltinSettings.rotate (R : Mat K n n) (b : BuiltinSettings K n m) :
    BuiltinSettings K n m :=
  { b with
    oracle := fun k y => b.oracle k (Tranquilo.rotateBack R y)
    data := fun h => b.data (h.rotateBack R)
    start := fun h => b.start (h.rotateBack R)
    rng := fun it round h => (b.rng it round (h.rotateBack R)).rotate R
    fvecs := fun h => b.fvecs (h.rotateBack R)
    draws := fun it h => b.draws it (h.rotateBack R) }

/-- A subsolver that does not depend on the coordinates. -/
def SolverRotationFree (R : Mat K n n) (solver : SubSolver K n) : Prop :=
  ∀ (model : ScalarModel K n) (x : Vec K n), SameOutcome (fun r r' => r'.x = rotate R r.x)
    (solver model x) (solver (model.rotate R) (rotate R x))

/-- Samplers that do not depend on the coordinates: those that draw normally distributed vectors (for spheres this
is the default); the optimizer that the optimal sampler calls does not depend on the coordinates. -/
def SamplerRotationFree (R : Mat K n n) : BuiltInSampler K n → Prop
  | .randomInterior => True
  | .randomHull d => theDistribution d .sphere ≠ "uniform"
  | .optimalHull o => theDistribution o.distribution .sphere ≠ "uniform" ∧
      ∀ (f f' : List (Row K n) → XVal K), (∀ x, f' (x.map fun p => p.map (rotate R)) = f x) →
      ∀ x0, o.minimize f' (x0.map fun p => p.map (rotate R)) =
        (o.minimize f x0).map fun p => p.map (rotate R)

/-- What is needed from the settings: norm, subsolvers and the sampler do
not depend on the coordinates; `np.linalg.lstsq` does what its documentation says; the models of the residuals are linear. -/
structure RotationFreeSettings (R : Mat K n n) (b : BuiltinSettings K n m) : Prop where
  nrm : ∀ v : Vec K n, b.nrm (rotate R v) = b.nrm v
  definite : ∀ v : Vec K n, b.nrm v ≤ 0 ↔ v = fun _ => 0
  normZero : b.nrm (fun _ => 0) = 0
  lstsq : LstsqSpec b.lstsq
  sampler : SamplerRotationFree R b.sampler
  linear : b.modelType = .linear
  sphere : SolverRotationFree R b.sphere
  fallbackSphere : SolverRotationFree R b.fallbackSphere

end Tranquilo
