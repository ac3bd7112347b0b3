import Verif.Spec.Mirror
import Verif.Spec.Fit
import Verif.Model.BuiltinRun

/-!
# Specification: the built in components with mirrored parameters
-/

namespace Tranquilo

variable {K : Type} [Field K] [LinearOrder K] {n m : Nat}

/-- A vector model in mirrored parameters. -/
def VectorModel.mirror (σ : Fin n → Bool) (v : VectorModel K n m) : VectorModel K n m where
  intercepts := v.intercepts
  linearTerms k := Tranquilo.mirror σ (v.linearTerms k)
  squareTerms := v.squareTerms.map fun h k i j => if σ i = σ j then h k i j else -h k i j
  scale := v.scale
  shift := Tranquilo.mirror σ v.shift

/-- A scalar model in mirrored parameters. -/
def ScalarModel.mirror (σ : Fin n → Bool) (v : ScalarModel K n) : ScalarModel K n where
  intercept := v.intercept
  linearTerms := Tranquilo.mirror σ v.linearTerms
  squareTerms := v.squareTerms.map fun h i j => if σ i = σ j then h i j else -h i j
  scale := v.scale
  shift := Tranquilo.mirror σ v.shift

/-- Mirrored draws from the unit interval. -/
def mirror01 (σ : Fin n → Bool) (u : Vec K n) : Vec K n := fun i => if σ i then 1 - u i else u i

/-- The mirrored random vectors. This does not change their distribution. -/
def SampleRng.mirror (σ : Fin n → Bool) (rng : SampleRng K n) : SampleRng K n where
  normal k := (rng.normal k).map (Tranquilo.mirror σ)
  uniform01 k := (rng.uniform01 k).map (mirror01 σ)
  normalBlocks m k := (rng.normalBlocks m k).map fun b => b.map (Tranquilo.mirror σ)
  uniformBlocks01 m k := (rng.uniformBlocks01 m k).map fun b => b.map (mirror01 σ)

/-- The same problem in mirrored parameters: the user's criterion first mirrors its argument back.
Everything that stands for results of the criterion is therefore the same as for the original history.
The random vectors that the samplers draw are mirrored too (which does not change their distribution).
All options of the components stay as they are. -/
def BuiltinSettings.mirror (σ : Fin n → Bool) (b : BuiltinSettings K n m) :
    BuiltinSettings K n m :=
  { b with
    oracle := fun k y => b.oracle k (Tranquilo.mirror σ y)
    data := fun h => b.data (h.mirror σ)
    start := fun h => b.start (h.mirror σ)
    rng := fun it round h => (b.rng it round (h.mirror σ)).mirror σ
    fvecs := fun h => b.fvecs (h.mirror σ)
    draws := fun it h => b.draws it (h.mirror σ) }

/-- A subsolver for which the directions of the parameters do not matter. -/
def SolverMirrorFree (σ : Fin n → Bool) (solver : SubSolver K n) : Prop :=
  ∀ (model : ScalarModel K n) (x : Vec K n), SameOutcome (fun r r' => r'.x = mirror σ r.x)
    (solver model x) (solver (model.mirror σ) (mirror σ x))

/-- The same for the optimizer that the optimal sampler calls. -/
def SamplerMirrorFree (σ : Fin n → Bool) : BuiltInSampler K n → Prop
  | .optimalHull o => ∀ (f f' : List (Row K n) → XVal K),
      (∀ x, f' (x.map fun p => p.map (mirror σ)) = f x) →
      ∀ x0, o.minimize f' (x0.map fun p => p.map (mirror σ)) =
        (o.minimize f x0).map fun p => p.map (mirror σ)
  | _ => True

/-- What is needed from the settings: norm, subsolvers and the optimizer of the optimal sampler do
not depend on the directions of the parameters; `np.linalg.lstsq` does what its documentation says; the fitter is not "powell". -/
structure MirrorFreeSettings (σ : Fin n → Bool) (b : BuiltinSettings K n m) : Prop where
  nrm : ∀ v : Vec K n, b.nrm (mirror σ v) = b.nrm v
  lstsq : LstsqSpec b.lstsq
  sampler : SamplerMirrorFree σ b.sampler
  fitter : b.fitter ≠ .powell
  sphere : SolverMirrorFree σ b.sphere
  cube : SolverMirrorFree σ b.cube
  fallbackSphere : SolverMirrorFree σ b.fallbackSphere
  fallbackCube : SolverMirrorFree σ b.fallbackCube

end Tranquilo
