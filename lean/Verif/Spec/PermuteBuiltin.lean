import Verif.Spec.Permute
import Verif.Spec.Fit
import Verif.Model.BuiltinRun

/-!
# Specification: the built in components with the parameters in another order
-/

namespace Tranquilo

variable {K : Type} [Field K] [LinearOrder K] {n m : Nat}

/-- A vector model in the new order. -/
def VectorModel.permute (σ : Equiv.Perm (Fin n)) (v : VectorModel K n m) : VectorModel K n m where
  intercepts := v.intercepts
  linearTerms k i := v.linearTerms k (σ i)
  squareTerms := v.squareTerms.map fun h k i j => h k (σ i) (σ j)
  scale := Tranquilo.permute σ v.scale
  shift := Tranquilo.permute σ v.shift

/-- A scalar model in the new order. -/
def ScalarModel.permute (σ : Equiv.Perm (Fin n)) (v : ScalarModel K n) : ScalarModel K n where
  intercept := v.intercept
  linearTerms := Tranquilo.permute σ v.linearTerms
  squareTerms := v.squareTerms.map fun h i j => h (σ i) (σ j)
  scale := Tranquilo.permute σ v.scale
  shift := Tranquilo.permute σ v.shift

/-- The same random vectors with their entries in the new order. -/
def SampleRng.permute (σ : Equiv.Perm (Fin n)) (rng : SampleRng K n) : SampleRng K n where
  normal k := (rng.normal k).map (Tranquilo.permute σ)
  uniform01 k := (rng.uniform01 k).map (Tranquilo.permute σ)
  normalBlocks m k := (rng.normalBlocks m k).map fun b => b.map (Tranquilo.permute σ)
  uniformBlocks01 m k := (rng.uniformBlocks01 m k).map fun b => b.map (Tranquilo.permute σ)

/-- The same problem in the new order: the user's criterion first puts its argument into the old order.
Everything that stands for results of the criterion is therefore the same as for the history in the
old order. The random vectors that the samplers draw are the same up to the order of their entries
(which does not change their distribution). All options of the components stay as they are. -/
def BuiltinSettings.permute (σ : Equiv.Perm (Fin n)) (b : BuiltinSettings K n m) :
    BuiltinSettings K n m :=
  { b with
    oracle := fun k y => b.oracle k (Tranquilo.permute σ.symm y)
    data := fun h => b.data (h.permute σ.symm)
    start := fun h => b.start (h.permute σ.symm)
    rng := fun it round h => (b.rng it round (h.permute σ.symm)).permute σ
    fvecs := fun h => b.fvecs (h.permute σ.symm)
    draws := fun it h => b.draws it (h.permute σ.symm) }

/-- A subsolver that treats all parameters alike. -/
def SolverOrderFree (σ : Equiv.Perm (Fin n)) (solver : SubSolver K n) : Prop :=
  ∀ (model : ScalarModel K n) (x : Vec K n), SameOutcome (fun r r' => r'.x = permute σ r.x)
    (solver model x) (solver (model.permute σ) (permute σ x))

/-- The same for the optimizer that the optimal sampler calls. -/
def SamplerOrderFree (σ : Equiv.Perm (Fin n)) : BuiltInSampler K n → Prop
  | .optimalHull o => ∀ (f f' : List (Row K n) → XVal K),
      (∀ x, f' (x.map fun p => p.map (permute σ)) = f x) →
      ∀ x0, o.minimize f' (x0.map fun p => p.map (permute σ)) =
        (o.minimize f x0).map fun p => p.map (permute σ)
  | _ => True

/-- What is needed from the settings: norm, subsolvers and the optimizer of the optimal sampler treat all
parameters alike; `np.linalg.lstsq` does what its documentation says; the fitter is not "powell". -/
structure OrderFreeSettings (σ : Equiv.Perm (Fin n)) (b : BuiltinSettings K n m) : Prop where
  nrm : ∀ v : Vec K n, b.nrm (permute σ v) = b.nrm v
  lstsq : LstsqSpec b.lstsq
  sampler : SamplerOrderFree σ b.sampler
  fitter : b.fitter ≠ .powell
  sphere : SolverOrderFree σ b.sphere
  cube : SolverOrderFree σ b.cube
  fallbackSphere : SolverOrderFree σ b.fallbackSphere
  fallbackCube : SolverOrderFree σ b.fallbackCube

end Tranquilo
