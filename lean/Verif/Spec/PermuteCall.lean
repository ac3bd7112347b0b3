import Verif.Spec.PermuteBuiltin
import Verif.Model.TranquiloCall

/-!
# Specification: a call with the parameters in another order
-/

namespace Tranquilo

variable {K O : Type} [Field K] [LinearOrder K] {n m : Nat}

/-- The environment of a call with the parameters of the criterion in another order (see
`BuiltinSettings.permute`). -/
def Externals.permute (σ : Equiv.Perm (Fin n)) (ext : Externals K O n m) : Externals K O n m :=
  { ext with
    oracle := fun k y => ext.oracle k (Tranquilo.permute σ.symm y)
    data := fun h => ext.data (h.permute σ.symm)
    start := fun h => ext.start (h.permute σ.symm)
    rng := fun it round h => (ext.rng it round (h.permute σ.symm)).permute σ
    fvecs := fun h => ext.fvecs (h.permute σ.symm)
    draws := fun it h => ext.draws it (h.permute σ.symm) }

/-- An optimizer for boxes that treats all parameters alike (assumption about `scipy.optimize.minimize`). -/
def ScipyOrderFree (σ : Equiv.Perm (Fin n)) (scipy : ScipyMinimize K n) : Prop :=
  ∀ (f f' : Vec K n → K), (∀ x, f' (permute σ x) = f x) → ∀ x0 l u,
    (scipy f' (permute σ x0) (permute σ l) (permute σ u)).x = permute σ (scipy f x0 l u).x

/-- Norm, optimizers and the subsolvers that are called treat all parameters alike; `np.linalg.lstsq` does what its
documentation says. -/
structure Externals.OrderFree (σ : Equiv.Perm (Fin n)) (ext : Externals K O n m) (sphere cube : String) : Prop where
  nrm : ∀ v : Vec K n, ext.nrm (Tranquilo.permute σ v) = ext.nrm v
  lstsq : LstsqSpec ext.lstsq
  minimize : ∀ algorithm options (f f' : List (Row K n) → XVal K),
    (∀ x, f' (x.map fun p => p.map (Tranquilo.permute σ)) = f x) →
      ∀ x0, ext.minimize algorithm options f' (x0.map fun p => p.map (Tranquilo.permute σ)) =
        (ext.minimize algorithm options f x0).map fun p => p.map (Tranquilo.permute σ)
  scipy : ScipyOrderFree σ ext.scipy
  sphere : ∀ options, SolverOrderFree σ (ext.solver sphere options)
  cube : ∀ options, SolverOrderFree σ (ext.solver cube options)

/-- Arguments that do not treat single parameters differently: the components are given by name, the fitter is not
"powell", and if the sample size is a function of the start vector it does not depend on the order. -/
structure OrderFreeArguments (a : Arguments K O (Option (Piece K n))) (sphere cube : String) : Prop where
  sampler : ∃ s, a.sampler = .str s
  fitter : a.modelFitter = none ∨ ∃ s, a.modelFitter = some (.str s) ∧ s ≠ "powell"
  sphere : a.sphereSubsolver = .str sphere
  cube : a.cubeSubsolver = .str cube
  sampleSize : ∀ g, a.sampleSize = .callable g → ∀ l l' : List K, l.Perm l' → g l' = g l

end Tranquilo
