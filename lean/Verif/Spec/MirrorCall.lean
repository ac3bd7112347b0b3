import Verif.Spec.MirrorBuiltin
import Verif.Model.TranquiloCall

/-!
# Specification: a call in mirrored parameters
-/

namespace Tranquilo

variable {K O : Type} [Field K] [LinearOrder K] {n m : Nat}

/-- The environment of a call whose criterion mirrors its argument back (see `BuiltinSettings.mirror`). -/
def Externals.mirror (σ : Fin n → Bool) (ext : Externals K O n m) : Externals K O n m :=
  { ext with
    oracle := fun k y => ext.oracle k (Tranquilo.mirror σ y)
    data := fun h => ext.data (h.mirror σ)
    start := fun h => ext.start (h.mirror σ)
    rng := fun it round h => (ext.rng it round (h.mirror σ)).mirror σ
    fvecs := fun h => ext.fvecs (h.mirror σ)
    draws := fun it h => ext.draws it (h.mirror σ) }

/-- An optimizer for boxes for which the directions of the parameters do not matter (assumption about
`scipy.optimize.minimize`). -/
def ScipyMirrorFree (σ : Fin n → Bool) (scipy : ScipyMinimize K n) : Prop :=
  ∀ (f f' : Vec K n → K), (∀ x, f' (mirror σ x) = f x) → ∀ x0 (l u : Vec K n),
    (scipy f' (mirror σ x0) (fun i => if σ i then -u i else l i) fun i => if σ i then -l i else u i).x =
      mirror σ (scipy f x0 l u).x

/-- The directions of the parameters do not matter for norm, optimizers and the subsolvers that are called;
`np.linalg.lstsq` does what its documentation says. -/
structure Externals.MirrorFree (σ : Fin n → Bool) (ext : Externals K O n m) (sphere cube : String) : Prop where
  nrm : ∀ v : Vec K n, ext.nrm (Tranquilo.mirror σ v) = ext.nrm v
  lstsq : LstsqSpec ext.lstsq
  minimize : ∀ algorithm options (f f' : List (Row K n) → XVal K),
    (∀ x, f' (x.map fun p => p.map (Tranquilo.mirror σ)) = f x) →
      ∀ x0, ext.minimize algorithm options f' (x0.map fun p => p.map (Tranquilo.mirror σ)) =
        (ext.minimize algorithm options f x0).map fun p => p.map (Tranquilo.mirror σ)
  scipy : ScipyMirrorFree σ ext.scipy
  sphere : ∀ options, SolverMirrorFree σ (ext.solver sphere options)
  cube : ∀ options, SolverMirrorFree σ (ext.solver cube options)

/-- Arguments for which the directions of the parameters do not matter: the components are given by name, the
fitter is not "powell", and if the sample size is a function of the start vector it does not depend on
signs. -/
structure MirrorFreeArguments (σ : Fin n → Bool) (a : Arguments K O (Option (Piece K n))) (sphere cube : String) : Prop where
  sampler : ∃ s, a.sampler = .str s
  fitter : a.modelFitter = none ∨ ∃ s, a.modelFitter = some (.str s) ∧ s ≠ "powell"
  sphere : a.sphereSubsolver = .str sphere
  cube : a.cubeSubsolver = .str cube
  sampleSize : ∀ g, a.sampleSize = .callable g → ∀ x : Vec K n, g (List.ofFn (mirror σ x)) = g (List.ofFn x)

end Tranquilo
