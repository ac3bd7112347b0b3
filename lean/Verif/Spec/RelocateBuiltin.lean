import Verif.Spec.Relocate
import Verif.Model.BuiltinRun

/-!
# Specification: the built in components with another origin and another unit of the parameters
-/

namespace Tranquilo

variable {K : Type} [Field K] [LinearOrder K] {n m : Nat}

/-- A history with the points in the old coordinates. -/
def Log.relocateBack (s : K) (a : Vec K n) (h : Log K n) : Log K n :=
  { xs := h.xs.map (Tranquilo.relocateBack s a), evals := h.evals }

/-- The same problem in the new coordinates: the user's criterion first converts its argument to the old
coordinates. Everything that stands for results of the criterion or for random numbers is therefore the
same as for the history in the old coordinates. All options of the components stay as they are. -/
def BuiltinSettings.relocate (s : K) (a : Vec K n) (b : BuiltinSettings K n m) :
    BuiltinSettings K n m :=
  { b with
    oracle := fun k y => b.oracle k (relocateBack s a y)
    data := fun h => b.data (h.relocateBack s a)
    start := fun h => b.start (h.relocateBack s a)
    rng := fun it round h => b.rng it round (h.relocateBack s a)
    fvecs := fun h => b.fvecs (h.relocateBack s a)
    draws := fun it h => b.draws it (h.relocateBack s a) }

/-- A subsolver that only looks at the model as a function on the unit region, not at the place and the
size of the region. -/
def SolverPlaceFree (solver : SubSolver K n) : Prop :=
  ∀ (model : ScalarModel K n) (scale shift x : Vec K n),
    solver { model with scale := scale, shift := shift } x = solver model x

end Tranquilo
