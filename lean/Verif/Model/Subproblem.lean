import Verif.Model.Models

/-!
# Model of `solve_subproblem.py`

Numbers are finite: models with NaN or infinite coefficients are not modelled.
-/

namespace Tranquilo

variable {K : Type} [Field K] [LinearOrder K] {n : Nat}

/-- The dictionary that subsolvers return. -/
structure RawResult (K : Type) (n : Nat) where
  x : Vec K n
  nIterations : Nat
  success : Bool

/-- A subsolver as `get_component` returns it: it sees the model and the start point in unit
coordinates; the bounds that the template passes are always -1 and 1. -/
abbrev SubSolver (K : Type) (n : Nat) := ScalarModel K n → Vec K n → Except Err (RawResult K n)

/-- `SubproblemResult`, solve_subproblem.py:240-248. -/
structure SubproblemResult (K : Type) (n : Nat) where
  x : Vec K n
  expectedImprovement : K
  nIterations : Nat
  success : Bool
  xUnit : Vec K n
  shape : Shape

/-- The call with the fallback, solve_subproblem.py:180-205. -/
def callSolver (retry : Bool) (solver fallback : SubSolver K n) (model : ScalarModel K n)
    (x : Vec K n) : Except Err (RawResult K n) :=
  match solver model x with
  | .ok r => .ok r
  | .error e => if retry then fallback model x else .error e

/-- `_solve_subproblem_template`, solve_subproblem.py:136-237. -/
def solveSubproblem (cr : K → K) (sphere cube fallbackSphere fallbackCube : SubSolver K n)
    (retry : Bool) (model : ScalarModel K n) (r : Region K n) : Except Err (SubproblemResult K n) :=
  let old := r.mapToUnit cr r.center
  let raw := match r.shape with
    | .sphere => callSolver retry sphere fallbackSphere model old
    | .cube => callSolver retry cube fallbackCube model old
  match raw with
  | .error e => .error e
  | .ok raw =>
    let xRaw := match r.shape with
      | .sphere => raw.x
      | .cube => fun i => npClip (raw.x i) (-1) 1
    let improvement := -(model.predict xRaw - model.predict old)
    if 0 ≤ improvement then
      .ok { x := r.mapFromUnit cr xRaw, expectedImprovement := improvement,
            nIterations := raw.nIterations, success := raw.success, xUnit := xRaw, shape := r.shape }
    else
      .ok { x := r.center, expectedImprovement := 0,
            nIterations := raw.nIterations, success := false, xUnit := old, shape := r.shape }

end Tranquilo
