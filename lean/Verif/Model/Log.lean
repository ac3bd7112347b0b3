import Verif.Model.Region
import Verif.Model.History

/-!
# The history as seen by the optimizer

The acceptance deciders and the main loop are modelled over the abstract content of a history: the
list of stored vectors and the list of recorded evaluations (index of the point, scalar function
value) in the order of recording. That the real data structure (`Model/History.lean`, explicit buffers)
implements exactly this is what C01 - C05 and C08 prove (`Props/History.lean`,
`Props/WrapCriterion.lean`), and C104 for all calls of whole runs (`Props/HistoryRefinement.lean`).

Vector valued evaluations only matter for fitting models; in these models the fitter is an arbitrary
function, so only the scalar values are kept.
-/

namespace Tranquilo

variable {K : Type} [Field K] [LinearOrder K] {n : Nat}

/-- Abstract content of a `History`. -/
structure Log (K : Type) (n : Nat) where
  xs : List (Vec K n)
  evals : List (Nat × XVal K)

/-- The criterion as the optimizer sees it through `wrap_criterion.py`: the value that is recorded when
the `k`-th evaluation of the run happens at `x`. It may depend on `k` (noise). -/
abbrev Oracle (K : Type) (n : Nat) := Nat → Vec K n → XVal K

namespace Log

/-- `history.add_xs(rows)`: new indices are consecutive (history.py:35-64, see C01). -/
def addXs (h : Log K n) (rows : List (Vec K n)) : Log K n × List Nat :=
  ({ h with xs := h.xs ++ rows }, (List.range rows.length).map fun k => h.xs.length + k)

/-- `history.add_xs(x)` for a single vector. -/
def addX (h : Log K n) (x : Vec K n) : Log K n × Nat :=
  ({ h with xs := h.xs ++ [x] }, h.xs.length)

/-- One evaluation at the point with index `i`. Invalid indices do not occur (see C62); the model
then records nothing. -/
def evalOne (oracle : Oracle K n) (h : Log K n) (i : Nat) : Log K n :=
  match h.xs[i]? with
  | some x => { h with evals := h.evals ++ [(i, oracle h.evals.length x)] }
  | none => h

/-- `wrapped_criterion(eval_info)`, wrap_criterion.py:31-71: each point as often as requested (C08). -/
def evaluate (oracle : Oracle K n) (h : Log K n) (request : List (Nat × Nat)) : Log K n :=
  (request.flatMap fun p => List.replicate p.2 p.1).foldl (evalOne oracle) h

/-- `history.get_fvals(i)` (C02, C03). -/
def fvals (h : Log K n) (i : Nat) : List (XVal K) :=
  (h.evals.filter fun p => p.1 = i).map Prod.snd

/-- `history.get_n_fun()`, history.py:198-199 (C04). -/
def nFun (h : Log K n) : Nat := h.evals.length

/-- `history.get_x_indices_in_region(region)`, history.py:204-211, `nrm` is `np.linalg.norm` (C05). -/
def indicesInRegion (nrm : Vec K n → K) (h : Log K n) (center : Vec K n) (radius : K) : List Nat :=
  if h.evals = [] then []
  else (List.range h.xs.length).filter fun i =>
    match h.xs[i]? with
    | some x => decide (nrm (fun j => x j - center j) ≤ radius)
    | none => false

/-- `history.get_xs(indices)`. -/
def getXs (h : Log K n) (is : List Nat) : List (Vec K n) := is.filterMap fun i => h.xs[i]?

end Log

/-- `np.mean` of a list of criterion values; NaN for an empty list. -/
def XVal.mean (l : List (XVal K)) : XVal K :=
  if l = [] then .nan else FloatLike.divNat l.sum l.length

end Tranquilo
