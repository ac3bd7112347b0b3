import Verif.Model.Aggregate
import Verif.Model.FitModels
import Verif.Model.History

/-!
# Small functions that the main loop does not call
-/

namespace Tranquilo

variable {K : Type} [Field K] [LinearOrder K] {n m : Nat}

/-- The argument of `is_second_order_model`: a name, a model of either kind, or something else. -/
inductive ModelOrInfo (K : Type) (n m : Nat) where
  | name (s : String)
  | scalar (s : ScalarModel K n)
  | vector (v : VectorModel K n m)
  | other

/-- `is_second_order_model`, models.py:287-295. -/
def isSecondOrder : ModelOrInfo K n m → Except Err Bool
  | .name s => .ok (s = "quadratic")
  | .scalar s => .ok s.squareTerms.isSome
  | .vector v => .ok v.squareTerms.isSome
  | .other => .error .typeError

/-- `get_default_subsolver`, options.py:70-71. -/
def defaultSubsolver {α : Type} (b : RawBounds K n) (cube sphere : α) : α := if b.hasAny then cube else sphere

/-- The argument `weighter` of `get_sample_weighter`. -/
inductive Weighter (X R B W : Type) where
  | str (s : String)
  | callable (f : X → R → B → W)
  | other

/-- `get_sample_weighter`, weighting.py:4-23, with `no_weights`, weighting.py:26-27. `none` is Python's `None`. -/
def sampleWeighter {X R B W : Type} (weighter : Weighter X R B (Option W)) (bounds : B) :
    Except Err (X → R → Option W) :=
  match weighter with
  | .str s => if s = "no_weights" then .ok fun _ _ => none else .error .keyError
  | .callable f => .ok fun xs region => f xs region bounds
  | .other => .error .typeError

/-- The name of the type of a function as it is stored in a history, history.py:15. -/
def Functype.pyName : Functype → String
  | .scalar => "scalar"
  | .likelihood => "likelihood"
  | .leastSquares => "least_squares"

/-- `History.__repr__`, history.py:213-214. -/
def History.repr {V : Type} (h : History V) : String :=
  s!"History for {h.functype.pyName} function with {h.n_fun} entries."

/-- A trace of a figure: its name and whether it is shown in the legend. -/
structure Trace2d (N : Type) where
  name : N
  showlegend : Bool

/-- `disable_legend_if_duplicate` for all traces in turn, visualize.py:505-512. `seen` is `trace_names`. -/
def cleanLegendFrom {N : Type} [DecidableEq N] : List N → List (Trace2d N) → List (Trace2d N)
  | _, [] => []
  | seen, t :: rest =>
    if t.name ∈ seen then { t with showlegend := false } :: cleanLegendFrom seen rest
    else t :: cleanLegendFrom (t.name :: seen) rest

/-- `_clean_legend_duplicates`, visualize.py:502-513. -/
def cleanLegend {N : Type} [DecidableEq N] (traces : List (Trace2d N)) : List (Trace2d N) :=
  cleanLegendFrom [] traces

end Tranquilo
