import Verif.Model.MainLoop
import Verif.Model.Filter
import Verif.Model.Volume
import Verif.Model.Visualize

/-!
# Model of the data that `visualize_tranquilo` plots

`result.history` is the record that the optimizer keeps of the evaluations: one entry for every evaluation of the
criterion, in the order of the evaluations. Colors, titles and axes are not modelled.
-/

namespace Tranquilo

variable {K : Type} [Field K] [LinearOrder K] {n : Nat} {VM SM : Type}

/-- `result.history["params"]`, visualize.py:86: the parameters of every evaluation. -/
def paramsHistory (log : Log K n) : List (Vec K n) := log.evals.filterMap fun e => log.xs[e.1]?

/-- `result.history["criterion"]`, visualize.py:87: the value of every evaluation. -/
def criterionHistory (log : Log K n) : List (XVal K) := log.evals.map Prod.snd

/-- Indexing of an array with an array of positions: a position that does not exist raises an `IndexError`. -/
def rowsAt {α : Type} (history : List α) (ids : List Nat) : Except Err (List α) :=
  ids.mapM fun i => match history[i]? with
    | some a => .ok a
    | none => .error .indexError

/-- The markers of one color in `_plot_criterion`, visualize.py:135-181: pairs of position and value. -/
def markers (history : List (XVal K)) (ids : List Nat) : Except Err (List (Nat × XVal K)) :=
  (rowsAt history ids).map fun ys => ids.zip ys

/-- The traces of `_plot_criterion`, visualize.py:121-199. -/
structure CriterionPlot (K : Type) where
  /-- the grey line -/
  line : List (XVal K)
  existing : List (Nat × XVal K)
  new : List (Nat × XVal K)
  discarded : List (Nat × XVal K)
  /-- the star -/
  current : List (Nat × XVal K)

/-- `_plot_criterion`, visualize.py:121-199. -/
def criterionPlot (history : List (XVal K)) (s : LoopState K n VM SM) : Except Err (CriterionPlot K) := do
  let existing ← markers history s.oldIndicesUsed
  let new ← markers history s.newIndices
  let discarded ← markers history s.oldIndicesDiscarded
  let current ← markers history [s.index]
  pure { line := history, existing := existing, new := new, discarded := discarded, current := current }

/-- One row of the data frame of `_get_sample_points`. -/
structure SampleRow (K : Type) (n : Nat) where
  index : Nat
  point : Vec K n
  label : Option String

/-- `_get_sample_points`, visualize.py:437-458, for states with the attribute `old_indices_discarded`. -/
def samplePoints (history : List (Vec K n)) (s : LoopState K n VM SM) : Except Err (List (SampleRow K n)) := do
  let current ← rowsAt history s.modelIndices
  let discarded ← rowsAt history s.oldIndicesDiscarded
  let cases ← samplePointCases s.modelIndices s.newIndices s.oldIndicesUsed s.oldIndicesDiscarded
  pure (List.zipWith (fun c p => ⟨c.1, p, c.2⟩) cases (current ++ discarded))

/-- The corners `(x0, y0, x1, y1)` of the circle of `_plot_sample_points`, visualize.py:204-215. -/
def circleCorners (center : List K) (radius : K) : Except Err (K × K × K × K) :=
  match center[0]?, center[1]? with
  | some a, some b => .ok (a - radius, b - radius, a + radius, b + radius)
  | _, _ => .error .indexError

/-- `_plot_sample_points`, visualize.py:202-265, up to the heat map: the points, and for at most two parameters
the circle. -/
def samplePointsPlot (history : List (Vec K n)) (s : LoopState K n VM SM) :
    Except Err (List (SampleRow K n) × Option (K × K × K × K)) := do
  let points ← samplePoints history s
  if n ≤ 2 then
    let circle ← circleCorners (List.ofFn s.trustregion.center) s.trustregion.radius
    pure (points, some circle)
  else pure (points, none)

/-- `_plot_radii`, visualize.py:268-281. -/
def radiiPlot (states : List (LoopState K n VM SM)) : List K := states.map fun s => s.trustregion.radius

/-- One entry of `np.clip(rhos[~pd.isna(rhos)], -1, 3)`, visualize.py:286; NaN is left as it is. -/
def plottedRho (rho : XVal K) : XVal K :=
  if rho.isNan then rho else if rho < .fin (-1) then .fin (-1) else if .fin 3 < rho then .fin 3 else rho

/-- `_plot_rhos`, visualize.py:284-298. -/
def rhosPlot (states : List (LoopState K n VM SM)) : List (XVal K) := states.map fun s => plottedRho s.rho

/-- The highlighted point of `plot_line_with_lighlighted_point`, visualize.py:461-500: `(x, y)`. -/
def highlighted {α : Type} (y : List α) (iteration : Nat) : Except Err (Nat × α) :=
  match y[iteration]? with
  | some a => .ok (iteration, a)
  | none => .error .indexError

/-- One of the two rows of distances of `_plot_distances_from_center`, visualize.py:371-386; `nrm` is the L2 or the
infinity norm. A radius of zero is not modelled. -/
def distancesPlot (nrm : Vec K n → K) (history : List (Vec K n)) (s : LoopState K n VM SM) : Except Err (List K) :=
  (rowsAt history s.modelIndices).map fun points =>
    points.map fun p => nrm (fun i => p i - s.trustregion.center i) / s.trustregion.radius

/-- `n_clusters / n_points` for one state, visualize.py:329-337, with the factor `f`. Without points the
division in line 331 raises. -/
noncomputable def clusterRatio (nrm : Vec ℝ n → ℝ) (history : List (Vec ℝ n)) (f : ℕ) (s : LoopState ℝ n VM SM) :
    Except Err ℝ :=
  match rowsAt history s.modelIndices with
  | .error e => .error e
  | .ok points =>
    if f * points.length = 0 then .error .zeroDivisionError
    else
      let radius := radiusAfterVolumeScaling s.trustregion.radius n (1 / (f * points.length))
      match clusterFuel (fun i j : Fin points.length => nrm fun k => points[i] k - points[j] k) radius
          (points.length + 1) with
      | some (.ok c) => .ok (c.centers.length / points.length)
      | some (.error e) => .error e
      | none => .error .indexError

/-- The line of `_plot_clusters_points_ratio` for one factor, visualize.py:326-337. -/
noncomputable def clusterPlot (nrm : Vec ℝ n → ℝ) (history : List (Vec ℝ n)) (f : ℕ)
    (states : List (LoopState ℝ n VM SM)) : Except Err (List (XVal ℝ)) :=
  ((states.drop 1).mapM (clusterRatio nrm history f)).map fun ratios => .nan :: ratios.map .fin

/-- `_get_fekete_criterion`, visualize.py:422-434, drawn by `_plot_fekete_criterion`, visualize.py:304-317. -/
noncomputable def feketePlot (cr : ℝ → ℝ) (history : List (Vec ℝ n)) (states : List (LoopState ℝ n VM SM)) :
    Except Err (List (XVal ℝ)) :=
  ((states.drop 1).mapM fun s => (rowsAt history s.modelIndices).map fun sample =>
    logDQuality cr s.trustregion sample).map fun out => .nan :: out

/-- The argument `results` of `visualize_tranquilo`: a result or a dictionary. -/
inductive ResultsArg (R : Type) where
  | single (r : R)
  | dict (l : List (String × R))

/-- The argument `iterations` of `visualize_tranquilo`. -/
inductive IterationsArg where
  | int (i : Int)
  | list (l : List Int)
  | dict (l : List (String × Int))

/-- The columns of the figure, visualize.py:54-62 and 80-85: name, result and iteration. `process` is `_process_results`. A
single result cannot be iterated over; a dictionary of iterations for a single result is not modelled (it is
said to raise, which it does for keys that are not numbers). Repeated iterations give the same column once. Empty
dictionaries of results, for which the width of the columns is not defined, are not modelled. -/
def plotCases {R : Type} (process : R → Except Err R) : ResultsArg R → IterationsArg →
    Except Err (List (String × R × Int))
  | .dict l, .int i => l.mapM fun e => (process e.2).map fun r => (e.1, r, i)
  | .single _, .int _ => .error .typeError
  | .single r, .list l => (process r).map fun r => l.eraseDups.map fun i => (s!"iteration {i}", r, i)
  | .single _, .dict _ => .error .typeError
  | .dict l, .dict its => l.mapM fun e => match its.lookup e.1 with
    | some i => .ok (e.1, e.2, i)
    | none => .error .keyError
  | .dict _, .list _ => .error .typeError

end Tranquilo
