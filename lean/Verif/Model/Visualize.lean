import Verif.Model.Region
import Verif.Model.Num
import Mathlib.LinearAlgebra.Matrix.Determinant.Basic
import Mathlib.Analysis.SpecialFunctions.Pow.Real

/-!
# Models of `geometry.py` and of the functions of `visualize.py` that compute the plotted data

Drawing itself is not modelled.
-/

namespace Tranquilo

variable {K : Type} [Field K] [LinearOrder K] {n : Nat}

/-- `np.log` with its values at zero and at negative numbers. -/
noncomputable def npLog (a : ℝ) : XVal ℝ :=
  if 0 < a then .fin (Real.log a) else if a = 0 then .ninf else .nan

/-- `points.T @ points`, geometry.py:21. -/
def gramMatrix (points : List (Vec K n)) : Matrix (Fin n) (Fin n) K := fun i j =>
  (points.map fun p => p i * p j).sum

/-- `log_d_quality_calculator`, geometry.py:4-24. Without points the division in line 22 gives NaN. In regions with a
side of length zero the unit coordinates are NaN or infinite (region.py:73-82); the model then always says NaN. -/
noncomputable def logDQuality (cr : ℝ → ℝ) (r : Region ℝ n) (sample : List (Vec ℝ n)) : XVal ℝ :=
  let points := sample.map (r.mapToUnit cr)
  if points.length = 0 ∨ ∃ i, r.effectiveRadius cr i = 0 then .nan
  else
    let det := Matrix.det (fun i j : Fin n => gramMatrix points i j / (points.length : ℝ))
    .fin ((n : ℝ) * Real.log points.length) + npLog det

/-- The loop body of `_find_indices_in_trust_region`, visualize.py:560-567: one row is in the cube. -/
def rowInCube (center : Vec K n) (radius : K) (row : Fin n → XVal K) : Bool :=
  (List.finRange n).all fun j =>
    decide (XVal.fin (center j - radius) ≤ row j) && decide (row j ≤ XVal.fin (center j + radius)) &&
      !(row j).isNan

/-- `_find_indices_in_trust_region`, visualize.py:540-571. -/
def findIndices (xs : List (Fin n → XVal K)) (center : Vec K n) (radius : K) : List Nat :=
  (List.range xs.length).filter fun i =>
    match xs[i]? with
    | some row => rowInCube center radius row
    | none => false

/-- What `_find_index` returns: an array with one entry, or a number. -/
inductive FoundIndex where
  | array (i : Nat)
  | scalar (i : Nat)
deriving DecidableEq

/-- Lines 580-583 of visualize.py. -/
def foundIndex : List Nat → Option FoundIndex
  | [] => none
  | [i] => some (.array i)
  | i :: _ => some (.scalar i)

/-- The loop of `_find_index`, visualize.py:577-579; `none` if it does not end within `fuel` passes. -/
def findIndexLoop (root : K → K) (xs : List (Fin n → XVal K)) (point : Vec K n) :
    Nat → K → Option FoundIndex
  | 0, _ => none
  | fuel + 1, radius =>
    match foundIndex (findIndices xs point radius) with
    | some r => some r
    | none => findIndexLoop root xs point fuel (root radius)

/-- `_find_index`, visualize.py:574-583. -/
def findIndex (root : K → K) (xs : List (Fin n → XVal K)) (point : Vec K n) (fuel : Nat) :
    Option FoundIndex :=
  findIndexLoop root xs point fuel (1 / 10 ^ 100)

/-- One pass of the loop of `_get_model_indices`, visualize.py:588-589: numbers cannot be concatenated. `none` if a
search does not end. -/
def appendIndex (indices : List Nat) : Option FoundIndex → Except Err (Option (List Nat))
  | none => .ok none
  | some (.array i) => .ok (some (indices ++ [i]))
  | some (.scalar _) => .error .valueError

/-- The loop of `_get_model_indices`. -/
def modelIndicesLoop (root : K → K) (xs : List (Fin n → XVal K)) (fuel : Nat) :
    List (Vec K n) → List Nat → Except Err (Option (List Nat))
  | [], indices => .ok (some indices)
  | p :: rest, indices =>
    match appendIndex indices (findIndex root xs p fuel) with
    | .ok (some indices') => modelIndicesLoop root xs fuel rest indices'
    | .ok none => .ok none
    | .error e => .error e

/-- `_get_model_indices`, visualize.py:586-590. -/
def getModelIndices (root : K → K) (xs : List (Fin n → XVal K)) (fuel : Nat) (points : List (Vec K n)) :
    Except Err (Option (List Nat)) :=
  modelIndicesLoop root xs fuel points []

/-- The field `index` of a processed state, visualize.py:526-529: a number has no first entry. -/
def acceptedIndex : Option FoundIndex → Except Err (Option Nat)
  | none => .ok none
  | some (.array i) => .ok (some i)
  | some (.scalar _) => .error .indexError

/-- The column "case" of `_get_sample_points`, visualize.py:437-457, for states with the attribute
`old_indices_discarded`: later assignments overwrite earlier ones. Assignment to labels that do not exist raises a
`KeyError`. -/
def samplePointCases (modelIndices new used discarded : List Nat) :
    Except Err (List (Nat × Option String)) :=
  let index := modelIndices ++ discarded
  if ∃ i ∈ new ++ used ++ discarded, i ∉ index then .error .keyError
  else .ok (index.map fun i =>
    (i, if i ∈ discarded then some "discarded" else if i ∈ used then some "existing"
      else if i ∈ new then some "new" else none))

end Tranquilo
