import Verif.Model.ConjugateGradient
import Mathlib.Data.List.FinRange
import Mathlib.Algebra.Order.Group.Unbundled.Abs
import Mathlib.LinearAlgebra.Matrix.Defs
import Mathlib.Data.Matrix.Mul

/-!
# Model of `poisedness.py`

A sample is a function from the indices of the points to vectors. `np.linalg.pinv` and
`scipy.optimize.minimize` are parameters.
-/

namespace Tranquilo

variable {K : Type} [Field K] [LinearOrder K] {n p : Nat}

/-- The pairs of indices in the order in which `_scaled_polynomial_features` (poisedness.py:159-166)
writes their features: row by row through the upper triangle. -/
def featurePairs (n : Nat) : List (Fin n × Fin n) :=
  (List.finRange n).flatMap fun i =>
    (i, i) :: ((List.finRange n).filter fun j => i < j).map fun j => (i, j)

/-- The feature of a pair, poisedness.py:161 and 165. -/
def pairFeature (x : Vec K n) (q : Fin n × Fin n) : K :=
  if q.1 = q.2 then 1 / 2 * x q.1 ^ 2 else x q.1 * x q.2

/-- One row of `_scaled_polynomial_features`, poisedness.py:140-171. -/
def lagrangeRow (x : Vec K n) : List K :=
  1 :: (List.ofFn x ++ (featurePairs n).map (pairFeature x))

/-- Number of features. -/
def nFeatures (n : Nat) : Nat := 1 + (n + (featurePairs n).length)

/-- `_scaled_polynomial_features`, poisedness.py:140-171. -/
def basisMat (sample : Fin p → Vec K n) : Matrix (Fin p) (Fin (nFeatures n)) K :=
  fun s t => (lagrangeRow (sample s)).getD t 0

/-- `_lagrange_poly_matrix`, poisedness.py:121-137. -/
def lagrangeMat (pinv : Matrix (Fin (nFeatures n)) (Fin (nFeatures n)) K →
      Matrix (Fin (nFeatures n)) (Fin (nFeatures n)) K)
    (sample : Fin p → Vec K n) : Matrix (Fin p) (Fin (nFeatures n)) K :=
  basisMat sample * pinv ((basisMat sample).transpose * basisMat sample)

/-- The pairs `(i, j)` in the order in which `_reshape_coef_to_square_terms` (poisedness.py:177-183)
reads their coefficients: column by column through the upper triangle. -/
def reshapePairs (n : Nat) : List (Fin n × Fin n) :=
  (List.finRange n).flatMap fun j => ((List.finRange n).filter fun i => i ≤ j).map fun i => (i, j)

/-- Entry of a coefficient vector. -/
def coefAt (poly : Fin (nFeatures n) → K) (k : Nat) : K :=
  if h : k < nFeatures n then poly ⟨k, h⟩ else 0

/-- `_reshape_coef_to_square_terms(poly[n_params + 1 :], n_params)`, poisedness.py:60-61 and
174-185. -/
def reshapeSquare (poly : Fin (nFeatures n) → K) : Mat K n n := fun i j =>
  coefAt poly (n + 1 + (reshapePairs n).idxOf (min i j, max i j))

/-- `_eval_absolute_value` for the terms that are taken out of a row, poisedness.py:58-61, 206-207. -/
def evalAbsolute (poly : Fin (nFeatures n) → K) (x : Vec K n) : K :=
  |coefAt poly 0 + ∑ i : Fin n, coefAt poly (1 + i) * x i
    + 1 / 2 * ∑ i, ∑ j, x i * reshapeSquare poly i j * x j|

/-- What the loop of `get_poisedness_constant` remembers, poisedness.py:54-79: `lambda_` and, once
assigned, `argmax` and `idx_max`. -/
structure PoisedState (K : Type) (n p : Nat) where
  lambda : K
  best : Option (Vec K n × Fin p)

/-- One pass of the loop, poisedness.py:57-79, with `_eval_neg_absolute_value`, lines 210-211.
`minimize f` is the `x` that scipy returns for the objective `f`, the start value zero and the constraint of the shape. -/
def poisedStep (minimize : (Vec K n → K) → Vec K n) (lag : Fin p → Fin (nFeatures n) → K)
    (s : PoisedState K n p) (idx : Fin p) : PoisedState K n p :=
  let x := minimize fun x => -evalAbsolute (lag idx) x
  let critval := evalAbsolute (lag idx) x
  if s.lambda < critval then ⟨critval, some (x, idx)⟩ else s

/-- Shapes accepted by `_get_minimize_options`, poisedness.py:188-203. -/
def shapeOfName (shape : String) : Except Err Shape :=
  if shape = "sphere" then .ok .sphere
  else if shape = "cube" then .ok .cube
  else .error .valueError

/-- `get_poisedness_constant`, poisedness.py:7-81. Line 81 reads `argmax`, which is unbound if no
critical value was positive. -/
def poisednessConstant (pinv : Matrix (Fin (nFeatures n)) (Fin (nFeatures n)) K →
      Matrix (Fin (nFeatures n)) (Fin (nFeatures n)) K)
    (minimize : Shape → (Vec K n → K) → Vec K n) (sample : Fin p → Vec K n) (shape : String) :
    Except Err (K × Vec K n × Fin p) :=
  match shapeOfName shape with
  | .error e => .error e
  | .ok sh =>
    let s := (List.finRange p).foldl (poisedStep (minimize sh) (lagrangeMat pinv sample)) ⟨0, none⟩
    match s.best with
    | none => .error .unboundLocalError
    | some (x, i) => .ok (s.lambda, x, i)

/-- `improve_poisedness`, poisedness.py:84-118. -/
def improvePoisedness (pinv : Matrix (Fin (nFeatures n)) (Fin (nFeatures n)) K →
      Matrix (Fin (nFeatures n)) (Fin (nFeatures n)) K)
    (minimize : Shape → (Vec K n → K) → Vec K n) (shape : String) :
    Nat → (Fin p → Vec K n) → Except Err ((Fin p → Vec K n) × List K)
  | 0, sample => .ok (sample, [])
  | k + 1, sample =>
    match poisednessConstant pinv minimize sample shape with
    | .error e => .error e
    | .ok (l, x, i) =>
      match improvePoisedness pinv minimize shape k (Function.update sample i x) with
      | .error e => .error e
      | .ok (s, ls) => .ok (s, l :: ls)

end Tranquilo
