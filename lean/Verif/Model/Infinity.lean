import Verif.Model.Num
import Mathlib.Algebra.Order.Field.Basic
import Mathlib.Order.Lattice

/-!
# Model of `handle_infinity.py`

`clip_relative` works on every column separately; the model is one column.
-/

namespace Tranquilo

variable {K : Type} [Field K] [LinearOrder K]

/-- The finite entries of a column (`where=_mask`), handle_infinity.py:25. -/
def finitePart (col : List (XVal K)) : List K :=
  col.filterMap fun
    | .fin a => some a
    | _ => none

/-- `np.sign`. -/
def npSign (a : K) : K := if 0 < a then 1 else if a < 0 then -1 else 0

/-- `_mins`, handle_infinity.py:27, before the change of sign. -/
def maskedMin (col : List (XVal K)) : K := (finitePart col).foldl min (10 ^ 300)

/-- `_maxs`, handle_infinity.py:28, before the change of sign. -/
def maskedMax (col : List (XVal K)) : K := (finitePart col).foldl max (-(10 ^ 300))

/-- `_pos_penalty`, handle_infinity.py:32-42. -/
def posPenalty (col : List (XVal K)) : K :=
  let diff := maskedMax col - maskedMin col
  let sign := npSign diff
  maskedMax col * sign + 2 * (diff * sign) + 1

/-- `_neg_penalty`, handle_infinity.py:32-43. -/
def negPenalty (col : List (XVal K)) : K :=
  let diff := maskedMax col - maskedMin col
  let sign := npSign diff
  maskedMin col * sign - 2 * (diff * sign) - 1

/-- `np.nan_to_num`, handle_infinity.py:45-47. -/
def replaceInfinite (pos neg : K) : XVal K → K
  | .fin a => a
  | .nan => pos
  | .pinf => pos
  | .ninf => neg

/-- `clip_relative` for one column, handle_infinity.py:14-49. -/
def clipRelative (col : List (XVal K)) : List K :=
  col.map (replaceInfinite (posPenalty col) (negPenalty col))

end Tranquilo
