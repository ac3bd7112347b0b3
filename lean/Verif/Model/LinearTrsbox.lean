import Verif.Model.ConjugateGradient
import Mathlib.Data.Fintype.Basic

/-!
# Model of `subsolvers/linear_subsolvers.py`

Numbers are exact, `root` is `np.sqrt`. The iterator over the active directions is the list of the indices
that it has not yet given.
-/

namespace Tranquilo

variable {K : Type} [Field K] [LinearOrder K] {n : Nat}

/-- `_get_distance_to_trustregion_boundary`, linear_subsolvers.py:289-336. -/
def linearDistance (root : K → K) (zero : K) (x d : Vec K n) (radius : K) : K :=
  if root (dot d d) < zero then 0
  else (root (max 0 (dot d x ^ 2 + dot d d * (radius ^ 2 - dot x x))) - dot d x) / dot d d

/-- `_take_unconstrained_step_up_to_boundary`, linear_subsolvers.py:265-286. -/
def unconstrainedStep (root : K → K) (zero : K) (x d : Vec K n) (radius : K) : Vec K n := fun i =>
  x i + linearDistance root zero x d radius * d i

/-- The loop `while` of `_find_next_active_bound`, linear_subsolvers.py:214-230, from the current element
of the iterator on: the bound with its index, and the rest of the iterator. -/
def scanBounds (x l u : Vec K n) : List (Fin n) → Option (K × Fin n) × List (Fin n)
  | [] => (none, [])
  | i :: rest =>
    if u i ≤ x i then (some (u i, i), rest)
    else if x i ≤ l i then (some (l i, i), rest)
    else scanBounds x l u rest

/-- `_find_next_active_bound`, linear_subsolvers.py:181-230. The `StopIteration` of the first `next` is not
caught. -/
def nextActiveBound (x l u : Vec K n) (it : List (Fin n)) :
    Except Err (Option (K × Fin n) × List (Fin n)) :=
  if it = [] then .error .stopIteration else .ok (scanBounds x l u it)

/-- `_take_constrained_step_up_to_boundary`, linear_subsolvers.py:233-262: the new point. -/
def constrainedStep (x d : Vec K n) (bound : K) (i : Fin n) : Vec K n := fun j =>
  if j = i then bound else x j + (bound - x i) / d i * d j

/-- `_take_constrained_step_up_to_boundary`, linear_subsolvers.py:260: the new direction. -/
def dropDirection (d : Vec K n) (i : Fin n) : Vec K n := fun j => if j = i then 0 else d j

/-- The loop of `minimize_trsbox_linear`, linear_subsolvers.py:63-88. -/
def linearTrsboxLoop (root : K → K) (zero radius : K) (l u : Vec K n) :
    Nat → Vec K n → Vec K n → List (Fin n) → Except Err (Vec K n)
  | 0, x, _, _ => .ok x
  | k + 1, x, d, it =>
    if norm2 root d < zero then .ok x
    else
      let free := unconstrainedStep root zero x d radius
      match nextActiveBound free l u it with
      | .error e => .error e
      | .ok (none, _) => .ok free
      | .ok (some (b, i), it') =>
        linearTrsboxLoop root zero radius l u k (constrainedStep x d b i) (dropDirection d i) it'

/-- The search direction, linear_subsolvers.py:55-58. -/
def linearDirection (zero : K) (g : Vec K n) : Vec K n := fun i => if |-(g i)| < zero then 0 else -(g i)

/-- `minimize_trsbox_linear`, linear_subsolvers.py:12-90. -/
def minimizeTrsboxLinear (root : K → K) (zero : K) (g l u : Vec K n) (radius : K) :
    Except Err (Vec K n) :=
  linearTrsboxLoop root zero radius (fun i => min (l i) (-zero)) (fun i => max (u i) zero) n
    (fun _ => 0) (linearDirection zero g)
    ((List.finRange n).filter fun i => !decide (|-(g i)| < zero))

/-- `improve_geomtery_trsbox_linear`, linear_subsolvers.py:93-178. -/
def improveGeometryLinear (root : K → K) (zero : K) (center : Vec K n) (c : K) (g l u : Vec K n)
    (radius : K) : Except Err (Vec K n) := do
  if (List.finRange n).any fun i => decide (center i + zero < l i) then .error .valueError
  else if (List.finRange n).any fun i => decide (u i < center i - zero) then .error .valueError
  else
    let lower : Vec K n := fun i => l i - center i
    let upper : Vec K n := fun i => u i - center i
    let xMin ← minimizeTrsboxLinear root zero g lower upper radius
    let xMax ← minimizeTrsboxLinear root zero (fun i => -(g i)) lower upper radius
    if |c + dot g xMax| ≤ |c + dot g xMin| then .ok fun i => xMin i + center i
    else .ok fun i => xMax i + center i

end Tranquilo
