import Verif.Model.Acceptance

/-!
# Models of `filter_points.py` and `clustering.py`

`nrm` is `np.linalg.norm`, `dist` in the clustering is the entry function of the distance matrix.
Distances are numbers (no NaN).
-/

namespace Tranquilo

/-- First position of an optimal entry, as in `np.argmax` and `np.argmin` (`better a b` says that `a` is
strictly better than `b`). `0` for an empty list (numpy raises). -/
def argFirst {α : Type} (better : α → α → Bool) : List α → Nat
  | [] => 0
  | a :: l =>
    match l[argFirst better l]? with
    | some b => if better b a then argFirst better l + 1 else 0
    | none => 0

variable {K : Type} [Field K] [LinearOrder K] {n : Nat}

/-- `np.argmax(dists)`. -/
def argMax (l : List K) : Nat := argFirst (fun a b => decide (b < a)) l

/-- Comparison of two distances, `none` is `np.inf`. -/
def distLt : Option K → Option K → Bool
  | some a, some b => decide (a < b)
  | some _, none => true
  | none, _ => false

/-- `np.unravel_index(np.argmin(pdists), pdists.shape)`, filter_points.py:98: position of the first
smallest entry in row-major order. -/
def argMinPair (m : List (List (Option K))) : Nat × Nat :=
  let k := argFirst distLt m.flatten
  (k / m.length, k % m.length)

/-- The parallel arrays `xs`, `indices`, `dists` of `drop_worst_points`. -/
structure Points (K : Type) (n : Nat) where
  xs : List (Vec K n)
  indices : List Nat
  dists : List K

/-- The three calls of `np.delete`, filter_points.py:88-90 and 107-109. -/
def Points.delete (p : Points K n) (k : Nat) : Points K n :=
  { xs := p.xs.eraseIdx k, indices := p.indices.eraseIdx k, dists := p.dists.eraseIdx k }

/-- The loop of filter_points.py:86-91: drop the farthest point as long as there are points outside of
the region. Returns the arrays and the number of points that are still to be dropped. -/
def dropOutside (radius : K) : Nat → Points K n → Points K n × Nat
  | 0, p => (p, 0)
  | m + 1, p =>
    if p.dists.any fun d => decide (radius < d) then dropOutside radius m (p.delete (argMax p.dists))
    else (p, m + 1)

/-- `squareform(pdist(xs))` with an infinite diagonal, filter_points.py:94-95. -/
def pairDists (nrm : Vec K n → K) (xs : List (Vec K n)) : List (List (Option K)) :=
  xs.mapIdx fun i x => xs.mapIdx fun j y => if i = j then none else some (nrm fun k => x k - y k)

/-- `np.delete` of row and column `k`, filter_points.py:110-111. -/
def deleteCross (m : List (List (Option K))) (k : Nat) : List (List (Option K)) :=
  (m.eraseIdx k).map fun row => row.eraseIdx k

/-- The choice of filter_points.py:98-105: of the two closest points drop the one that is not the
center, or the one that is closer to the center. -/
def chooseDrop (index : Nat) (p : Points K n) (m : List (List (Option K))) : Nat :=
  let (i, j) := argMinPair m
  if p.indices[i]? = some index then j
  else if p.indices[j]? = some index then i
  else if p.dists.getD i 0 < p.dists.getD j 0 then i else j

/-- The loop of filter_points.py:97-112. `np.argmin` of an empty matrix raises `ValueError`. -/
def dropClose (index : Nat) : Nat → Points K n → List (List (Option K)) → Except Err (Points K n)
  | 0, p, _ => .ok p
  | m + 1, p, pd =>
    if pd = [] then .error .valueError
    else
      let k := chooseDrop index p pd
      dropClose index m (p.delete k) (deleteCross pd k)

/-- `drop_worst_points`, filter_points.py:64-114. `x`, `index`, `radius` are `state.x`, `state.index` and
`state.trustregion.radius`. -/
def dropWorst (nrm : Vec K n → K) (x : Vec K n) (index : Nat) (radius : K)
    (xs : List (Vec K n)) (indices : List Nat) (nToDrop : Nat) :
    Except Err (List (Vec K n) × List Nat) :=
  if 0 < nToDrop then
    let (p, left) := dropOutside radius nToDrop
      { xs := xs, indices := indices, dists := xs.map fun y => nrm fun k => y k - x k }
    if 0 < left then do
      let p ← dropClose index left p (pairDists nrm p.xs)
      pure (p.xs, p.indices)
    else .ok (p.xs, p.indices)
  else .ok (xs, indices)

/-- `keep_all`, filter_points.py:49-50. -/
def keepAll (xs : List (Vec K n)) (indices : List Nat) : List (Vec K n) × List Nat := (xs, indices)

/-- `discard_all`, filter_points.py:45-46. -/
def discardAll (x : Vec K n) (index : Nat) : List (Vec K n) × List Nat := ([x], [index])

/-- `drop_excess`, filter_points.py:53-61. -/
def dropExcess [FloorRing K] (nrm : Vec K n → K) (x : Vec K n) (index : Nat) (radius : K)
    (xs : List (Vec K n)) (indices : List Nat) (targetSize : Nat) (nMaxFactor : K) :
    Except Err (List (Vec K n) × List Nat) :=
  let filterTargetSize : Int := ⌊(targetSize : K) * nMaxFactor⌋
  let nToDrop : Int := max 0 ((xs.length : Int) - filterTargetSize)
  if nToDrop ≠ 0 then dropWorst nrm x index radius xs indices nToDrop.toNat
  else .ok (xs, indices)

/-! ## clustering.py -/

/-- The arrays of `_cluster`, clustering.py:36-40: `labels[i] = none` is `-1`; `centers` are the filled
entries of the array `centers`, so `cluster_counter = centers.length`. -/
structure Clusters (n : Nat) where
  labels : Fin n → Option Nat
  centers : List (Fin n)

/-- Number of unlabeled points other than `i` within `epsilon` of `i`, clustering.py:51-54. -/
def nNeighbors (dist : Fin n → Fin n → K) (epsilon : K) (labels : Fin n → Option Nat) (i : Fin n) :
    Nat :=
  ((List.finRange n).filter fun j => (labels j).isNone && decide (j ≠ i) && decide (dist i j ≤ epsilon)).length

/-- The body of the loop over `i`, clustering.py:48-61: isolated points become clusters at once; the
point with the most neighbors is remembered. The last component is `(candidate_center,
max_n_neighbors)`. -/
def scanPoint (dist : Fin n → Fin n → K) (epsilon : K) (s : Clusters n × Option (Fin n) × Nat)
    (i : Fin n) : Clusters n × Option (Fin n) × Nat :=
  match s.1.labels i with
  | some _ => s
  | none =>
    let k := nNeighbors dist epsilon s.1.labels i
    if k = 0 then
      ({ labels := Function.update s.1.labels i (some s.1.centers.length)
         centers := s.1.centers ++ [i] }, s.2)
    else if s.2.2 < k then (s.1, some i, k)
    else s

/-- Number of labeled points (`n_labeled`; the code counts along, here it is recomputed). -/
def nLabeled (labels : Fin n → Option Nat) : Nat :=
  ((List.finRange n).filter fun j => (labels j).isSome).length

/-- One pass of the outer loop, clustering.py:42-73. The index error of a forgotten candidate center
(line 46) is the error value. -/
def clusterPass (dist : Fin n → Fin n → K) (epsilon : K) (c : Clusters n) : Except Err (Clusters n) :=
  let (c, cand, _) := (List.finRange n).foldl (scanPoint dist epsilon) (c, none, 0)
  if nLabeled c.labels < n then
    match cand with
    | none => .error .indexError
    | some i =>
      .ok { labels := fun j =>
              if (c.labels j).isNone && decide (dist i j ≤ epsilon) then some c.centers.length
              else c.labels j
            centers := c.centers ++ [i] }
  else .ok c

/-- The outer loop, clustering.py:42-73, with fuel; `none` if the fuel is used up. -/
def clusterLoop (dist : Fin n → Fin n → K) (epsilon : K) :
    Nat → Clusters n → Option (Except Err (Clusters n))
  | 0, _ => none
  | m + 1, c =>
    if nLabeled c.labels < n then
      match clusterPass dist epsilon c with
      | .ok c => clusterLoop dist epsilon m c
      | .error e => some (.error e)
    else some (.ok c)

/-- `_cluster`, clustering.py:34-75. -/
def clusterFuel (dist : Fin n → Fin n → K) (epsilon : K) (fuel : Nat) :
    Option (Except Err (Clusters n)) :=
  clusterLoop dist epsilon fuel ⟨fun _ => none, []⟩

end Tranquilo
