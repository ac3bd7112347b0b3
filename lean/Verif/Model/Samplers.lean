import Verif.Model.Gqtpar
import Mathlib.LinearAlgebra.Matrix.Determinant.Basic
import Mathlib.Data.Fintype.Perm

/-!
# Model of `sample_points.py`

Random numbers are arguments: a `SampleRng` says what the generator draws. `root` is `np.sqrt`, `cr` the
radius of the cube that replaces a ball (volume.py). A row of an array that the code fills with NaN
(division by the norm of a zero vector) is `none`. Arrays with two axes are lists of rows; the
flattening for scipy (299, 325, 373, 413) is the identity in the model.
-/

namespace Tranquilo

variable {K : Type} [Field K] [LinearOrder K] {n : Nat}

/-- A row of an array of points: `none` is a row of NaNs. -/
abbrev Row (K : Type) (n : Nat) := Option (Vec K n)

/-- The draws of `np.random.Generator` for arrays with `k` rows, and for `m` such arrays. The uniform
numbers are those in `[0, 1)`. -/
structure SampleRng (K : Type) (n : Nat) where
  normal : Nat → List (Vec K n)
  uniform01 : Nat → List (Vec K n)
  normalBlocks : Nat → Nat → List (List (Vec K n))
  uniformBlocks01 : Nat → Nat → List (List (Vec K n))

/-- `rng.uniform(low, high)` from the uniform number in `[0, 1)` (numpy's documented transformation). -/
def scaleUniform (low high : Vec K n) (u : Vec K n) : Vec K n := fun i => low i + (high i - low i) * u i

/-- `_box_sampler`, sample_points.py:88-111. A negative number of points raises in numpy. -/
def boxSampler (cr : K → K) (region : Region K n) (nPoints : Int) (rng : SampleRng K n) :
    Except Err (List (Row K n)) :=
  if nPoints < 0 then .error .valueError
  else .ok ((rng.uniform01 nPoints.toNat).map fun u =>
    some (scaleUniform (region.cubeLower cr) (region.cubeUpper cr) u))

/-- One point of `_ball_sampler` in the unit ball, sample_points.py:134-136. `radial v` stands for
`gammainc(n_params / 2, v**2 / 2) ** (1 / n_params)`. -/
def ballRow (root : K → K) (radial : K → K) (raw : Vec K n) : Row K n :=
  if norm2 root raw = 0 then none
  else some fun i => raw i * (radial (norm2 root raw) / norm2 root raw)

/-- `_ball_sampler`, sample_points.py:114-138. -/
def ballSampler (root : K → K) (radial : K → K) (cr : K → K) (region : Region K n) (nPoints : Int)
    (rng : SampleRng K n) : Except Err (List (Row K n)) :=
  if nPoints < 0 then .error .valueError
  else .ok ((rng.normal nPoints.toNat).map fun raw =>
    (ballRow root radial raw).map (region.mapFromUnit cr))

/-- `_interior_sampler`, sample_points.py:58-85. -/
def interiorSampler (root : K → K) (radial : K → K) (cr : K → K) (region : Region K n) (nPoints : Int)
    (rng : SampleRng K n) : Except Err (List (Row K n)) :=
  match region.shape with
  | .sphere => ballSampler root radial cr region nPoints rng
  | .cube => boxSampler cr region nPoints rng

/-- `np.linalg.norm(x, ord=order)` with the order of `_project_onto_unit_hull`,
sample_points.py:463-464. -/
def hullNorm (root : K → K) (shape : Shape) (x : Vec K n) : K :=
  match shape with
  | .sphere => norm2 root x
  | .cube => vecMax fun i => |x i|

/-- One row of `_project_onto_unit_hull`, sample_points.py:452-466. -/
def projectRow (root : K → K) (shape : Shape) : Row K n → Row K n
  | none => none
  | some x => if hullNorm root shape x = 0 then none else some fun i => x i / hullNorm root shape x

/-- `_project_onto_unit_hull`, sample_points.py:452-466. -/
def projectHull (root : K → K) (shape : Shape) (rows : List (Row K n)) : List (Row K n) :=
  rows.map (projectRow root shape)

/-- The distribution that is used: `distribution` or the default for the shape,
sample_points.py:167-168 and 282-283. -/
def theDistribution (distribution : Option String) (shape : Shape) : String :=
  distribution.getD (match shape with | .sphere => "normal" | .cube => "uniform")

/-- `_draw_from_distribution`, sample_points.py:428-449, for arrays with two axes. -/
def drawRows (distribution : String) (rng : SampleRng K n) (k : Nat) :
    Except Err (List (Vec K n)) :=
  if distribution = "normal" then .ok (rng.normal k)
  else if distribution = "uniform" then
    .ok ((rng.uniform01 k).map (scaleUniform (fun _ => -1) (fun _ => 1)))
  else .error .valueError

/-- `_draw_from_distribution`, sample_points.py:428-449, for arrays with three axes. -/
def drawBlocks (distribution : String) (rng : SampleRng K n) (m k : Nat) :
    Except Err (List (List (Vec K n))) :=
  if distribution = "normal" then .ok (rng.normalBlocks m k)
  else if distribution = "uniform" then
    .ok ((rng.uniformBlocks01 m k).map fun b => b.map (scaleUniform (fun _ => -1) (fun _ => 1)))
  else .error .valueError

/-- `_hull_sampler`, sample_points.py:141-172. -/
def hullSampler (root : K → K) (cr : K → K) (region : Region K n) (nPoints : Int)
    (rng : SampleRng K n) (distribution : Option String) : Except Err (List (Row K n)) :=
  if nPoints < 0 then .error .valueError
  else
    match drawRows (theDistribution distribution region.shape) rng nPoints.toNat with
    | .error e => .error e
    | .ok raw => .ok ((projectHull root region.shape (raw.map some)).map
        fun p => p.map (region.mapFromUnit cr))

/-- All rows of an array if none is NaN. -/
def allRows : List (Row K n) → Option (List (Vec K n))
  | [] => some []
  | none :: _ => none
  | some x :: rest => (allRows rest).map (x :: ·)

/-- `sample.T @ sample / n_samples`, sample_points.py:423. -/
def designMatrix (sample : List (Vec K n)) (nSamples : Nat) : Matrix (Fin n) (Fin n) K :=
  fun i j => (sample.map fun x => x i * x j).sum / nSamples

/-- `_determinant_on_hull`, sample_points.py:394-425. A NaN row makes all entries of the matrix NaN, and
with it the determinant. -/
def determinantOnHull (root : K → K) (existing : Option (List (Vec K n))) (shape : Shape)
    (x : List (Row K n)) : XVal K :=
  match allRows (projectHull root shape x) with
  | none => .nan
  | some p => .fin (designMatrix (p ++ existing.getD []) x.length).det

/-- `pdist(sample) ** 2`, sample_points.py:384: squared distances of the pairs `i < j` in
lexicographic order. -/
def pdistSq : List (Vec K n) → List K
  | [] => []
  | x :: rest => (rest.map fun y => ∑ i, (x i - y i) ^ 2) ++ pdistSq rest

/-- The squared distances that enter the soft minimum, sample_points.py:376-387. -/
def hullDistances (existing : Option (List (Vec K n))) (p : List (Vec K n)) : List K :=
  match existing with
  | none => pdistSq p
  | some e =>
    let dist := pdistSq (p ++ e)
    let nExistingPairs := e.length * (e.length - 1) / 2
    if nExistingPairs = 0 then dist else dist.take (dist.length - nExistingPairs)

/-- `_minimal_pairwise_distance_on_hull`, sample_points.py:346-391. `logsumexp` is scipy's. -/
def distanceOnHull (root : K → K) (logsumexp : List K → K) (hardness : K)
    (existing : Option (List (Vec K n))) (shape : Shape) (x : List (Row K n)) : XVal K :=
  match allRows (projectHull root shape x) with
  | none => .nan
  | some p => .fin (-(logsumexp ((hullDistances existing p).map fun d => -hardness * d)))

/-- `np.argmax`: the first NaN if there is one, else the first largest entry; raises for an empty
array. -/
def npArgmax (l : List (XVal K)) : Except Err Nat :=
  if l = [] then .error .valueError
  else .ok ((l.findIdx? XVal.isNan).getD (l.findIdx fun a => l.all fun b => decide (b ≤ a)))

/-- Criterion names, sample_points.py:241-242 and 272-279. -/
inductive SampleCriterion where
  | determinant | distance
  deriving DecidableEq, Repr

/-- The criterion that is used, sample_points.py:241-242. Any string that is not a key of `func_dict`
raises `KeyError` (307) if the optimizer is called; not modelled. -/
def theCriterion (criterion : Option SampleCriterion) (nPoints : Int) : SampleCriterion :=
  criterion.getD (if nPoints = 1 then .determinant else .distance)

/-- `existing_xs_unit`, sample_points.py:248-262. -/
def existingUnit (root : K → K) (cr : K → K) (region : Region K n) (criterion : SampleCriterion)
    (existing : Option (List (Vec K n))) : Option (List (Vec K n)) :=
  match existing with
  | none => none
  | some xs =>
    let unit := xs.map (region.mapToUnit cr)
    match criterion with
    | .determinant => some unit
    | .distance =>
      let notCentric := unit.filter fun u => decide (1 / 10 ≤ norm2 root u)
      if notCentric = [] then none else some notCentric

/-- `info`, sample_points.py:330-335. -/
structure SampleInfo (K : Type) (n : Nat) where
  startParams : List (Row K n)
  optParams : List (Row K n)
  startFekete : XVal K
  optFekete : XVal K

/-- Options and library functions of the optimal sampler. `minimize` is `scipy.optimize.minimize`: it
gets the objective (with switched sign) and the start values. `algorithm` and `algo_options`
only reach scipy and are part of `minimize`. -/
structure OptimalSampler (K : Type) (n : Nat) where
  distribution : Option String
  hardness : K
  criterion : Option SampleCriterion
  nPointsRandomsearch : Nat
  logsumexp : List K → K
  minimize : (List (Row K n) → XVal K) → List (Row K n) → List (Row K n)

/-- The start values, sample_points.py:281-297: the only candidate or the one with the largest
determinant. -/
def startSample (root : K → K) (existing : Option (List (Vec K n))) (shape : Shape)
    (nPointsRandomsearch : Nat) (candidates : List (List (Row K n))) : Except Err (List (Row K n)) :=
  if nPointsRandomsearch = 1 then .ok (candidates.headD [])
  else
    match npArgmax (candidates.map (determinantOnHull root existing shape)) with
    | .error e => .error e
    | .ok i => .ok (candidates.getD i [])

/-- The function that scipy minimizes, sample_points.py:272-279, 307 and 469-474. -/
def sampleObjective (root : K → K) (shape : Shape) (nPoints : Int) (o : OptimalSampler K n)
    (existing : Option (List (Vec K n))) (x : List (Row K n)) : XVal K :=
  match theCriterion o.criterion nPoints with
  | .determinant => -determinantOnHull root existing shape x
  | .distance => -distanceOnHull root o.logsumexp o.hardness existing shape x

/-- `opt_params` before the comparison with the start values, sample_points.py:303-313. -/
def optimizerResult (root : K → K) (shape : Shape) (nPoints : Int) (o : OptimalSampler K n)
    (existing : Option (List (Vec K n))) (x0 : List (Row K n)) : List (Row K n) :=
  if existing = none ∧ nPoints = 1 then x0
  else o.minimize (sampleObjective root shape nPoints o existing) x0

/-- Optimization and comparison with the start values, sample_points.py:299-335. -/
def optimizeSample (root : K → K) (cr : K → K) (region : Region K n) (nPoints : Int)
    (o : OptimalSampler K n) (existing : Option (List (Vec K n))) (x0 : List (Row K n)) :
    List (Row K n) × SampleInfo K n :=
  let opt := optimizerResult root region.shape nPoints o existing x0
  let startFekete := determinantOnHull root existing region.shape x0
  let endFekete := determinantOnHull root existing region.shape opt
  let opt' := if endFekete ≤ startFekete then x0 else opt
  ((projectHull root region.shape opt').map fun p => p.map (region.mapFromUnit cr),
    ⟨x0, opt', startFekete, endFekete⟩)

/-- `_optimal_hull_sampler`, sample_points.py:175-338. The information is `none` where the code returns
only an empty array; otherwise it is always computed and `return_info` decides whether
the caller gets it. -/
def optimalHullSampler (root : K → K) (cr : K → K) (region : Region K n) (nPoints : Int)
    (rng : SampleRng K n) (o : OptimalSampler K n) (existing : Option (List (Vec K n))) :
    Except Err (List (Row K n) × Option (SampleInfo K n)) :=
  if nPoints ≤ 0 then .ok ([], none)
  else
    let eu := existingUnit root cr region (theCriterion o.criterion nPoints) existing
    match drawBlocks (theDistribution o.distribution region.shape) rng o.nPointsRandomsearch
        nPoints.toNat with
    | .error e => .error e
    | .ok blocks =>
      match startSample root eu region.shape o.nPointsRandomsearch
          (blocks.map fun b => projectHull root region.shape (b.map some)) with
      | .error e => .error e
      | .ok x0 =>
        let r := optimizeSample root cr region nPoints o eu x0
        .ok (r.1, some r.2)

/-- The names of `get_sampler`, sample_points.py:33-37, with their options. -/
inductive BuiltInSampler (K : Type) (n : Nat) where
  | randomInterior
  | randomHull (distribution : Option String)
  | optimalHull (o : OptimalSampler K n)

end Tranquilo
