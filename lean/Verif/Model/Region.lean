import Verif.Model.Adjust
import Mathlib.Data.Fintype.Basic
import Mathlib.Data.Fin.VecNotation

/-!
# Models of `bounds.py` and `region.py`

A vector is a function `Fin n → K`. An infinite bound is `none`: `lower i = none` is `-inf`,
`upper i = none` is `+inf`. NaN, lower bounds `+inf` and upper bounds `-inf` are not modelled.
The function `get_radius_of_cube_with_volume_of_sphere` (volume.py, modelled in `Model/Volume`) is the
parameter `cr : K → K` (radius of the ball ↦ radius of the cube, for the dimension at hand).
-/

namespace Tranquilo

variable {K : Type} [Field K] [LinearOrder K] {n : Nat}

/-- A parameter vector. -/
abbrev Vec (K : Type) (n : Nat) := Fin n → K

/-- `Bounds`, bounds.py:6-19, with both arrays present. -/
structure Bounds (K : Type) (n : Nat) where
  lower : Fin n → Option K
  upper : Fin n → Option K

/-- `Bounds` as the user may pass it: each of the arrays may be `None` (process_arguments.py:42-43 and
185). -/
structure RawBounds (K : Type) (n : Nat) where
  lower : Option (Fin n → Option K)
  upper : Option (Fin n → Option K)

/-- The meaning of missing arrays: no bounds. -/
def RawBounds.toBounds (b : RawBounds K n) : Bounds K n where
  lower i := b.lower.bind fun l => l i
  upper i := b.upper.bind fun u => u i

/-- `_any_finite`, bounds.py:22-28. -/
def RawBounds.hasAny (b : RawBounds K n) : Bool :=
  (match b.lower with | some l => decide (∃ i, (l i).isSome) | none => false) ||
  (match b.upper with | some u => decide (∃ i, (u i).isSome) | none => false)

/-- `np.min(center - lower) <= radius`, region.py:148: some entry is at most `radius` (entries with an
infinite bound are `+inf`). `np.min` raises for `n = 0`, which is not modelled. -/
def lowerBinding (center : Vec K n) (radius : K) (lower : Fin n → Option K) : Bool :=
  decide (∃ i, ∃ l ∈ lower i, center i - l ≤ radius)

/-- `np.min(upper - center) <= radius`, region.py:150. -/
def upperBinding (center : Vec K n) (radius : K) (upper : Fin n → Option K) : Bool :=
  decide (∃ i, ∃ u ∈ upper i, u - center i ≤ radius)

/-- `_any_bounds_binding`, region.py:143-152. If one of the arrays is `None` the corresponding local
variable is never assigned; line 151 then raises `UnboundLocalError`, unless the first
operand of `or` is already true. -/
def anyBoundsBinding (b : RawBounds K n) (center : Vec K n) (radius : K) : Except Err Bool :=
  if b.hasAny then
    match b.lower with
    | none => .error .unboundLocalError
    | some l =>
      if lowerBinding center radius l then .ok true
      else match b.upper with
        | none => .error .unboundLocalError
        | some u => .ok (upperBinding center radius u)
  else .ok false

/-- Shape of a trust region, region.py:97-101. -/
inductive Shape where
  | sphere
  | cube
  deriving DecidableEq, Repr

/-- `Region`, region.py:11-17: the fields that are passed to the constructor. The derived fields of
`__post_init__` (19-31) are functions below. `_replace` (69-70) is the update of a field; the derived fields follow. -/
structure Region (K : Type) (n : Nat) where
  center : Vec K n
  radius : K
  bounds : Bounds K n

namespace Region

/-- `_get_shape`, region.py:97-101, when both arrays of bounds are present. -/
def shape (r : Region K n) : Shape :=
  if lowerBinding r.center r.radius r.bounds.lower || upperBinding r.center r.radius r.bounds.upper
  then .cube else .sphere

/-- `np.clip(a, lower, np.inf)`, region.py:135. -/
def clipLower (a : K) : Option K → K
  | some l => max a l
  | none => a

/-- `np.clip(a, -np.inf, upper)`, region.py:138. -/
def clipUpper (a : K) : Option K → K
  | some u => min a u
  | none => a

/-- Radius handed to `_create_cube_bounds`, region.py:105-106. -/
def cubeRadius (cr : K → K) (r : Region K n) : K :=
  match r.shape with
  | .cube => cr r.radius
  | .sphere => r.radius

/-- Lower ends of the cube, region.py:104-108 and 129-140. -/
def cubeLower (cr : K → K) (r : Region K n) : Vec K n := fun i =>
  clipLower (r.center i - r.cubeRadius cr) (r.bounds.lower i)

/-- Upper ends of the cube, region.py:104-108 and 129-140. -/
def cubeUpper (cr : K → K) (r : Region K n) : Vec K n := fun i =>
  clipUpper (r.center i + r.cubeRadius cr) (r.bounds.upper i)

/-- `_get_cube_center`, region.py:111-113. -/
def cubeCenter (cr : K → K) (r : Region K n) : Vec K n := fun i =>
  (r.cubeLower cr i + r.cubeUpper cr i) / 2

/-- `_get_effective_center`, region.py:116-118. -/
def effectiveCenter (cr : K → K) (r : Region K n) : Vec K n :=
  match r.shape with
  | .sphere => r.center
  | .cube => r.cubeCenter cr

/-- `_get_effective_radius`, region.py:121-126. For a sphere the radius is a scalar that numpy
broadcasts. -/
def effectiveRadius (cr : K → K) (r : Region K n) : Vec K n := fun i =>
  match r.shape with
  | .sphere => r.radius
  | .cube => (r.cubeUpper cr i - r.cubeLower cr i) / 2

/-- `map_to_unit` for one point, region.py:49-55, 73-82. The properties `cube_bounds` and `cube_center` (33-47), which
raise an `AttributeError` for spheres, are only used for cubes. -/
def mapToUnit (cr : K → K) (r : Region K n) (x : Vec K n) : Vec K n := fun i =>
  match r.shape with
  | .sphere => (x i - r.center i) / r.radius
  | .cube => 2 * (x i - r.cubeLower cr i) / (r.cubeUpper cr i - r.cubeLower cr i) - 1

/-- `map_from_unit` for one point, region.py:57-66, 85-94, with the clipping at the cube. -/
def mapFromUnit (cr : K → K) (r : Region K n) (u : Vec K n) : Vec K n := fun i =>
  match r.shape with
  | .sphere => u i * r.radius + r.center i
  | .cube => npClip ((r.cubeUpper cr i - r.cubeLower cr i) * (u i + 1) / 2 + r.cubeLower cr i)
      (r.cubeLower cr i) (r.cubeUpper cr i)

end Region

end Tranquilo
