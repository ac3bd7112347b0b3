import Verif.Model.Samplers
import Verif.Spec.Subsolver

/-!
# Specification for the samplers: regions, hulls, random numbers
-/

namespace Tranquilo

variable {K : Type} [Field K] [LinearOrder K] {n : Nat}

/-- The feasible trust region. A ball if no bound is near; otherwise the points within the bounds whose
coordinates differ from the center by at most the radius `cr radius` of the cube with the
volume of the ball. -/
def InFeasibleRegion (cr : K → K) (r : Region K n) (x : Vec K n) : Prop :=
  match r.shape with
  | .sphere => InBallSq r.center r.radius x
  | .cube => InBounds r.bounds x ∧ ∀ i, |x i - r.center i| ≤ cr r.radius

/-- `x` is a point of the hull: it has distance `radius` from the center of a ball, or it is extreme in
some coordinate among the points of the box. -/
def OnRegionHull (cr : K → K) (r : Region K n) (x : Vec K n) : Prop :=
  InFeasibleRegion cr r x ∧
  match r.shape with
  | .sphere => sumSq (fun i => x i - r.center i) = r.radius ^ 2
  | .cube => ∃ i, (∀ y, InFeasibleRegion cr r y → y i ≤ x i) ∨ (∀ y, InFeasibleRegion cr r y → x i ≤ y i)

/-- The result has exactly `k` rows, none is NaN and all have the property. -/
def RowsSatisfy (rows : List (Row K n)) (k : Nat) (P : Vec K n → Prop) : Prop :=
  rows.length = k ∧ ∀ p ∈ rows, ∃ x, p = some x ∧ P x

/-- Shape and range of the random numbers. That no row is zero holds with probability one. -/
structure RngSpec (rng : SampleRng K n) : Prop where
  normal_length : ∀ k, (rng.normal k).length = k
  normal_nonzero : ∀ k, ∀ v ∈ rng.normal k, v ≠ fun _ => 0
  uniform_length : ∀ k, (rng.uniform01 k).length = k
  uniform_range : ∀ k, ∀ u ∈ rng.uniform01 k, ∀ i, 0 ≤ u i ∧ u i < 1
  uniform_nonzero : ∀ k, ∀ u ∈ rng.uniform01 k, u ≠ fun _ => 1 / 2
  normalBlocks_length : ∀ m k, (rng.normalBlocks m k).length = m
  normalBlocks_rows : ∀ m k, ∀ b ∈ rng.normalBlocks m k, b.length = k ∧ ∀ v ∈ b, v ≠ fun _ => 0
  uniformBlocks_length : ∀ m k, (rng.uniformBlocks01 m k).length = m
  uniformBlocks_rows : ∀ m k, ∀ b ∈ rng.uniformBlocks01 m k, b.length = k ∧
    ∀ u ∈ b, (∀ i, 0 ≤ u i ∧ u i < 1) ∧ u ≠ fun _ => 1 / 2

/-- The D-optimality criterion of `new` points next to `existing` ones, all in unit coordinates:
the determinant of `X'X / k` for the matrix `X` of all points and the number `k` of new points. -/
def dOptimality (new existing : List (Vec K n)) : K :=
  Matrix.det (Matrix.of fun i j : Fin n =>
    ((new ++ existing).map fun x => x i * x j).sum / (new.length : K))

/-- The existing points that enter the criterion, in unit coordinates: all of them, or for the distance
criterion those whose distance from the center is at least 0.1. -/
def relevantExisting (root : K → K) (cr : K → K) (r : Region K n) (criterion : SampleCriterion)
    (existing : List (Vec K n)) : List (Vec K n) :=
  (existing.map (r.mapToUnit cr)).filter fun u =>
    criterion = .determinant ∨ 1 / 10 ≤ norm2 root u

/-- Contract of `gammainc(a, b) ** (1 / n)`: a number between 0 and 1. -/
def RadialSpec (radial : K → K) : Prop := ∀ v, 0 ≤ radial v ∧ radial v ≤ 1

/-- The names of the distributions that are accepted. -/
def ValidDistribution (d : Option String) : Prop := d = none ∨ d = some "normal" ∨ d = some "uniform"

/-- What is assumed about `scipy.optimize.minimize`: started from `k` nonzero rows it returns `k`
rows without NaN, none of which is zero. -/
def MinimizeSpec (minimize : (List (Row K n) → XVal K) → List (Row K n) → List (Row K n)) : Prop :=
  ∀ f x0, (∀ p ∈ x0, ∃ x, p = some x ∧ x ≠ fun _ => 0) →
    (minimize f x0).length = x0.length ∧ ∀ p ∈ minimize f x0, ∃ x, p = some x ∧ x ≠ fun _ => 0

/-- The options of a built in sampler are valid. -/
def BuiltInSampler.Valid : BuiltInSampler K n → Prop
  | .randomInterior => True
  | .randomHull d => ValidDistribution d
  | .optimalHull o => ValidDistribution o.distribution ∧ 1 ≤ o.nPointsRandomsearch ∧
      MinimizeSpec o.minimize

end Tranquilo
