import Verif.Model.MainLoopRaise
import Verif.Model.ConjugateGradient
import Verif.Spec.BuiltinRun
import Verif.Spec.Region

/-!
# Specification: components that stay near the center of the region, and how far a run may go

Used by C135.
-/

namespace Tranquilo

variable {K : Type} [Field K] [LinearOrder K] {n m : Nat} {VM SM : Type}

/-- A norm: nothing else is used of `np.linalg.norm`. -/
structure IsNorm (nrm : Vec K n → K) : Prop where
  zero : nrm (fun _ => 0) = 0
  nonneg : ∀ v, 0 ≤ nrm v
  add : ∀ v w, nrm (fun i => v i + w i) ≤ nrm v + nrm w
  smul : ∀ a, 0 ≤ a → ∀ v, nrm (fun i => a * v i) = a * nrm v

/-- `y` is at most `q` radii away from the center of the region. -/
def WithinRadii (nrm : Vec K n → K) (q : K) (region : Region K n) (y : Vec K n) : Prop :=
  nrm (fun i => y i - region.center i) ≤ q * region.radius

/-- The sampler and the solver of the subproblem return points that satisfy the bounds and are at most `q` radii away
from the center, or they raise. -/
structure StaysNear (ce : ComponentsR K n VM SM) (bounds : Bounds K n) (q : K) : Prop where
  sample : ∀ it round log (region : Region K n) k xs ys, region.bounds = bounds → InBounds bounds region.center →
    0 ≤ region.radius → ce.sample it round log region k xs = .ok ys →
    ∀ y ∈ ys, InBounds bounds y ∧ WithinRadii ce.nrm q region y
  solve : ∀ m (region : Region K n) sub, region.bounds = bounds → InBounds bounds region.center →
    0 ≤ region.radius → ce.solve m region = .ok sub → InBounds bounds sub.x ∧ WithinRadii ce.nrm q region sub.x

/-- Without line search. -/
def NoLineSearch (c : Config K) : Prop := (∀ m rf, c.decider ≠ .lineSearch m rf) ∨ c.batchSize = 1

/-- How many times farther runs go: no farther without line search; the line search goes up to eight times the step to
the candidate, and to points around the candidate in a region whose radius is `rf` times the radius, also out of
the bounds, if there are any (C68). -/
def Reach (c : Config K) (bounds : Bounds K n) (reach : K) : Prop :=
  (NoLineSearch c ∧ reach = 1) ∨
    ((∀ y, InBounds bounds y) ∧ 8 ≤ reach ∧ ∀ m rf, c.decider = .lineSearch m rf → 0 ≤ rf ∧ 1 + rf ≤ reach)

/-- The sum of the radii of the iterations. The first state belongs to no iteration. -/
def sumRadii (states : List (LoopState K n VM SM)) : K := (states.tail.map fun s => s.trustregion.radius).sum

/-- Conditions on the built in components under which points are at most `q` radii away from the center. The norm is the
Euclidean norm. The corners of the cube that replaces the ball near the bounds are at most `q` radii away. The solvers
for balls may leave the unit ball by the factor `q`, as gqtpar does (C40), if there are no bounds. -/
structure NearSettings (b : BuiltinSettings K n m) (bounds : Bounds K n) (q : K) : Prop where
  norm : b.nrm = norm2 b.root
  root : SqrtSpec b.root
  radial : RadialSpec b.radial
  one_le : 1 ≤ q
  cubeRadius : ∀ a, 0 ≤ a → 0 ≤ b.cubeRadius a ∧ (n : K) * b.cubeRadius a ^ 2 ≤ (q * a) ^ 2
  rng : ∀ it round log, RngSpec (b.rng it round log)
  sampler : b.sampler.Valid
  ball : ∀ model x raw, (b.sphere model x = .ok raw ∨ b.fallbackSphere model x = .ok raw) →
    sumSq raw.x ≤ 1 ∨ ((∀ y, InBounds bounds y) ∧ sumSq raw.x ≤ q ^ 2)

end Tranquilo
