import Verif.Spec.CallUses
import Verif.Spec.CallOptions

/-!
# Specification: calls with sane values

Used by the statements of C119. All conditions are about the arguments of the call and about the values that are in
force, that is, the user's values or the defaults (`Uses`).
-/

namespace Tranquilo

variable {K O : Type} [Field K] [LinearOrder K] [FloorRing K] {n m : Nat}

/-- The component is not a function of the user. -/
def Named {R : Type} (request : Option (NameOrFunc (PyVal K O) R)) : Prop :=
  request = none ∨ ∃ s, request = some (.str s)

/-- Arguments with sane values. Defaults are sane, except that the start vector must not be zero if there is no initial
radius. -/
structure SaneCall (env : PyEnv K O) (ext : Externals K O n m) (a : Arguments K O (Option (Piece K n))) (x : Vec K n)
    (bounds : Bounds K n) : Prop where
  scalar : a.functype = "scalar" → m = 1
  batch : ∀ i, (a.batchSize = .none ∧ ReadsInt env a.nCores i) ∨ ReadsInt env a.batchSize i → 1 ≤ i
  initialRadius : ∀ initial q, (∀ i, |x i| / 10 ≤ initial) →
    Uses env a.radiusOptions "initial_radius" (num initial) (num q) → 0 < q
  minRadius : ∀ q, Uses env a.radiusOptions "min_radius" (num (1 / 10 ^ 6)) (num q) → 0 < q
  maxRadius : ∀ q, Uses env a.radiusOptions "max_radius" (num (10 ^ 6)) (num q) → 0 < q
  ratio : ∀ q, Uses env a.radiusOptions "max_radius_to_step_ratio" (.flt .pinf) (.flt q) → q = .pinf
  sampler : ∃ s, a.sampler = .str s
  distribution : ∀ d, Uses env a.samplerOptions "distribution" .none (pyName d) → ValidDistribution d
  randomsearch : ∀ k : ℕ, Uses env a.samplerOptions "n_points_randomsearch" (.int 1) (.int k) → 1 ≤ k
  filter : Named a.sampleFilter
  strictness : ∀ q, Uses env a.sampleFilterOptions "strictness" (num (1 / 10 ^ 10)) (num q) → 0 ≤ q
  shape : ∀ s, Uses env a.sampleFilterOptions "shape" (.str "sphere") (.str s) → s = "sphere"
  nMax : ∀ q, Uses env a.sampleFilterOptions "n_max_factor" (.int 3) (num q) → 0 ≤ q
  sphere : ∃ s, a.sphereSubsolver = .str s
  cube : ∃ s, a.cubeSubsolver = .str s
  retry : ReadsBool env a.retryWithFallback true
  decider : Named a.acceptanceDecider
  /-- the noisy decider needs the estimated noise -/
  noNoise : ReadsBool env a.noisy false → a.acceptanceDecider ≠ some (.str "noisy")
  /-- the line search leaves the bounds and compares values (C68, C98) -/
  lineSearch : a.acceptanceDecider = some (.str "classic_line_search") → ReadsBool env a.noisy false ∧
    ((∀ i, (a.batchSize = .none ∧ ReadsInt env a.nCores i) ∨ ReadsInt env a.batchSize i → i = 1) ∨
      ((∀ y, InBounds bounds y) ∧ (∀ k y, ext.oracle k y ≠ .nan) ∧
        ∀ q, Uses env a.acceptanceDeciderOptions "speculative_sampling_radius_factor" (num (3 / 4)) (num q) → 0 < q))
  /-- with noise, points are evaluated repeatedly -/
  noise : ReadsBool env a.noisy true → ext.FiniteData ∧ a.acceptanceDecider ≠ some (.str "classic") ∧
    (∀ i, ReadsInt env a.nEvalsAtStart i → 2 ≤ i) ∧
    (∀ k l : ℕ, Uses env a.acceptanceDeciderOptions "n_min" (.int 4) (.int k) →
      Uses env a.acceptanceDeciderOptions "n_max" (.int 50) (.int l) → 2 ≤ k ∧ k ≤ l) ∧
    (∃ s, a.varianceEstimator = .str s) ∧
    (∀ q, Uses env a.varianceEstimatorOptions "max_distance_factor" (num 3) (num q) → 0 ≤ q) ∧
    (∀ i, Uses env a.varianceEstimatorOptions "min_n_evals" (.int 3) (.int i) → 2 ≤ i) ∧
    (∀ i, Uses env a.noiseAdaptationOptions "rho_noise_n_draws" (.int 100) (.int i) → 0 ≤ i)

end Tranquilo
