import Verif.Model.MainLoopRaise
import Verif.Spec.MainLoop

/-!
# Specification for runs with components that may raise

`SafeComponents` says what the components have to do in the situations that the main loop can bring
about: not raise, return the number of points that was asked for, stay in the bounds.
`Props/BuiltinRun.lean` proves it for the built in components.
-/

namespace Tranquilo

variable {K : Type} [Field K] [LinearOrder K] {n : Nat} {VM SM : Type}

/-- A region that a run within `bounds` can produce. -/
structure FeasibleRegion (bounds : Bounds K n) (r : Region K n) : Prop where
  box : r.bounds = bounds
  radius : 0 < r.radius
  center : InBounds bounds r.center

/-- With these options the current point of a run has at least two evaluations. -/
def RepeatsEvaluations (c : Config K) : Prop :=
  2 ≤ c.nEvalsAtStart ∧ ((∃ m, c.decider = .naiveNoisy m) ∨
    ∃ m zc zp nMin nMax, c.decider = .noisy m zc zp nMin nMax ∧ 2 ≤ nMin ∧ nMin ≤ nMax)

/-- What the main loop guarantees about the history from which the noise is estimated: there are
evaluations, all are values of the criterion, and the center of the region is stored, with two
evaluations if the options provide for that. -/
structure NoiseData (c : Config K) (oracle : Oracle K n) (log : Log K n) (region : Region K n) : Prop where
  evaluated : log.evals ≠ []
  values : ∀ e ∈ log.evals, ∃ k x, e.2 = oracle k x
  center : ∃ i, log.xs[i]? = some region.center ∧ (RepeatsEvaluations c → 2 ≤ (log.fvals i).length)

/-- Components that do not raise in a run within `bounds`. `Good` is a property of the vector valued
models from which residuals may be fitted. -/
structure SafeComponents (c : Config K) (ce : ComponentsR K n VM SM) (bounds : Bounds K n)
    (Good : VM → Prop) : Prop where
  /-- the norm of zero -/
  zero : ce.nrm (fun _ => 0) = 0
  /-- the filter gets at least the current point; it selects points with their indices -/
  filter : ∀ state log target nEvals (l : List (Vec K n × Nat)),
    FeasibleRegion bounds state.trustregion → (state.x, state.index) ∈ l →
    ∃ r, ce.filter state log target nEvals (l.map Prod.fst) (l.map Prod.snd) = .ok r
  selects : ∀ state log target nEvals (l : List (Vec K n × Nat)) r,
    ce.filter state log target nEvals (l.map Prod.fst) (l.map Prod.snd) = .ok r →
    ∃ kept : List (Vec K n × Nat), kept ⊆ (state.x, state.index) :: l ∧
      r = (kept.map Prod.fst, kept.map Prod.snd)
  sample : ∀ it round log (region : Region K n) k xs, FeasibleRegion bounds region →
    ∃ ys, ce.sample it round log region k xs = .ok ys ∧ ys.length = k ∧
      ∀ y ∈ ys, InBounds bounds y
  model : ∀ log is (region : Region K n) old, FeasibleRegion bounds region → Good old →
    c.targetSize ≤ is.length → (∀ i ∈ is, i < log.xs.length) →
    ∃ vm sm sub, ce.fit log is region old = .ok vm ∧ ce.aggregate vm = .ok sm ∧
      ce.solve sm region = .ok sub ∧ InBounds bounds sub.x
  init : ∀ log region, FeasibleRegion bounds region → Good (ce.initModel log region) ∧
    ∃ sm, ce.aggregate (ce.initModel log region) = .ok sm
  /-- the noise is estimated; it is not NaN if that is needed -/
  sigma : c.noisy = true → ∀ log region, FeasibleRegion bounds region → NoiseData c ce.oracle log region →
    ∃ s, ce.noiseSigma log region = .ok s ∧ ∀ m zc zp a b, c.decider = .noisy m zc zp a b → s ≠ none
  /-- the simulation gets a fitted model and the model from which it was fitted -/
  rhos : c.noisy = true → ∀ it log xs vm old region, FeasibleRegion bounds region → Good old →
    NoiseData c ce.oracle log region → (∃ log' is, ce.fit log' is region old = .ok vm) →
    ∃ l, ce.rhoNoise it log xs vm old region = .ok l
  /-- the line search looks up the smallest value of its additional points -/
  values : ∀ m rf, c.decider = .lineSearch m rf → c.batchSize = 1 ∨ ∀ k x, ce.oracle k x ≠ .nan

/-- Options with which the main loop itself does not raise. -/
structure SafeConfig (c : Config K) (bounds : Bounds K n) : Prop where
  batch : 1 ≤ c.batchSize
  search : 0 ≤ c.searchRadiusFactor
  minRadius : 0 < c.radius.minRadius
  maxRadius : 0 < c.radius.maxRadius
  ratio : c.radius.maxRadiusToStepRatio = .pinf
  /-- the noise of a noisy decider is estimated -/
  noise : ∀ m zc zp a b, c.decider = .noisy m zc zp a b → c.noisy = true
  /-- the line search leaves the bounds, see `C68_violated_by_line_search` -/
  line : ∀ m rf, c.decider = .lineSearch m rf →
    c.batchSize = 1 ∨ (0 < rf ∧ ∀ y : Vec K n, InBounds bounds y)

end Tranquilo
