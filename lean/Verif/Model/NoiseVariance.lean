import Verif.Model.Acceptance
import Verif.Model.Subproblem

/-!
# Model of `estimate_variance.py` and `rho_noise.py`

The history is a `Log`; the vector valued evaluations of a point are given by a function `fvecs`
(`history.get_fvecs(i)`, one row for every evaluation of the point). Numbers have no rounding.
-/

namespace Tranquilo

variable {K : Type} [Field K] [LinearOrder K] {n m N : Nat}

/-- Sum of products of deviations from the means, divided by the number of pairs minus one:
`np.var(xs, ddof=1)` for equal arguments, and one entry of `np.cov(sample, rowvar=False, ddof=1)`
for two columns of `sample`. Division of zero by zero gives NaN (fewer than two values). -/
def npCov (xs ys : List (XVal K)) : XVal K :=
  let mx := XVal.mean xs
  let my := XVal.mean ys
  FloatLike.divNat (List.zipWith (fun x y => (x - mx) * (y - my)) xs ys).sum (xs.length - 1)

/-- `all_indices`, estimate_variance.py:35-37. -/
def varianceCandidates (nrm : Vec K n → K) (maxDistanceFactor : K) (region : Region K n)
    (h : Log K n) : List Nat :=
  h.indicesInRegion nrm region.center (region.radius * maxDistanceFactor)

/-- `len(history.get_fvals(idx))`, estimate_variance.py:39. -/
def nEvalsAt (h : Log K n) (i : Nat) : Nat := (h.fvals i).length

/-- `cutoff`, estimate_variance.py:42. `max` of an empty sequence raises a `ValueError`. -/
def varianceCutoff (minNEvals : Int) : List Nat → Except Err Int
  | [] => .error .valueError
  | c :: cs => .ok (min ((cs.foldl max c : Nat) : Int) minNEvals)

/-- `valid_indices`, estimate_variance.py:44. -/
def validIndices (h : Log K n) (cutoff : Int) (candidates : List Nat) : List Nat :=
  candidates.filter fun i => decide (cutoff ≤ (nEvalsAt h i : Int))

/-- `weights`, estimate_variance.py:45-46. -/
def varianceWeights (h : Log K n) (valid : List Nat) : List (XVal K) :=
  let total : Nat := (valid.map (nEvalsAt h)).sum
  valid.map fun i => XVal.divFin (nEvalsAt h i : K) (total : K)

/-- The loops estimate_variance.py:50-52 and 57-59, for one entry of the result. -/
def weightedSum (weights values : List (XVal K)) : XVal K :=
  (weights.zip values).foldl (fun out p => out + p.1 * p.2) (.fin 0)

/-- `_estimate_variance_classic` with `model_type="scalar"`, estimate_variance.py:28-52. -/
def estimateVariance (nrm : Vec K n → K) (maxDistanceFactor : K) (minNEvals : Int)
    (region : Region K n) (h : Log K n) : Except Err (XVal K) :=
  let candidates := varianceCandidates nrm maxDistanceFactor region h
  match varianceCutoff minNEvals (candidates.map (nEvalsAt h)) with
  | .error e => .error e
  | .ok cutoff =>
    let valid := validIndices h cutoff candidates
    .ok (weightedSum (varianceWeights h valid) (valid.map fun i => npCov (h.fvals i) (h.fvals i)))

/-- `np.cov(sample, rowvar=False, ddof=1)`, estimate_variance.py:59. For a sample with one row numpy's
result depends on its version (before 2.2 the row is not transposed, and the variance of its entries
is broadcast to the whole matrix): this is the parameter `covOfOne`. -/
def sampleCov (covOfOne : (Fin m → XVal K) → Fin m → Fin m → XVal K)
    (sample : List (Fin m → XVal K)) : Fin m → Fin m → XVal K :=
  match sample with
  | [row] => covOfOne row
  | _ => fun a b => npCov (sample.map fun r => r a) (sample.map fun r => r b)

/-- `_estimate_variance_classic` with another `model_type`, estimate_variance.py:28-46 and 54-61. -/
def estimateCovariance (nrm : Vec K n → K) (maxDistanceFactor : K) (minNEvals : Int)
    (covOfOne : (Fin m → XVal K) → Fin m → Fin m → XVal K)
    (region : Region K n) (h : Log K n) (fvecs : Nat → List (Fin m → XVal K)) :
    Except Err (Fin m → Fin m → XVal K) :=
  let candidates := varianceCandidates nrm maxDistanceFactor region h
  match varianceCutoff minNEvals (candidates.map (nEvalsAt h)) with
  | .error e => .error e
  | .ok cutoff =>
    let valid := validIndices h cutoff candidates
    .ok fun a b => weightedSum (varianceWeights h valid)
      (valid.map fun i => sampleCov covOfOne (fvecs i) a b)

/-- `np.diag(np.diag(noise_cov))`, rho_noise.py:62-63. -/
def dropCorrelation (ignore : Bool) (cov : Mat K m m) : Mat K m m := fun a b =>
  if ignore = true ∧ a ≠ b then 0 else cov a b

/-- What `simulate_rho_noise` does for one draw of the noise, rho_noise.py:71-90. The fitter gets the
simulated data, the region and the old model. -/
def simulateOneRho (cr : K → K)
    (fit : (Fin N → Vec K n) → (Fin N → Vec K m) → Region K n → VectorModel K n m →
      Except Err (VectorModel K n m))
    (aggregator : VectorModel K n m → Except Err (ScalarModel K n))
    (solve : ScalarModel K n → Region K n → Except Err (SubproblemResult K n))
    (region : Region K n) (old : VectorModel K n m) (xs : Fin N → Vec K n)
    (trueFvecs : Fin N → Vec K m) (trueModel : ScalarModel K n) (draw : Fin N → Vec K m) :
    Except Err (XVal K) := do
  let vm ← fit xs (fun s k => trueFvecs s k + draw s k) region old
  let sm ← aggregator vm
  let sub ← solve sm region
  let candidate := trueModel.predict sub.xUnit
  let current := trueModel.predict (region.mapToUnit cr region.center)
  pure (calculateRho (.fin (-(candidate - current))) sub.expectedImprovement)

/-- `simulate_rho_noise`, rho_noise.py:6-92. `draws cov k` stands for
`rng.multivariate_normal(0, cov, k * n_samples).reshape(k, n_samples, n_residuals)`; a negative
number of draws is refused by numpy with a `ValueError`. Covariances with NaN or infinite entries
are not modelled. -/
def simulateRhoNoise (cr : K → K)
    (fit : (Fin N → Vec K n) → (Fin N → Vec K m) → Region K n → VectorModel K n m →
      Except Err (VectorModel K n m))
    (aggregator : VectorModel K n m → Except Err (ScalarModel K n))
    (solve : ScalarModel K n → Region K n → Except Err (SubproblemResult K n))
    (draws : Mat K m m → Nat → List (Fin N → Vec K m))
    (nDraws : Int) (ignoreCorrelation : Bool)
    (xs : Fin N → Vec K n) (model old : VectorModel K n m) (region : Region K n)
    (noiseCov : Mat K m m) : Except Err (List (XVal K)) := do
  let trueModel ← aggregator model
  if nDraws < 0 then .error .valueError
  else
    (draws (dropCorrelation ignoreCorrelation noiseCov) nDraws.toNat).mapM fun draw =>
      simulateOneRho cr fit aggregator solve region old xs
        (fun s => model.predict (region.mapToUnit cr (xs s))) trueModel draw

end Tranquilo
