import Verif.Model.Adjust
import Mathlib.Algebra.Order.Floor.Ring
import Mathlib.Data.Rat.Floor

/-!
# Model of `acceptance_sample_size.py` and of `next_multiple`

The quantiles `norm.ppf(1 - significance_level)` and `norm.ppf(power_level)` of the external package
scipy are the parameters `zConf` and `zPower` (arbitrary numbers).
-/

namespace Tranquilo

variable {K : Type} [Field K] [LinearOrder K]

/-- `_compute_factor`, acceptance_sample_size.py:60-69. `none` stands for `np.inf`. -/
def computeFactor (effect zConf zPower : K) : Option K :=
  if effect = 0 then none else some (((zConf + zPower) / effect) ^ 2)

/-- `_get_optimal_sample_sizes`, acceptance_sample_size.py:28-57, for a finite factor. (The infinite
factor cannot occur, see `C18_factor_is_finite`.) A factor of exactly zero gives `inf - ...` in line
55, here `0⁻¹ = 0`; the theorems exclude this case. -/
def getOptimalSampleSizes (sd1 sd2 : K) (existing : Nat) (factor : K) : K × K :=
  let n1Optimal := (sd1 * (sd2 + sd1)) * factor
  let n2Optimal := (sd2 * (sd2 + sd1)) * factor
  if (existing : K) ≤ n1Optimal then (n1Optimal - existing, n2Optimal)
  else (0, sd2 ^ 2 * (factor⁻¹ - sd1 ^ 2 / existing)⁻¹)

/-- `get_acceptance_sample_sizes`, acceptance_sample_size.py:5-25. -/
def getAcceptanceSampleSizes [FloorRing K] (sigma : K) (existing : Nat) (expectedImprovement : K)
    (zConf zPower : K) (nMin nMax : Nat) : Int × Int :=
  let effect := max expectedImprovement (1 / 100000000)
  let factor := (computeFactor effect zConf zPower).getD 0
  let raw := getOptimalSampleSizes sigma sigma existing factor
  let n1 := ⌈npClip raw.1 0 ((max 0 ((nMax : Int) - existing) : Int) : K)⌉
  let n2 := ⌈npClip raw.2 (nMin : K) (nMax : K)⌉
  (n1, n2)

/-- `next_multiple`, process_arguments.py:368-369: `int(np.ceil(n / base) * base)`. -/
def nextMultiple [FloorRing K] (n base : Nat) : Int :=
  ⌈((n : K) / (base : K))⌉ * (base : Int)

end Tranquilo
