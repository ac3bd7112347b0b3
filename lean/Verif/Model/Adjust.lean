import Verif.Model.Num

/-!
# Models of `adjust_radius.py`, `adjust_n_evals.py` and of the default start radius
-/

namespace Tranquilo

variable {K : Type} [Field K] [LinearOrder K]

/-- `RadiusOptions` without the field `initial_radius` (which is only used in process_arguments.py),
options.py:132-143. `max_radius_to_step_ratio` is `np.inf` by default. -/
structure RadiusOptions (K : Type) where
  maxRadius : K
  minRadius : K
  rhoDecrease : K
  rhoIncrease : K
  shrinkingFactor : K
  expansionFactor : K
  largeStep : K
  maxRadiusToStepRatio : XVal K

/-- The defaults of options.py:132-143, over the rationals. -/
def RadiusOptions.default : RadiusOptions ℚ where
  maxRadius := 1000000
  minRadius := 1 / 1000000
  rhoDecrease := 1 / 10
  rhoIncrease := 1 / 10
  shrinkingFactor := 1 / 2
  expansionFactor := 2
  largeStep := 1 / 2
  maxRadiusToStepRatio := .pinf

/-- `np.clip(a, lo, hi)` for numbers: numpy computes `minimum(maximum(a, lo), hi)`, so for `hi < lo`
the result is `hi`. -/
def npClip {α : Type} [LinearOrder α] (a lo hi : α) : α := min (max a lo) hi

/-- `step_length / radius` of numpy floats: division by zero gives an infinity or NaN. -/
def XVal.divFin (a b : K) : XVal K :=
  if b = 0 then (if 0 < a then .pinf else if a < 0 then .ninf else .nan) else .fin (a / b)

/-- `adjust_radius`, adjust_radius.py:4-43. -/
def adjustRadius (radius : K) (rho : XVal K) (stepLength : K) (o : RadiusOptions K)
    (nEvalsIsIncreased : Bool) : K :=
  let isLargeStep := XVal.fin o.largeStep ≤ XVal.divFin stepLength radius
  let newRadius :=
    if XVal.fin o.rhoIncrease ≤ rho ∧ isLargeStep then radius * o.expansionFactor
    else if XVal.fin o.rhoDecrease ≤ rho ∨ nEvalsIsIncreased = true then radius
    else radius * o.shrinkingFactor
  let maxRadius := match o.maxRadiusToStepRatio with
    | .fin ratio => min o.maxRadius (stepLength * ratio)
    | _ => o.maxRadius
  npClip newRadius o.minRadius maxRadius

/-- What one iteration hands to `adjust_radius`, tranquilo.py:353-368. -/
structure RadiusInput (K : Type) where
  rho : XVal K
  stepLength : K
  nEvalsIsIncreased : Bool

/-- The radius after a sequence of iterations (tranquilo.py:353-368 in the loop 95-382). -/
def radiusAfter (o : RadiusOptions K) (radius : K) (inputs : List (RadiusInput K)) : K :=
  inputs.foldl (fun r i => adjustRadius r i.rho i.stepLength o i.nEvalsIsIncreased) radius

/-- The fields of `NoiseAdaptationOptions` that `adjust_n_evals` uses, options.py:206-215. -/
structure NEvalsOptions (K : Type) where
  highRho : K
  lowRho : K
  minShareHighRho : K
  minShareLowRho : K
  minNEvals : Int
  maxNEvals : Int
  goodRhoThreshold : K

/-- The defaults of options.py:206-215. -/
def NEvalsOptions.default : NEvalsOptions ℚ where
  highRho := 6 / 10
  lowRho := 1 / 10
  minShareHighRho := 7 / 10
  minShareLowRho := 9 / 10
  minNEvals := 1
  maxNEvals := 30
  goodRhoThreshold := 1 / 10

/-- `(rho_noise > threshold).mean() > share`. The mean of an empty array is NaN, the comparison then
false. -/
def shareAbove (rhoNoise : List (XVal K)) (threshold share : K) : Prop :=
  rhoNoise ≠ [] ∧
    share < ((rhoNoise.filter fun r => XVal.fin threshold < r).length : K) / (rhoNoise.length : K)

instance (l : List (XVal K)) (t s : K) : Decidable (shareAbove l t s) :=
  inferInstanceAs (Decidable (_ ∧ _))

/-- `adjust_n_evals`, adjust_n_evals.py:1-29. -/
def adjustNEvals (nEvals : Int) (rho : XVal K) (rhoNoise : List (XVal K)) (o : NEvalsOptions K) :
    Int × Bool :=
  let new :=
    if shareAbove rhoNoise o.highRho o.minShareHighRho then max (nEvals - 1) o.minNEvals
    else if shareAbove rhoNoise o.lowRho o.minShareLowRho ∨ XVal.fin o.goodRhoThreshold ≤ rho then
      nEvals
    else min (nEvals + 1) o.maxNEvals
  (new, decide (nEvals < new))

/-- The number of evaluations after a sequence of iterations, tranquilo.py:327-348. -/
def nEvalsAfter (o : NEvalsOptions K) (nEvals : Int) (inputs : List (XVal K × List (XVal K))) : Int :=
  inputs.foldl (fun n i => (adjustNEvals n i.1 i.2 o).1) nEvals

/-- `get_default_radius`, options.py:30-31: `0.1 * np.max(np.abs(x))`; `np.max` of an empty array
raises `ValueError`. -/
def defaultRadius : List K → Except Err K
  | [] => .error .valueError
  | x :: xs => .ok (1 / 10 * (xs.foldl (fun m y => max m |y|) |x|))

end Tranquilo
