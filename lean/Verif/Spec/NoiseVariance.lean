import Verif.Model.Log
import Verif.Model.Models
import Mathlib.Algebra.BigOperators.Group.Finset.Basic

/-!
# Specification of the estimates of the noise
-/

namespace Tranquilo

variable {K : Type} [Field K] [LinearOrder K] {n m : Nat}

/-- Arithmetic mean of finitely many numbers. -/
def average (l : List K) : K := l.sum / l.length

/-- Unbiased sample covariance of pairs of numbers. -/
def sampleCovariance (l : List (K × K)) : K :=
  (l.map fun p => (p.1 - average (l.map Prod.fst)) * (p.2 - average (l.map Prod.snd))).sum
    / (l.length - 1)

/-- Unbiased sample variance. -/
def sampleVariance (l : List K) : K :=
  (l.map fun x => (x - average l) ^ 2).sum / (l.length - 1)

/-- Sample covariance matrix of a list of vectors. -/
def sampleCovMatrix (rows : List (Vec K m)) : Mat K m m := fun a b =>
  sampleCovariance (rows.map fun r => (r a, r b))

/-- The point with index `i` is stored and not further away from the center than `d`. -/
def NearPoint (nrm : Vec K n → K) (h : Log K n) (center : Vec K n) (d : K) (i : Nat) : Prop :=
  ∃ x, h.xs[i]? = some x ∧ nrm (fun j => x j - center j) ≤ d

/-- The points that shall be used: those near the region that have been evaluated at least `minN`
times, or that have been evaluated as often as any point near the region. -/
def UsedPoint (nrm : Vec K n → K) (h : Log K n) (center : Vec K n) (d : K) (minN : Int) (i : Nat) :
    Prop :=
  NearPoint nrm h center d i ∧
    (minN ≤ (h.fvals i).length ∨
      ∀ j, NearPoint nrm h center d j → (h.fvals j).length ≤ (h.fvals i).length)

end Tranquilo
