import Verif.Spec.Fit
import Verif.Spec.Region
import Verif.Spec.Stationary

/-!
# Specification: poised points (C120)
-/

namespace Tranquilo

variable {K : Type} [Field K] [LinearOrder K] {n m : Nat}

/-- The points are poised for interpolation with polynomials of the type `mt`: they determine such polynomials, each
point has a Lagrange polynomial (one at this point, zero at the others), and the absolute values of the Lagrange
polynomials add up to at most `cap` at the points with `inRegion`. -/
def PoisedOn (mt : ModelType) (inRegion : Vec K n → Prop) (cap : K) (points : List (Vec K n)) : Prop :=
  (∀ f, IsPoly mt f → (∀ y ∈ points, f y = 0) → ∀ y, f y = 0) ∧
  ∃ ell : Fin points.length → Vec K n → K, (∀ i, IsPoly mt (ell i)) ∧
    (∀ i j, ell i points[j] = if i = j then 1 else 0) ∧ ∀ y, inRegion y → ∑ i, |ell i y| ≤ cap

/-- Bounded residuals with bounded gradients `jac`, and linear approximations with an error of at most `lip / 2` times
the squared distance. -/
structure SmoothResiduals (res : Fin m → Vec K n → K) (jac : Fin m → Vec K n → Vec K n) (size slope lip : K) :
    Prop where
  bounded : ∀ k y, |res k y| ≤ size
  gradient : ∀ k y, sumSq (jac k y) ≤ slope ^ 2
  lipschitz : ∀ k y z, (res k z - res k y) ^ 2 ≤ slope ^ 2 * sumSq fun i => z i - y i
  smooth : ∀ k, SmoothWith (res k) (jac k) lip

end Tranquilo
