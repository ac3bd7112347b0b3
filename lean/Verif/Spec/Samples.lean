import Verif.Spec.Fit

/-!
# Specification: samples that contain the same data
-/

namespace Tranquilo

variable {K : Type} [Field K] {n N M : Nat}

/-- Two weighted samples contain the same data: every weighted sum over points and responses is the same. -/
def SameData (w : Vec K N) (xs : Fin N → Vec K n) (y : Vec K N) (w' : Vec K M) (xs' : Fin M → Vec K n)
    (y' : Vec K M) : Prop :=
  ∀ f : Vec K n → K → K, ∑ s, w s * f (xs s) (y s) = ∑ t, w' t * f (xs' t) (y' t)

/-- The number of times the sample with points `xs (σ 0), xs (σ 1), ...` contains point `s`. -/
def multiplicity (σ : Fin M → Fin N) (s : Fin N) : Nat := (Finset.univ.filter fun t => σ t = s).card

end Tranquilo
