import Verif.Model.Models

/-!
# Specification: the gradient of a function of degree two
-/

namespace Tranquilo

variable {K : Type} [Field K] {n : Nat}

/-- `g` is the gradient of `f` at `c`, for functions of degree two. -/
def GradientAt (f : Vec K n → K) (c g : Vec K n) : Prop :=
  ∃ h : Mat K n n, ∀ y, f y = f c + ∑ i, g i * (y i - c i) +
    (∑ i, ∑ j, h i j * (y i - c i) * (y j - c j)) / 2

end Tranquilo
