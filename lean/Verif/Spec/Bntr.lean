import Verif.Spec.Subsolver

/-!
# Specification for the solver of box constrained subproblems
-/

namespace Tranquilo

variable {K : Type} [Field K] [LinearOrder K] {n : Nat}

/-- First order conditions for a minimum over the box at a point with gradient `g`: the point is in the
box, and no coordinate can be moved within the box in the direction of descent. -/
def FirstOrder (l u x g : Vec K n) : Prop :=
  InBox l u x ∧ ∀ i, (x i < u i → 0 ≤ g i) ∧ (l i < x i → g i ≤ 0)

/-- The gradient of the quadratic model at `x`. -/
def quadGradient (g : Vec K n) (h : Mat K n n) (x : Vec K n) : Vec K n :=
  fun i => g i + ∑ j, h i j * x j

end Tranquilo
