import Verif.Spec.Models
import Verif.Spec.Region

/-!
# Specifications for the subsolvers
-/

namespace Tranquilo

variable {K : Type} [Field K] [LinearOrder K] {n : Nat}

/-- Contract of `np.sqrt`: the nonnegative square root. -/
def SqrtSpec (root : K → K) : Prop := ∀ a, 0 ≤ a → 0 ≤ root a ∧ root a * root a = a

/-- Value of the quadratic model `g'x + x'Hx / 2` of the subproblem. -/
def quadModel (g : Vec K n) (h : Mat K n n) (x : Vec K n) : K :=
  ∑ i, g i * x i + (∑ i, ∑ j, h i j * x i * x j) / 2

/-- The vector has Euclidean norm at most `radius`. -/
def NormLe (x : Vec K n) (radius : K) : Prop := sumSq x ≤ radius ^ 2

/-- The Hessian is positive semidefinite. -/
def PosSemidef (h : Mat K n n) : Prop := ∀ x : Vec K n, 0 ≤ ∑ i, ∑ j, h i j * x i * x j

/-- The direction of steepest descent at zero, without the components that leave the box at once. -/
def projectedDescent (g l u : Vec K n) : Vec K n := fun i =>
  if (u i ≤ 0 ∧ g i ≤ 0) ∨ (0 ≤ l i ∧ 0 ≤ g i) then 0 else -(g i)

end Tranquilo
