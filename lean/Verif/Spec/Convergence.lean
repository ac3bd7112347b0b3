import Verif.Model.Subproblem
import Verif.Spec.Region

/-!
# Specification: convex criteria, subsolvers with a sufficient decrease
-/

namespace Tranquilo

variable {K : Type} [Field K] [LinearOrder K] {n : Nat}

/-- The point at share `t` of the way from `x` to `y`. -/
def between (t : K) (x y : Vec K n) : Vec K n := fun i => (1 - t) * x i + t * y i

/-- A convex function. -/
def ConvexFun (g : Vec K n → K) : Prop :=
  ∀ x y t, 0 ≤ t → t ≤ 1 → g (between t x y) ≤ (1 - t) * g x + t * g y

/-- On convex models the solver reduces the model by at least the share `kappa` of the largest possible reduction in
the unit ball. It starts at the center. -/
def SufficientInBall (kappa : K) (solver : SubSolver K n) : Prop :=
  ∀ model, ConvexFun model.predict → ∀ raw, solver model (fun _ => 0) = .ok raw →
    ∀ u, sumSq u ≤ 1 →
      kappa * (model.predict (fun _ => 0) - model.predict u) ≤ model.predict (fun _ => 0) - model.predict raw.x

/-- On convex models the solver stays in the unit box and reduces the model by at least the share `kappa` of the
largest possible reduction there. It starts anywhere in the box. -/
def SufficientInBox (kappa : K) (solver : SubSolver K n) : Prop :=
  ∀ model, ConvexFun model.predict → ∀ x, (∀ i, -1 ≤ x i ∧ x i ≤ 1) → ∀ raw, solver model x = .ok raw →
    (∀ i, -1 ≤ raw.x i ∧ raw.x i ≤ 1) ∧ ∀ u, (∀ i, -1 ≤ u i ∧ u i ≤ 1) →
      kappa * (model.predict x - model.predict u) ≤ model.predict x - model.predict raw.x

/-- `y` minimizes `g` among the points within the bounds. -/
def MinimizerInBounds (bounds : Bounds K n) (g : Vec K n → K) (y : Vec K n) : Prop :=
  InBounds bounds y ∧ ∀ z, InBounds bounds z → g y ≤ g z

end Tranquilo
