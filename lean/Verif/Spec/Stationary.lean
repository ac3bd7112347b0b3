import Verif.Model.MainLoopRaise
import Verif.Lemmas.MainLoop
import Verif.Spec.BuiltinRun

/-!
# Specification: steps of a run, promising steps (C117)
-/

namespace Tranquilo

variable {K : Type} [Field K] [LinearOrder K] {n : Nat} {VM SM : Type}

/-- What a state of a run on the criterion `g` says about the step of its iteration. `solve` gives the proposal for the
stored model on the stored trust region. `rho` is the gain of the proposal, divided by the expected one, and a proposal
that gains at least `minImprovement` is accepted, or a point that is at least as good. -/
def JudgedStep (solve : SM → Region K n → Except Err (SubSolution K n)) (minImprovement : K) (g : Vec K n → K)
    (s : LoopState K n VM SM) : Prop :=
  ∃ sub, solve s.model s.trustregion = .ok sub ∧
    s.rho = calculateRho (.fin (g s.trustregion.center - g sub.x)) sub.expectedImprovement ∧
    (minImprovement ≤ g s.trustregion.center - g sub.x → g s.x ≤ g sub.x)

/-- The model of a step promises an improvement of at least `eta` per unit of the radius (not counting the part of the
radius above `delta`), and the improvement differs from what was expected by at most `kappa` times the squared
radius. -/
def PromisingStep (solve : SM → Region K n → Except Err (SubSolution K n)) (eta delta kappa : K) (g : Vec K n → K)
    (s : LoopState K n VM SM) : Prop :=
  ∀ sub, solve s.model s.trustregion = .ok sub →
    eta * min s.trustregion.radius delta ≤ sub.expectedImprovement ∧
    |g s.trustregion.center - g sub.x - sub.expectedImprovement| ≤ kappa * s.trustregion.radius ^ 2

/-- Options under which a run cannot get stuck; they hold for the defaults. -/
structure ProgressOptions (c : Config K) : Prop where
  batch : 1 ≤ c.batchSize
  noisy : c.noisy = false
  decider : ∀ m zc zp a b, c.decider ≠ .noisy m zc zp a b
  improvement : 0 ≤ c.decider.minImprovement
  rhoPos : 0 < c.radius.rhoDecrease
  rhoLt : c.radius.rhoDecrease < 1
  rhoLe : c.radius.rhoDecrease ≤ c.radius.rhoIncrease
  shrinkPos : 0 < c.radius.shrinkingFactor
  shrinkLt : c.radius.shrinkingFactor < 1
  expansion : 1 ≤ c.radius.expansionFactor
  ratio : ∀ r, c.radius.maxRadiusToStepRatio ≠ .fin r

/-- The radius below which promising steps succeed. -/
def trustedRadius (c : Config K) (eta delta kappa : K) : K :=
  min delta ((1 - c.radius.rhoDecrease) * eta / kappa)

/-- A radius that a run of promising steps does not fall below. -/
def leastRadius (c : Config K) (eta delta kappa radius : K) : K :=
  min (min radius c.radius.maxRadius) (c.radius.shrinkingFactor * trustedRadius c eta delta kappa)

/-- What is needed of the solver for balls. It starts in the center of the unit ball. On the model it stays in the ball
with radius `1 + slack`, and reduces the model by at least the share `theta` of any reduction along the direction of
steepest descent in the unit ball. -/
def DescentAt (theta slack : K) (solver : SubSolver K n) (model : ScalarModel K n) : Prop :=
  ∀ raw, solver model (fun _ => 0) = .ok raw → sumSq raw.x ≤ (1 + slack) ^ 2 ∧
    ∀ t, 0 ≤ t → sumSq (fun i => -(t * model.linearTerms i)) ≤ 1 →
      theta * (model.predict (fun _ => 0) - model.predict fun i => -(t * model.linearTerms i))
        ≤ model.predict (fun _ => 0) - model.predict raw.x

/-- The curvature of the model, with respect to the parameters in place of the coordinates of the trust region, is at
most `beta`. -/
def CurvatureLe (beta : K) (s : LoopState K n VM (ScalarModel K n)) : Prop :=
  ∀ h, s.model.squareTerms = some h → ∀ u : Vec K n,
    |∑ i, ∑ j, h i j * u i * u j| ≤ beta * s.trustregion.radius ^ 2 * sumSq u

/-- `grad` gives the gradients of `g`, and the error of the linear approximation is at most `lip / 2` times the squared
distance. -/
def SmoothWith (g : Vec K n → K) (grad : Vec K n → Vec K n) (lip : K) : Prop :=
  ∀ x y, |g y - g x - ∑ i, grad x i * (y i - x i)| ≤ lip / 2 * sumSq fun i => y i - x i

end Tranquilo
