import Verif.Model.MainLoop
import Verif.Spec.Region

/-!
# Specification for whole runs: what the convergence messages claim

Written for two consecutive states, without the intermediate quantities of the code.
-/

namespace Tranquilo

variable {K : Type} [Field K] [LinearOrder K] {n : Nat} {VM SM : Type}

/-- What a convergence message says about the last two states. Criterion values have to be finite for
the two messages about the criterion. -/
def MessageHolds (nrm : Vec K n → K) (gradNorm : SM → K) (o : ConvOptions K)
    (old new : LoopState K n VM SM) : Msg → Prop
  | .gtolRel => gradNorm new.model ≤ o.gtolRel * max (gradNorm new.model) 1
  | .gtolAbs => gradNorm new.model ≤ o.gtolAbs
  | .ftolRel => ∃ a b, old.fval = .fin a ∧ new.fval = .fin b ∧ |a - b| ≤ o.ftolRel * max |a| 1
  | .ftolAbs => ∃ a b, old.fval = .fin a ∧ new.fval = .fin b ∧ |a - b| ≤ o.ftolAbs
  | .xtolRel => nrm (fun i => (old.x i - new.x i) / max |old.x i| 1) ≤ o.xtolRel
  | .xtolAbs => nrm (fun i => old.x i - new.x i) ≤ o.xtolAbs
  | .maxEval => False

/-- What a sampler has to guarantee about bounds (proved for the built in samplers in
`Props/Samplers.lean`): for a feasible center and a nonnegative radius all points are feasible. -/
def SamplerFeasible (comp : Components K n VM SM) : Prop :=
  ∀ it round log (region : Region K n) k xs, 0 ≤ region.radius → InBounds region.bounds region.center →
    ∀ y ∈ comp.sample it round log region k xs, InBounds region.bounds y

/-- The same for the solver of the subproblem. -/
def SolverFeasible (comp : Components K n VM SM) : Prop :=
  ∀ m (region : Region K n), 0 ≤ region.radius → InBounds region.bounds region.center →
    InBounds region.bounds (comp.solve m region).x

/-- Limits for the radius that make sense: no negative numbers. -/
structure RadiusLimitsOk (o : RadiusOptions K) : Prop where
  min : 0 ≤ o.minRadius
  max : 0 ≤ o.maxRadius
  ratio : ∀ q, o.maxRadiusToStepRatio = .fin q → 0 ≤ q

end Tranquilo
