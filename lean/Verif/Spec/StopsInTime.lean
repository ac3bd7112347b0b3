import Verif.Spec.MainLoop

/-!
# Specification: the order of the convergence criteria (C138)
-/

namespace Tranquilo

/-- The convergence criteria in the order in which a message names the first that holds: gradient, criterion
value, parameters, the relative version before the absolute one. -/
def convergenceCriteria : List Msg := [.gtolRel, .gtolAbs, .ftolRel, .ftolAbs, .xtolRel, .xtolAbs]

/-- The criterion `m` holds and none that comes before it does. -/
def FirstToHold (holds : Msg → Prop) (m : Msg) : Prop :=
  holds m ∧ ∃ pre post, convergenceCriteria = pre ++ m :: post ∧ ∀ q ∈ pre, ¬ holds q

end Tranquilo
