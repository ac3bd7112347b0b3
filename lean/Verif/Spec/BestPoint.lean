import Verif.Model.MainLoopRaise

/-!
# Specification: points that were sampled to fit a model

Used by C137.
-/

namespace Tranquilo

variable {K : Type} [Field K] [LinearOrder K] {n : Nat} {VM SM : Type}

/-- The sampler returned `y` for the trust region of an iteration of the run. -/
def SampledForModel (ce : ComponentsR K n VM SM) (r : Run K n VM SM) (y : Vec K n) : Prop :=
  ∃ s ∈ r.states.tail, ∃ it round log k xs ys, ce.sample it round log s.trustregion k xs = .ok ys ∧ y ∈ ys

end Tranquilo
