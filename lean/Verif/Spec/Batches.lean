import Verif.Model.MainLoopRaise

/-!
# Specification: full batches

Used by C60.
-/

namespace Tranquilo

variable {K : Type} [Field K] [LinearOrder K] {n : Nat} {VM SM : Type}

/-- The sampler, if it returns, gives as many points as requested. -/
def SamplerExactR (ce : ComponentsR K n VM SM) : Prop :=
  ∀ it round log region k xs ys, ce.sample it round log region k xs = .ok ys → ys.length = k

/-- The acceptance step evaluates one point. -/
def SingleCandidate (c : Config K) : Prop := (∀ m rf, c.decider ≠ .lineSearch m rf) ∨ c.batchSize = 1

end Tranquilo
