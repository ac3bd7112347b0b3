import Verif.Model.Num

/-!
# Specification for acceptance decisions
-/

namespace Tranquilo

variable {K : Type} [Field K] [LinearOrder K]

/-- The value `new` improves on `old` by at least `m`. An infinite old value counts as
arbitrarily bad; new values have to be finite. -/
def ImprovesBy (m : K) (old new : XVal K) : Prop :=
  ∃ a, new = .fin a ∧ (old = .pinf ∨ ∃ b, old = .fin b ∧ m ≤ b - a)

end Tranquilo
