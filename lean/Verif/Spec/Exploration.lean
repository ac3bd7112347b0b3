import Verif.Model.Exploration

/-!
# Specifications for exploration samples
-/

namespace Tranquilo

variable {K : Type} [Field K] [LinearOrder K] {n : Nat}

/-- Contract of the sequences and generators: as many points as requested, in the half open unit cube. -/
def UnitDraws (draws : String → Nat → List (Vec K n)) : Prop :=
  ∀ method k, (draws method k).length = k ∧ ∀ s ∈ draws method k, ∀ i, 0 ≤ s i ∧ s i < 1

/-- Contract of the Sobol sequence: without its first point, zero does not occur. -/
def SobolPositive (draws : String → Nat → List (Vec K n)) : Prop :=
  ∀ k, ∀ s ∈ draws "sobol" k, ∀ i, 0 < s i

/-- The probability of values up to `v` under the triangular distribution between `l` and `u` with mode `m`. -/
def triCdf (l m u v : K) : K :=
  if v < m then (v - l) ^ 2 / ((u - l) * (m - l)) else 1 - (u - v) ^ 2 / ((u - l) * (u - m))

/-- The row is the vector `v`, without NaN. -/
def RowIs (row : Fin n → Option K) (v : Vec K n) : Prop := ∀ i, row i = some (v i)

end Tranquilo
