import Verif.Model.Region
import Mathlib.Algebra.BigOperators.Fin

/-!
# Specification: boxes, balls and bounds
-/

namespace Tranquilo

variable {K : Type} [Field K] [LinearOrder K] {n : Nat}

/-- `x` satisfies the parameter bounds. -/
def InBounds (b : Bounds K n) (x : Vec K n) : Prop :=
  ∀ i, (∀ l, b.lower i = some l → l ≤ x i) ∧ (∀ u, b.upper i = some u → x i ≤ u)

/-- `x` satisfies the parameter bounds strictly. -/
def StrictlyInBounds (b : Bounds K n) (x : Vec K n) : Prop :=
  ∀ i, (∀ l, b.lower i = some l → l < x i) ∧ (∀ u, b.upper i = some u → x i < u)

/-- Sum of squares. -/
def sumSq (v : Vec K n) : K := ∑ i, v i ^ 2

/-- `x` is in the closed ball (Euclidean, through squares). -/
def InBallSq (c : Vec K n) (r : K) (x : Vec K n) : Prop := sumSq (fun i => x i - c i) ≤ r ^ 2

/-- `x` is in the box. -/
def InBox (lo hi : Vec K n) (x : Vec K n) : Prop := ∀ i, lo i ≤ x i ∧ x i ≤ hi i

end Tranquilo
