import Verif.Model.MainLoopRaise

/-!
# Specification: what a state reports about the step of its iteration

Used by C136. The criterion has no noise and the finite values `g`.
-/

namespace Tranquilo

variable {K : Type} [Field K] [LinearOrder K] {n : Nat} {VM SM : Type}

/-- Every decider evaluates the proposed point; for the noisy one this needs `1 <= n_min <= n_max`. -/
def EvaluatesProposals (c : Config K) : Prop :=
  ∀ m zc zp nMin nMax, c.decider = .noisy m zc zp nMin nMax → 1 ≤ nMin ∧ nMin ≤ nMax

/-- `rho` is the ratio of the actual and the expected improvement. The ratio for an expected improvement of zero is infinite,
with the sign of the actual improvement, where no improvement counts as negative. -/
def IsRatio (actual expected : K) (rho : XVal K) : Prop :=
  (expected ≠ 0 → ∃ q, rho = .fin q ∧ q * expected = actual) ∧
  (expected = 0 → 0 < actual → rho = .pinf) ∧ (expected = 0 → ¬ 0 < actual → rho = .ninf)

/-- What the state `s` reports: `sub` is the solution of the subproblem for the stored model on the stored region. -/
structure StepReport (minImprovement : K) (g : Vec K n → K) (sub : SubSolution K n) (s : LoopState K n VM SM) : Prop where
  rho : IsRatio (g s.trustregion.center - g sub.x) sub.expectedImprovement s.rho
  value : s.fval = .fin (g s.x)
  /-- sufficient improvements are not rejected -/
  taken : minImprovement ≤ g s.trustregion.center - g sub.x → s.accepted = true
  /-- insufficient improvements are not accepted; only the line search takes other points than `sub`, and only better
  ones -/
  accepted : s.accepted = true → minImprovement ≤ g s.trustregion.center - g s.x ∧ g s.x ≤ g sub.x
  rejected : s.accepted = false → s.x = s.trustregion.center

end Tranquilo
