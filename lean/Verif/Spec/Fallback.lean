import Verif.Model.Fallback

/-!
# Specification: `scipy.optimize.minimize`
-/

namespace Tranquilo

variable {K : Type} [Field K] [LinearOrder K] {n : Nat}

/-- Assumption about scipy: the result respects the bounds that were passed (if these are consistent),
and the reported value is the value of the criterion at the result. -/
def ScipySpec (scipy : ScipyMinimize K n) : Prop :=
  ∀ crit x0 lower upper, (∀ i, lower i ≤ upper i) →
    (∀ i, lower i ≤ (scipy crit x0 lower upper).x i ∧ (scipy crit x0 lower upper).x i ≤ upper i) ∧
    (scipy crit x0 lower upper).value = crit (scipy crit x0 lower upper).x

/-- Assumption about SLSQP: the result respects the bounds, and the constraint up to a tolerance if the solver reports
success. Without success nothing is known about the constraint. -/
def SlsqpSpec (tol : K) (slsqp : Slsqp K n) : Prop :=
  ∀ crit grad c x0 lower upper, (∀ i, lower i ≤ upper i) →
    (∀ i, lower i ≤ (slsqp crit grad c x0 lower upper).x i ∧ (slsqp crit grad c x0 lower upper).x i ≤ upper i) ∧
    ((slsqp crit grad c x0 lower upper).success = true → c.value (slsqp crit grad c x0 lower upper).x ≤ c.ub + tol)

end Tranquilo
