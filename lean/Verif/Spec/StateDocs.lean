import Verif.Model.MainLoopRaise

/-!
# Specification: what the documentation of `State` says

Used by C134. The fields and what they mean: docstrings of the class `State`, tranquilo.py:398-474.
-/

namespace Tranquilo

variable {K : Type} [Field K] [LinearOrder K] {n : Nat} {VM SM : Type}

/-- What the documentation says about a state `new` that follows the state `old` in the list of states of a run with the
history `log`. -/
structure DescribesIteration (ce : ComponentsR K n VM SM) (log : Log K n) (old new : LoopState K n VM SM) : Prop where
  /-- "The trustregion at the beginning of the iteration": it is centered at the point that was accepted before -/
  region : new.trustregion.center = old.x ∧ new.trustregion.bounds = old.trustregion.bounds
  /-- "The current surrogate model", "the indices of points used to build" it: the model was fitted on the trust region
  at these points of the history, as it was then, and aggregated -/
  model : ∃ log' vm, log'.xs <+: log.xs ∧ log'.evals <+: log.evals ∧
    ce.fit log' new.modelIndices new.trustregion new.vectorModel = .ok vm ∧ ce.aggregate vm = .ok new.model
  /-- "Whether the candidate point was accepted", "the accepted point", its index -/
  accepted : new.accepted = true → new.x = new.candidateX ∧ new.index = new.candidateIndex
  rejected : new.accepted = false → new.x = old.x ∧ new.index = old.index ∧ new.fval = old.fval
  /-- "The euclidian distance between `State.x` and `State.trustregion.center`" -/
  step : new.stepLength = some (ce.nrm fun i => new.x i - new.trustregion.center i)
  /-- "The step_length divided by the radius of the trustregion" -/
  relative : new.trustregion.radius ≠ 0 → ∃ q, new.relativeStepLength = some (.fin q) ∧
    new.stepLength = some (q * new.trustregion.radius)

/-- "The solution to the subproblem with this model as the criterion is stored as `State.candidate_x`." -/
def CandidateSolves (ce : ComponentsR K n VM SM) (s : LoopState K n VM SM) : Prop :=
  ∃ sub, ce.solve s.model s.trustregion = .ok sub ∧ s.candidateX = sub.x

/-- The number `k` of evaluations that the acceptance decider requests for the candidate. -/
def AcceptanceEvals (c : Config K) (k : ℤ) : Prop :=
  match c.decider with
  | .classic _ => k = 1
  | .naiveNoisy _ => k = 10
  | .noisy _ _ _ nMin nMax => nMin ≤ nMax → (nMin : ℤ) ≤ k ∧ k ≤ nMax
  | .lineSearch _ _ => k = 1

/-- The state reports how many evaluations of the solution of its subproblem its acceptance step requested, and the
solution is a point of the history with at least as many evaluations. -/
def ReportsEvaluations (c : Config K) (ce : ComponentsR K n VM SM) (log : Log K n) (s : LoopState K n VM SM) : Prop :=
  ∃ k sub i, s.nEvalsAcceptance = some k ∧ AcceptanceEvals c k ∧ ce.solve s.model s.trustregion = .ok sub ∧
    log.xs[i]? = some sub.x ∧ k ≤ (log.fvals i).length

end Tranquilo
