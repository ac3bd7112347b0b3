import Verif.Model.TranquiloCall

/-!
# Specification: the criterion of the user, and the evaluations of a run (C122)
-/

namespace Tranquilo

variable {K O : Type} [Field K] [LinearOrder K] {n m : Nat}

/-- The criterion: the vector of residuals (or of the terms of the sum) that the function of the user returns when it
is called for the `k`-th time, and the function value that is computed from it. -/
structure Criterion (K : Type) (n m : Nat) where
  residuals : Nat → Vec K n → Fin m → XVal K
  value : (Fin m → XVal K) → XVal K

/-- The `k`-th evaluation of the run took place at the point `x`. -/
def Log.EvaluatedAt (log : Log K n) (k : Nat) (x : Vec K n) : Prop :=
  ∃ i v, log.evals[k]? = some (i, v) ∧ log.xs[i]? = some x

/-- All vectors that have been returned by evaluations at the point with index `i`. -/
def Log.vectors (residuals : Nat → Vec K n → Fin m → XVal K) (log : Log K n) (i : Nat) : List (Fin m → XVal K) :=
  (List.range log.evals.length).filterMap fun k =>
    match log.evals[k]?, log.xs[i]? with
    | some p, some x => if p.1 = i then some (residuals k x) else none
    | _, _ => none

/-- The environment of a call in which everything that depends on the criterion comes from the criterion `f`: function
values, all evaluations of a point (history.py:132-152), their averages (history.py:181-196) and those of the start
point (tranquilo.py:60; finite, see `BuiltinSettings`). -/
def Externals.withCriterion (ext : Externals K O n m) (f : Criterion K n m) : Externals K O n m :=
  { ext with
    oracle := fun k x => f.value (f.residuals k x)
    fvecs := fun log i => log.vectors f.residuals i
    data := fun log i j => XVal.mean ((log.vectors f.residuals i).map fun v => v j)
    start := fun log j => match XVal.mean ((log.vectors f.residuals 0).map fun v => v j) with
      | .fin v => v
      | _ => 0 }

end Tranquilo
