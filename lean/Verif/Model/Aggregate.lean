import Verif.Model.Models

/-!
# Model of `aggregate_models.py`
-/

namespace Tranquilo

variable {K : Type} [Field K] {n m : Nat}

/-- `_aggregate_models_template`, aggregate_models.py:37-56. -/
def aggregateWith (v : VectorModel K n m) (terms : K × Vec K n × Mat K n n) : ScalarModel K n where
  intercept := terms.1
  linearTerms := terms.2.1
  squareTerms := some terms.2.2
  shift := v.shift
  scale := v.scale

/-- `aggregator_identity`, aggregate_models.py:59-78. `float(intercepts)` raises a `TypeError` unless
there is exactly one residual. -/
def aggregatorIdentity (v : VectorModel K n m) : Except Err (ScalarModel K n) :=
  if h : m = 1 then
    let k : Fin m := ⟨0, by omega⟩
    .ok (aggregateWith v (v.intercepts k, v.linearTerms k,
      match v.squareTerms with
      | none => fun _ _ => 0
      | some q => q k))
  else .error .typeError

/-- `aggregator_sum`, aggregate_models.py:81-99. `None.sum` is an `AttributeError`. -/
def aggregatorSum (v : VectorModel K n m) : Except Err (ScalarModel K n) :=
  match v.squareTerms with
  | none => .error .attributeError
  | some q => .ok (aggregateWith v (∑ k, v.intercepts k, fun i => ∑ k, v.linearTerms k i,
      fun i j => ∑ k, q k i j))

/-- `aggregator_least_squares_linear`, aggregate_models.py:102-126. -/
def aggregatorLeastSquares (v : VectorModel K n m) : ScalarModel K n :=
  aggregateWith v (∑ k, v.intercepts k * v.intercepts k,
    fun i => 2 * ∑ k, v.linearTerms k i * v.intercepts k,
    fun i j => ∑ k, 2 * v.linearTerms k i * v.linearTerms k j)

/-- `aggregator_information_equality_linear`, aggregate_models.py:129-152. -/
def aggregatorInformation (v : VectorModel K n m) : ScalarModel K n :=
  aggregateWith v (∑ k, v.intercepts k, fun i => ∑ k, v.linearTerms k i,
    fun i j => -(∑ k, v.linearTerms k i * v.linearTerms k j) / 2)

/-- `get_aggregator` applied to a vector model, aggregate_models.py:8-34. -/
def aggregate (name : String) (v : VectorModel K n m) : Except Err (ScalarModel K n) :=
  if name = "identity" then aggregatorIdentity v
  else if name = "sum" then aggregatorSum v
  else if name = "information_equality_linear" then .ok (aggregatorInformation v)
  else if name = "least_squares_linear" then .ok (aggregatorLeastSquares v)
  else .error .valueError

end Tranquilo
