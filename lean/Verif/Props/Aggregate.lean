import Verif.Lemmas.Models
import Verif.Model.Aggregate
import Mathlib.Tactic.NormNum
import Mathlib.Algebra.Order.BigOperators.Ring.Finset

/-!
# C37: aggregated models
-/

namespace Tranquilo

variable {K : Type} [Field K] [LinearOrder K] [IsStrictOrderedRing K] {n m : Nat}

omit [LinearOrder K] [IsStrictOrderedRing K] in
/-- C37, scalar criteria: the aggregated model predicts the only residual. -/
theorem C37_identity (v : VectorModel K n 1) :
    ∃ s, aggregate "identity" v = .ok s ∧ (∀ x, s.predict x = v.predict x 0) ∧
      s.shift = v.shift ∧ s.scale = v.scale := by
  refine ⟨_, rfl, fun x => ?_, rfl, rfl⟩
  rw [ScalarModel.predict_eq, VectorModel.predict_eq]
  simp only [aggregateWith]
  cases v.squareTerms with
  | none => simp [polyVal]
  | some q => rfl

omit [LinearOrder K] [IsStrictOrderedRing K] in
/-- C37: with several residuals the identity is refused. -/
theorem C37_identity_needs_one_residual (v : VectorModel K n m) (h : m ≠ 1) :
    aggregate "identity" v = .error .typeError := by
  simp [aggregate, aggregatorIdentity, h]

omit [LinearOrder K] [IsStrictOrderedRing K] in
/-- C37, likelihood with quadratic models: the aggregated model predicts the sum. -/
theorem C37_sum (v : VectorModel K n m) (q : Fin m → Mat K n n) (hq : v.squareTerms = some q) :
    ∃ s, aggregate "sum" v = .ok s ∧ (∀ x, s.predict x = ∑ k, v.predict x k) ∧
      s.shift = v.shift ∧ s.scale = v.scale := by
  have h : aggregate "sum" v = .ok (aggregateWith v (∑ k, v.intercepts k, fun i => ∑ k, v.linearTerms k i,
      fun i j => ∑ k, q k i j)) := by
    simp [aggregate, aggregatorSum, hq]
  refine ⟨_, h, fun x => ?_, rfl, rfl⟩
  rw [ScalarModel.predict_eq]
  simp only [VectorModel.predict_eq, hq, Option.map_some, polyVal, aggregateWith,
    Finset.sum_add_distrib]
  congr 1
  · congr 1
    rw [Finset.sum_comm]
    exact Finset.sum_congr rfl fun i _ => Finset.sum_mul _ _ _
  · rw [← Finset.sum_div]
    congr 1
    calc ∑ i, ∑ j, (∑ k, q k i j) * x i * x j
        = ∑ i, ∑ j, ∑ k, q k i j * x i * x j :=
          Finset.sum_congr rfl fun i _ => Finset.sum_congr rfl fun j _ => by
            rw [Finset.sum_mul, Finset.sum_mul]
      _ = ∑ i, ∑ k, ∑ j, q k i j * x i * x j := Finset.sum_congr rfl fun i _ => Finset.sum_comm
      _ = _ := Finset.sum_comm

omit [LinearOrder K] [IsStrictOrderedRing K] in
theorem sum_sq_expand (v : VectorModel K n m) (x : Vec K n) :
    ∑ k, (v.intercepts k + ∑ i, v.linearTerms k i * x i) ^ 2
      = ∑ k, v.intercepts k * v.intercepts k
        + 2 * ∑ k, v.intercepts k * ∑ i, v.linearTerms k i * x i
        + ∑ k, (∑ i, v.linearTerms k i * x i) ^ 2 := by
  rw [Finset.mul_sum, ← Finset.sum_add_distrib, ← Finset.sum_add_distrib]
  exact Finset.sum_congr rfl fun k _ => by ring

omit [LinearOrder K] [IsStrictOrderedRing K] in
theorem gram_quad (v : VectorModel K n m) (x : Vec K n) :
    ∑ i, ∑ j, (∑ k, v.linearTerms k i * v.linearTerms k j) * x i * x j
      = ∑ k, (∑ i, v.linearTerms k i * x i) ^ 2 := by
  calc ∑ i, ∑ j, (∑ k, v.linearTerms k i * v.linearTerms k j) * x i * x j
      = ∑ i, ∑ j, ∑ k, v.linearTerms k i * x i * (v.linearTerms k j * x j) :=
        Finset.sum_congr rfl fun i _ => Finset.sum_congr rfl fun j _ => by
          rw [Finset.sum_mul, Finset.sum_mul]
          exact Finset.sum_congr rfl fun k _ => by ring
    _ = ∑ i, ∑ k, ∑ j, v.linearTerms k i * x i * (v.linearTerms k j * x j) :=
        Finset.sum_congr rfl fun i _ => Finset.sum_comm
    _ = ∑ k, ∑ i, ∑ j, v.linearTerms k i * x i * (v.linearTerms k j * x j) := Finset.sum_comm
    _ = _ := Finset.sum_congr rfl fun k _ => by rw [sq, Finset.sum_mul_sum]

/-- C37, least squares with linear models: the aggregated model predicts the sum of squared residual
predictions, and its second order terms are symmetric and positive semidefinite (the model is
convex). -/
theorem C37_least_squares (v : VectorModel K n m) (hv : v.squareTerms = none) :
    ∃ s h, aggregate "least_squares_linear" v = .ok s ∧ s.squareTerms = some h ∧
      (∀ x, s.predict x = ∑ k, v.predict x k ^ 2) ∧
      SymmetricMat h ∧ (∀ x : Vec K n, 0 ≤ ∑ i, ∑ j, h i j * x i * x j) ∧
      s.shift = v.shift ∧ s.scale = v.scale := by
  refine ⟨aggregatorLeastSquares v, _, rfl, rfl, fun x => ?_, ?_, fun x => ?_, rfl, rfl⟩
  · rw [ScalarModel.predict_eq]
    simp only [VectorModel.predict_eq, hv, Option.map_none, polyVal, add_zero]
    rw [sum_sq_expand]
    simp only [aggregatorLeastSquares, aggregateWith]
    congr 1
    · congr 1
      simp only [Finset.mul_sum, Finset.sum_mul]
      rw [Finset.sum_comm]
      exact Finset.sum_congr rfl fun k _ => Finset.sum_congr rfl fun i _ => by ring
    · rw [← gram_quad, div_eq_iff (two_ne_zero), Finset.sum_mul]
      refine Finset.sum_congr rfl fun i _ => ?_
      rw [Finset.sum_mul]
      refine Finset.sum_congr rfl fun j _ => ?_
      have : ∑ k, 2 * v.linearTerms k i * v.linearTerms k j
          = 2 * ∑ k, v.linearTerms k i * v.linearTerms k j := by
        rw [Finset.mul_sum]; exact Finset.sum_congr rfl fun k _ => by ring
      rw [this]; ring
  · intro i j
    simp only
    exact Finset.sum_congr rfl fun k _ => by ring
  · have : ∑ i, ∑ j, (∑ k, 2 * v.linearTerms k i * v.linearTerms k j) * x i * x j
        = 2 * ∑ k, (∑ i, v.linearTerms k i * x i) ^ 2 := by
      rw [← gram_quad, Finset.mul_sum]
      refine Finset.sum_congr rfl fun i _ => ?_
      rw [Finset.mul_sum]
      refine Finset.sum_congr rfl fun j _ => ?_
      have : ∑ k, 2 * v.linearTerms k i * v.linearTerms k j
          = 2 * ∑ k, v.linearTerms k i * v.linearTerms k j := by
        rw [Finset.mul_sum]; exact Finset.sum_congr rfl fun k _ => by ring
      rw [this]; ring
    rw [this]
    exact mul_nonneg zero_le_two (Finset.sum_nonneg fun k _ => sq_nonneg _)

/-- C37, likelihood with linear models: the sum plus a concave second order term built from the
scores, -1/4 times the sum of squared score products. -/
theorem C37_information_equality (v : VectorModel K n m) (hv : v.squareTerms = none) :
    ∃ s h, aggregate "information_equality_linear" v = .ok s ∧ s.squareTerms = some h ∧
      (∀ x, s.predict x = (∑ k, v.predict x k) - (∑ k, (∑ i, v.linearTerms k i * x i) ^ 2) / 4) ∧
      SymmetricMat h := by
  refine ⟨aggregatorInformation v, _, rfl, rfl, fun x => ?_, ?_⟩
  · rw [ScalarModel.predict_eq, ← gram_quad]
    simp only [VectorModel.predict_eq, hv, Option.map_none, polyVal, add_zero, aggregatorInformation,
      aggregateWith, Finset.sum_add_distrib]
    have h1 : ∑ i, (∑ k, v.linearTerms k i) * x i = ∑ k, ∑ i, v.linearTerms k i * x i := by
      rw [Finset.sum_comm]
      exact Finset.sum_congr rfl fun i _ => Finset.sum_mul _ _ _
    have h2 : ∑ i, ∑ j, -(∑ k, v.linearTerms k i * v.linearTerms k j) / 2 * x i * x j
        = -(∑ i, ∑ j, (∑ k, v.linearTerms k i * v.linearTerms k j) * x i * x j) / 2 := by
      rw [← Finset.sum_neg_distrib, Finset.sum_div]
      refine Finset.sum_congr rfl fun i _ => ?_
      rw [← Finset.sum_neg_distrib, Finset.sum_div]
      exact Finset.sum_congr rfl fun j _ => by ring
    rw [h1, h2]
    ring
  · intro i j
    simp only
    congr 2
    exact Finset.sum_congr rfl fun k _ => by ring

omit [LinearOrder K] [IsStrictOrderedRing K] in
/-- C37: unknown names are refused. -/
theorem C37_unknown_aggregator (v : VectorModel K n m) (name : String)
    (h : name ∉ ["identity", "sum", "information_equality_linear", "least_squares_linear"]) :
    aggregate name v = .error .valueError := by
  simp only [List.mem_cons, List.not_mem_nil, or_false, not_or] at h
  simp [aggregate, h]

/-- C37, example: residuals `1 + x` and `2 - x`; at `x = 3` the squares sum to `16 + 1`. -/
example :
    let v : VectorModel ℚ 1 2 := ⟨![1, 2], ![fun _ => 1, fun _ => -1], none, fun _ => 1, fun _ => 0⟩
    (aggregatorLeastSquares v).predict (fun _ => 3) = 17 := by
  decide +kernel

end Tranquilo
