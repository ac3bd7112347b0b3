import Verif.Spec.Models
import Mathlib.Algebra.BigOperators.Field
import Mathlib.Algebra.BigOperators.Ring.Finset
import Mathlib.Tactic.FieldSimp

/-!
# Lemmas about `Model/Models`
-/

namespace Tranquilo

variable {K : Type} [Field K] [LinearOrder K] [IsStrictOrderedRing K] {n m : Nat}

/-- Product of optional second order terms with a vector. -/
def sqMul (sq : Option (Mat K n n)) (d : Vec K n) : Vec K n := fun i =>
  match sq with
  | none => 0
  | some a => ∑ j, a i j * d j

omit [LinearOrder K] [IsStrictOrderedRing K] in
theorem halfQuad_eq (h : Mat K n n) (x : Vec K n) :
    halfQuad h x = (∑ i, ∑ j, h i j * x i * x j) / 2 := by
  unfold halfQuad
  congr 1
  rw [Finset.sum_comm]
  refine Finset.sum_congr rfl fun j _ => ?_
  rw [Finset.sum_mul]
  refine Finset.sum_congr rfl fun i _ => by ring

omit [LinearOrder K] [IsStrictOrderedRing K] in
theorem ScalarModel.predict_eq (s : ScalarModel K n) (x : Vec K n) :
    s.predict x = polyVal s.intercept s.linearTerms s.squareTerms x := by
  unfold ScalarModel.predict polyVal dot
  have : ∑ i, x i * s.linearTerms i = ∑ i, s.linearTerms i * x i :=
    Finset.sum_congr rfl fun i _ => mul_comm _ _
  rw [this]
  cases s.squareTerms with
  | none => simp [add_comm]
  | some h => simp only [halfQuad_eq]; ring

omit [LinearOrder K] [IsStrictOrderedRing K] in
theorem VectorModel.predict_eq (v : VectorModel K n m) (x : Vec K n) (k : Fin m) :
    v.predict x k = polyVal (v.intercepts k) (v.linearTerms k) (v.squareTerms.map fun h => h k) x := by
  unfold VectorModel.predict polyVal dot
  cases v.squareTerms with
  | none => simp [add_comm]
  | some h => simp only [halfQuad_eq, Option.map_some]; ring

omit [LinearOrder K] [IsStrictOrderedRing K] in
/-- Scaling the coefficients is scaling the argument. -/
theorem polyVal_scale (c : K) (g : Vec K n) (sq : Option (Mat K n n)) (f x : Vec K n)
    (h : sq = none ∨ Uniform f) :
    polyVal c (fun i => g i * f i) (sq.map fun h i j => h i j * f j ^ 2) x
      = polyVal c g sq fun i => x i * f i := by
  unfold polyVal
  have h1 : ∑ i, g i * f i * x i = ∑ i, g i * (x i * f i) :=
    Finset.sum_congr rfl fun i _ => by ring
  rw [h1]
  cases sq with
  | none => rfl
  | some a =>
    have hf : Uniform f := h.resolve_left (by simp)
    simp only [Option.map_some]
    congr 2
    refine Finset.sum_congr rfl fun i _ => Finset.sum_congr rfl fun j _ => ?_
    rw [hf i j]; ring

/-- Shifting the coefficients is shifting the argument. -/
theorem polyVal_shift (c : K) (g : Vec K n) (sq : Option (Mat K n n)) (d x : Vec K n)
    (h : ∀ a, sq = some a → SymmetricMat a) :
    polyVal (polyVal c g sq d)
        (fun i => g i + sqMul sq d i) sq x
      = polyVal c g sq fun i => x i + d i := by
  unfold polyVal
  cases sq with
  | none =>
    simp only [add_zero, sqMul]
    have : ∑ i, g i * (x i + d i) = ∑ i, g i * x i + ∑ i, g i * d i := by
      rw [← Finset.sum_add_distrib]; exact Finset.sum_congr rfl fun i _ => by ring
    rw [this]; ring
  | some a =>
    have ha : SymmetricMat a := h a rfl
    simp only [sqMul]
    have e1 : ∑ i, (g i + ∑ j, a i j * d j) * x i
        = ∑ i, g i * x i + ∑ i, ∑ j, a i j * x i * d j := by
      rw [← Finset.sum_add_distrib]
      refine Finset.sum_congr rfl fun i _ => ?_
      rw [add_mul, Finset.sum_mul]
      congr 1
      exact Finset.sum_congr rfl fun j _ => by ring
    have e2 : ∑ i, g i * (x i + d i) = ∑ i, g i * x i + ∑ i, g i * d i := by
      rw [← Finset.sum_add_distrib]; exact Finset.sum_congr rfl fun i _ => by ring
    have e3 : ∑ i, ∑ j, a i j * (x i + d i) * (x j + d j)
        = ∑ i, ∑ j, a i j * x i * x j + ∑ i, ∑ j, a i j * x i * d j
          + ∑ i, ∑ j, a i j * d i * x j + ∑ i, ∑ j, a i j * d i * d j := by
      simp only [← Finset.sum_add_distrib]
      exact Finset.sum_congr rfl fun i _ => Finset.sum_congr rfl fun j _ => by ring
    have e4 : ∑ i, ∑ j, a i j * d i * x j = ∑ i, ∑ j, a i j * x i * d j := by
      rw [Finset.sum_comm]
      refine Finset.sum_congr rfl fun i _ => Finset.sum_congr rfl fun j _ => ?_
      rw [ha j i]; ring
    rw [e1, e2, e3, e4]
    ring

/-- Unit coordinates in terms of effective center and radius. -/
theorem mapToUnit_eq (cr : K → K) (r : Region K n) (x : Vec K n)
    (h : ∀ i, r.effectiveRadius cr i ≠ 0) (i : Fin n) :
    r.mapToUnit cr x i = (x i - r.effectiveCenter cr i) / r.effectiveRadius cr i := by
  have hi := h i
  unfold Region.effectiveRadius at hi
  unfold Region.mapToUnit Region.effectiveCenter Region.effectiveRadius
  cases hs : r.shape with
  | sphere => rfl
  | cube =>
    simp only [hs] at hi ⊢
    have hw : r.cubeUpper cr i - r.cubeLower cr i ≠ 0 := by
      intro h0; rw [h0] at hi; simp at hi
    unfold Region.cubeCenter
    field_simp
    ring

omit [IsStrictOrderedRing K] in
theorem uniform_of_sphere (cr : K → K) (r : Region K n) (hs : r.shape = .sphere) :
    Uniform (r.effectiveRadius cr) := by
  intro i j; unfold Region.effectiveRadius; simp [hs]

end Tranquilo
