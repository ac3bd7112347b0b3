import Verif.Props.Poisedness
import Verif.Props.Fit

/-!
# The features of `poisedness.py` span the polynomials of degree two
-/

namespace Tranquilo

variable {K : Type} [Field K] [LinearOrder K] [IsStrictOrderedRing K] {n m p : Nat}

/-- Weighted sums of polynomials. -/
theorem isPoly_sum (mt : ModelType) {ι : Type} (s : Finset ι) (a : ι → K) (f : ι → Vec K n → K)
    (hf : ∀ i, IsPoly mt (f i)) : IsPoly mt fun u => ∑ i ∈ s, a i * f i u := by
  have hf' := fun i => (isPoly_iff mt (f i)).1 (hf i)
  choose c hc using hf'
  rw [isPoly_iff]
  refine ⟨fun t => ∑ i ∈ s, a i * c i t, fun u => ?_⟩
  simp only [hc, coefDot, Finset.sum_mul, Finset.mul_sum]
  rw [Finset.sum_comm]
  exact Finset.sum_congr rfl fun _ _ => Finset.sum_congr rfl fun _ _ => by ring

omit [LinearOrder K] [IsStrictOrderedRing K] in
theorem isPoly_const (mt : ModelType) (a : K) : IsPoly (n := n) mt fun _ => a :=
  ⟨a, fun _ => 0, none, fun _ => rfl, fun u => by simp [polyVal]⟩

omit [LinearOrder K] [IsStrictOrderedRing K] in
theorem isPoly_coordinate (mt : ModelType) (i : Fin n) : IsPoly (K := K) mt fun u => u i :=
  ⟨0, fun j => if j = i then 1 else 0, none, fun _ => rfl, fun u => by simp [polyVal]⟩

theorem isPoly_pairFeature (q : Fin n × Fin n) : IsPoly (K := K) .quadratic fun u => pairFeature u q := by
  refine ⟨0, fun _ => 0, some fun i j => if i = q.1 ∧ j = q.2 then (if q.1 = q.2 then 1 else 2) else 0,
    (fun h => by cases h), fun u => ?_⟩
  have e : ∑ i, ∑ j, (if i = q.1 ∧ j = q.2 then (if q.1 = q.2 then (1 : K) else 2) else 0) * u i * u j
      = (if q.1 = q.2 then 1 else 2) * u q.1 * u q.2 := by
    rw [Finset.sum_eq_single q.1 (fun i _ hi => Finset.sum_eq_zero fun j _ => by simp [hi]) (by simp),
      Finset.sum_eq_single q.2 (fun j _ hj => by simp [hj]) (by simp)]
    simp
  simp only [polyVal, e, zero_mul, Finset.sum_const_zero, zero_add, pairFeature]
  by_cases h : q.1 = q.2
  · rw [if_pos h, if_pos h, ← h]; ring
  · rw [if_neg h, if_neg h]; field_simp

/-- Polynomials with coefficients of these features have degree two. -/
theorem polynomialAt_isPoly (poly : Fin (nFeatures n) → K) : IsPoly .quadratic (polynomialAt poly) := by
  refine isPoly_sum .quadratic Finset.univ poly (fun (t : Fin (nFeatures n)) u => (lagrangeRow u).getD t 0) fun t => ?_
  obtain ⟨t, ht⟩ := t
  rcases t with - | t
  · exact isPoly_const _ 1
  · simp only [lagrangeRow, List.getD_cons_succ]
    by_cases h : t < n
    · have : (fun u : Vec K n => (List.ofFn u ++ (featurePairs n).map (pairFeature u)).getD t 0)
          = fun u => u ⟨t, h⟩ := by
        funext u
        rw [List.getD_eq_getElem?_getD, List.getElem?_append_left (by simpa using h)]
        simp [h]
      rw [this]
      exact isPoly_coordinate _ _
    · have hl : t - n < (featurePairs n).length := by unfold nFeatures at ht; omega
      have : (fun u : Vec K n => (List.ofFn u ++ (featurePairs n).map (pairFeature u)).getD t 0)
          = fun u => pairFeature u ((featurePairs n)[t - n]) := by
        funext u
        rw [List.getD_eq_getElem?_getD, List.getElem?_append_right (by simpa using h)]
        simp [hl]
      rw [this]
      exact isPoly_pairFeature _

omit [LinearOrder K] [IsStrictOrderedRing K] in
theorem featurePairs_sum (f : Fin n × Fin n → K) :
    ((featurePairs n).map f).sum = ∑ i, (f (i, i) + ∑ j, if i < j then f (i, j) else 0) := by
  unfold featurePairs
  rw [List.map_flatMap, List.flatMap, List.sum_flatten, List.map_map, ← List.ofFn_eq_map, List.sum_ofFn]
  refine Finset.sum_congr rfl fun i _ => ?_
  simp only [Function.comp_apply, List.map_cons, List.sum_cons, List.map_map]
  congr 1
  rw [← Finset.sum_filter, ← List.sum_toFinset]
  · refine Finset.sum_congr ?_ fun _ _ => rfl
    ext j
    simp
  · exact (List.nodup_finRange n).filter _

omit [LinearOrder K] [IsStrictOrderedRing K] in
/-- All positions of a matrix against the upper triangle. -/
theorem sum_triangle (d : Fin n → Fin n → K) :
    ∑ i, ∑ j, d i j = ∑ i, (d i i + ∑ j, if i < j then d i j + d j i else 0) := by
  have h1 : ∀ i, ∑ j, d i j = d i i + ∑ j, ((if i < j then d i j else 0) + if j < i then d i j else 0) := by
    intro i
    rw [← Finset.add_sum_erase _ _ (Finset.mem_univ i)]
    congr 1
    rw [← Finset.add_sum_erase (a := i) Finset.univ (fun j => (if i < j then d i j else 0) + if j < i then d i j else 0)
      (Finset.mem_univ i)]
    simp only [lt_irrefl, if_false, add_zero, zero_add]
    refine Finset.sum_congr rfl fun j hj => ?_
    have hne : j ≠ i := Finset.ne_of_mem_erase hj
    rcases lt_or_gt_of_ne hne with h | h
    · rw [if_neg (not_lt.2 h.le), if_pos h, zero_add]
    · rw [if_pos h, if_neg (not_lt.2 h.le), add_zero]
  simp only [h1, Finset.sum_add_distrib]
  congr 1
  have h2 : ∑ i, ∑ j, (if j < i then d i j else 0) = ∑ i, ∑ j, if i < j then d j i else 0 := Finset.sum_comm
  rw [h2, ← Finset.sum_add_distrib]
  refine Finset.sum_congr rfl fun i _ => ?_
  rw [← Finset.sum_add_distrib]
  refine Finset.sum_congr rfl fun j _ => ?_
  by_cases h : i < j <;> simp [h]

/-- Every polynomial of degree two has coefficients of these features. -/
theorem isPoly_polynomialAt {f : Vec K n → K} (hf : IsPoly .quadratic f) :
    ∃ poly : Fin (nFeatures n) → K, ∀ x, f x = polynomialAt poly x := by
  obtain ⟨c, g, sq, -, hf⟩ := hf
  obtain ⟨h, hh⟩ : ∃ h : Mat K n n, ∀ x, f x = polyVal c g (some h) x := by
    cases sq with
    | some h => exact ⟨h, hf⟩
    | none => exact ⟨fun _ _ => 0, fun x => by rw [hf]; simp [polyVal]⟩
  set w : Fin n × Fin n → K := fun q => if q.1 = q.2 then h q.1 q.1 else (h q.1 q.2 + h q.2 q.1) / 2 with hw
  set l : List K := c :: (List.ofFn g ++ (featurePairs n).map w) with hl
  refine ⟨fun t => l.getD t 0, fun x => ?_⟩
  have hlen : l.length = nFeatures n := by simp [hl, nFeatures]; omega
  have e : polynomialAt (fun t : Fin (nFeatures n) => l.getD t 0) x
      = (List.zipWith (· * ·) l (lagrangeRow x)).sum := by
    unfold polynomialAt
    rw [← sum_getD_mul l (lagrangeRow x) (by simp [hl, lagrangeRow]) (nFeatures n)
      (by simp [lagrangeRow, nFeatures]; omega)]
  rw [e, hl, lagrangeRow, List.zipWith_cons_cons, List.sum_cons, zipWith_sum_append _ _ _ _ (by simp),
    zipWith_ofFn_sum, List.zipWith_map, List.zipWith_self, featurePairs_sum, hh]
  simp only [polyVal, mul_one, add_assoc]
  congr 2
  rw [sum_triangle, Finset.sum_div]
  refine Finset.sum_congr rfl fun i _ => ?_
  rw [add_div, Finset.sum_div]
  congr 1
  · simp only [hw, pairFeature, if_true]; ring
  · refine Finset.sum_congr rfl fun j _ => ?_
    by_cases hij : i < j
    · simp only [hw, pairFeature, if_neg hij.ne, if_pos hij]; ring
    · simp [hij]

/-- A sample with as many points as features, and independent interpolation conditions, determines the polynomials. -/
theorem sample_determines (sample : Fin p → Vec K n) (hp : p = nFeatures n) (hs : FullRowRank sample)
    (f : Vec K n → K) (hf : IsPoly .quadratic f) (h0 : ∀ j, f (sample j) = 0) (y : Vec K n) : f y = 0 := by
  subst hp
  obtain ⟨poly, hpoly⟩ := isPoly_polynomialAt hf
  obtain ⟨M, hM⟩ := hs
  have hM' : M * basisMat sample = 1 := mul_eq_one_comm.1 hM
  have hv : (basisMat sample).mulVec poly = 0 := by
    funext j
    have := h0 j
    rw [hpoly] at this
    rw [Pi.zero_apply, ← this]
    unfold polynomialAt Matrix.mulVec dotProduct
    exact Finset.sum_congr rfl fun t _ => mul_comm _ _
  have : poly = 0 := by
    calc poly = (M * basisMat sample).mulVec poly := by rw [hM', Matrix.one_mulVec]
      _ = M.mulVec ((basisMat sample).mulVec poly) := by rw [Matrix.mulVec_mulVec]
      _ = 0 := by rw [hv, Matrix.mulVec_zero]
  rw [hpoly, this]
  simp [polynomialAt]

end Tranquilo
