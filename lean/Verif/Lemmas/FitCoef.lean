import Verif.Lemmas.FitModels
import Mathlib.Algebra.Order.BigOperators.Ring.Finset

/-!
# Coefficients and polynomials
-/

namespace Tranquilo

variable {K : Type} [Field K] {n m N : Nat}

/-- Inner product of coefficients and features. -/
def coefDot (mt : ModelType) (c : Vec K (nCols n mt)) (u : Vec K n) : K :=
  ∑ k, c k * (featureRow mt u).getD k 0

theorem list_split (n : Nat) (l : List K) (h : n + 1 ≤ l.length) :
    l = l.getD 0 0 :: (List.ofFn (fun i : Fin n => l.getD (1 + i.val) 0) ++ l.drop (n + 1)) := by
  cases l with
  | nil => simp at h
  | cons a l =>
    have h' : n ≤ l.length := by simpa using h
    simp only [List.getD_cons_zero, List.drop_succ_cons]
    have : List.ofFn (fun i : Fin n => (a :: l).getD (1 + i.val) 0) = l.take n := by
      apply List.ext_getElem
      · simp [h']
      · intro i h1 h2
        simp only [List.length_ofFn] at h1
        rw [List.getElem_ofFn, List.getElem_take]
        have : 1 + i = i + 1 := by omega
        simp [this, List.getD_eq_getElem?_getD, List.getElem?_eq_getElem (show i < l.length by omega)]
    rw [this, List.take_append_drop]

theorem zipWith_sum_append (a a' b b' : List K) (h : a.length = b.length) :
    (List.zipWith (· * ·) (a ++ a') (b ++ b')).sum
      = (List.zipWith (· * ·) a b).sum + (List.zipWith (· * ·) a' b').sum := by
  rw [List.zipWith_append h, List.sum_append]

theorem zipWith_ofFn_sum (a b : Fin n → K) :
    (List.zipWith (· * ·) (List.ofFn a) (List.ofFn b)).sum = ∑ i, a i * b i := by
  rw [← sum_getD_mul _ _ (by simp) n (by simp)]
  refine Finset.sum_congr rfl fun i _ => ?_
  simp [List.getD_eq_getElem?_getD]

theorem zipWith_map_sum {ι : Type} (l : List ι) (c : List K) (f : ι → K) :
    (List.zipWith (· * ·) c (l.map f)).sum = ((l.zip c).map fun e => e.2 * f e.1).sum := by
  induction l generalizing c with
  | nil => simp
  | cons a l ih => cases c with
    | nil => simp
    | cons b c => simp [ih]

/-- Sum over all positions against the upper triangle. -/
theorem reshape_quad (c : List K) (hc : c.length = nSecondOrderTerms n) (u : Vec K n) [NeZero (2 : K)] :
    (∑ i, ∑ j, reshapeToHess n c i j * u i * u j) / 2
      = (List.zipWith (· * ·) c (quadraticTerms u)).sum := by
  rw [quadraticTerms_eq, zipWith_map_sum]
  set l := (triuIndices n).zip c with hl
  have hfst : l.map Prod.fst = triuIndices n := by
    rw [hl, List.map_fst_zip]; rw [length_triuIndices, hc]
  rw [← sum_lookup l (fun p => u p.1 * u p.2) (by rw [hfst]; exact nodup_triuIndices n)]
  have hzero : ∀ i j : Fin n, ¬ i ≤ j → l.lookup (i, j) = none := by
    intro i j hij
    rw [List.lookup_eq_none_iff]
    intro p hp
    have : p.1 ∈ triuIndices n := by rw [← hfst]; exact List.mem_map_of_mem hp
    rw [mem_triuIndices] at this
    simp only [bne_iff_ne, ne_eq]
    intro h
    rw [← h] at this
    exact hij this
  rw [Fintype.sum_prod_type]
  have h1 : ∀ i j : Fin n, reshapeToHess n c i j
      = (l.lookup (i, j)).getD 0 + (l.lookup (j, i)).getD 0 := by
    intro i j
    unfold reshapeToHess
    simp only [← hl]
    split
    · rfl
    · rename_i hji
      rw [hzero j i hji]; simp
  have h2 : ∑ i, ∑ j, reshapeToHess n c i j * u i * u j
      = ∑ i, ∑ j, (l.lookup (i, j)).getD 0 * (u i * u j)
        + ∑ i, ∑ j, (l.lookup (j, i)).getD 0 * (u i * u j) := by
    simp only [← Finset.sum_add_distrib]
    exact Finset.sum_congr rfl fun i _ => Finset.sum_congr rfl fun j _ => by rw [h1]; ring
  have h3 : ∑ i, ∑ j, (l.lookup (j, i)).getD 0 * (u i * u j)
      = ∑ i, ∑ j, (l.lookup (i, j)).getD 0 * (u i * u j) := by
    rw [Finset.sum_comm]
    exact Finset.sum_congr rfl fun i _ => Finset.sum_congr rfl fun j _ => by ring
  rw [h2, h3, ← mul_two, mul_div_assoc, div_self (NeZero.ne 2), mul_one]

theorem coefDot_eq_zip (mt : ModelType) (c : Vec K (nCols n mt)) (u : Vec K n) :
    coefDot mt c u = (List.zipWith (· * ·) (List.ofFn c) (featureRow mt u)).sum := by
  rw [← sum_getD_mul _ _ (by rw [length_featureRow]; simp) _ (length_featureRow mt u)]
  unfold coefDot
  refine Finset.sum_congr rfl fun k _ => ?_
  simp [List.getD_eq_getElem?_getD]

/-- The assembled model predicts the inner product of coefficients and features. -/
theorem modelOfCoef_predict [NeZero (2 : K)] (mt : ModelType) (coef : Fin m → Vec K (nCols n mt))
    (shift scale u : Vec K n) (k : Fin m) :
    (modelOfCoef mt coef shift scale).predict u k = coefDot mt (coef k) u := by
  rw [VectorModel.predict_eq, coefDot_eq_zip]
  have hlen : n + 1 ≤ (List.ofFn (coef k)).length := by
    rw [List.length_ofFn]; cases mt <;> simp [nCols]
  have hsplit := list_split n (List.ofFn (coef k)) hlen
  rw [hsplit]
  cases mt with
  | linear =>
    have hd : (List.ofFn (coef k)).drop (n + 1) = [] := by
      rw [List.drop_eq_nil_iff, List.length_ofFn]; simp [nCols]
    rw [hd, List.append_nil]
    simp only [featureRow, List.zipWith_cons_cons, List.sum_cons, mul_one]
    rw [zipWith_ofFn_sum]
    simp [polyVal, modelOfCoef]
  | quadratic =>
    simp only [featureRow, List.zipWith_cons_cons, List.sum_cons, mul_one]
    rw [zipWith_sum_append _ _ _ _ (by simp), zipWith_ofFn_sum]
    rw [← reshape_quad]
    · simp [polyVal, modelOfCoef, add_assoc]
    · rw [List.length_drop, List.length_ofFn]; simp [nCols]

/-- Coefficients of a polynomial. -/
def coefOf (mt : ModelType) (c : K) (g : Vec K n) (h : Mat K n n) : Vec K (nCols n mt) := fun k =>
  (c :: (List.ofFn g ++ (triuIndices n).map fun p =>
    if p.1 = p.2 then h p.1 p.1 / 2 else (h p.1 p.2 + h p.2 p.1) / 2)).getD k 0

theorem ofFn_getD (l : List K) (p : Nat) (h : l.length = p) :
    List.ofFn (fun k : Fin p => l.getD k 0) = l := by
  subst h
  apply List.ext_getElem
  · simp
  · intro i h1 h2
    simp

/-- Every polynomial of degree one is a combination of the linear features. -/
theorem coefOf_linear (c : K) (g : Vec K n) (h : Mat K n n) (u : Vec K n) :
    coefDot .linear (coefOf .linear c g h) u = polyVal c g none u := by
  rw [coefDot_eq_zip]
  have : List.ofFn (coefOf .linear c g h) = c :: List.ofFn g := by
    apply List.ext_getElem
    · rw [List.length_ofFn]; simp [nCols]
    · intro i h1 h2
      simp only [List.length_cons, List.length_ofFn] at h2
      simp only [List.getElem_ofFn, coefOf, List.getD_eq_getElem?_getD]
      rw [← List.cons_append, List.getElem?_append_left (by simpa using h2),
        List.getElem?_eq_getElem (by simpa using h2)]
      rfl
  rw [this]
  simp only [featureRow, List.zipWith_cons_cons, List.sum_cons, mul_one, zipWith_ofFn_sum]
  simp [polyVal]

/-- Every polynomial of degree two is a combination of the quadratic features. -/
theorem coefOf_quadratic [NeZero (2 : K)] (c : K) (g : Vec K n) (h : Mat K n n) (u : Vec K n) :
    coefDot .quadratic (coefOf .quadratic c g h) u = polyVal c g (some h) u := by
  rw [coefDot_eq_zip]
  have : List.ofFn (coefOf .quadratic c g h) = c :: (List.ofFn g ++ (triuIndices n).map fun p =>
      if p.1 = p.2 then h p.1 p.1 / 2 else (h p.1 p.2 + h p.2 p.1) / 2) := by
    unfold coefOf
    rw [ofFn_getD]
    simp [nCols, length_triuIndices]; omega
  rw [this]
  simp only [featureRow, List.zipWith_cons_cons, List.sum_cons, mul_one]
  rw [zipWith_sum_append _ _ _ _ (by simp), zipWith_ofFn_sum]
  rw [quadraticTerms_eq, List.zipWith_map, List.zipWith_self]
  rw [← List.sum_toFinset _ (nodup_triuIndices n)]
  have hset : (triuIndices n).toFinset
      = (Finset.univ : Finset (Fin n × Fin n)).filter fun p => p.1 ≤ p.2 := by
    ext p; simp [mem_triuIndices]
  rw [hset]
  unfold polyVal
  simp only
  rw [add_assoc]
  congr 2
  have h2 : (2 : K) ≠ 0 := NeZero.ne 2
  rw [eq_div_iff h2, Finset.sum_mul, ← Finset.univ_product_univ, ← Finset.sum_product']
  rw [← Finset.sum_filter_add_sum_filter_not (Finset.univ ×ˢ Finset.univ)
    (fun p : Fin n × Fin n => p.1 ≤ p.2)]
  have hsw : ∑ p ∈ (Finset.univ ×ˢ Finset.univ).filter (fun p : Fin n × Fin n => ¬ p.1 ≤ p.2),
      h p.1 p.2 * u p.1 * u p.2
      = ∑ p ∈ (Finset.univ ×ˢ Finset.univ).filter (fun p : Fin n × Fin n => p.1 ≤ p.2),
        if p.1 = p.2 then 0 else h p.2 p.1 * u p.1 * u p.2 := by
    rw [← Finset.sum_filter_add_sum_filter_not
      ((Finset.univ ×ˢ Finset.univ).filter (fun p : Fin n × Fin n => p.1 ≤ p.2)) (fun p => p.1 = p.2)]
    have hz : ∑ p ∈ ((Finset.univ ×ˢ Finset.univ).filter
        (fun p : Fin n × Fin n => p.1 ≤ p.2)).filter (fun p => p.1 = p.2),
        (if p.1 = p.2 then 0 else h p.2 p.1 * u p.1 * u p.2) = 0 := by
      refine Finset.sum_eq_zero fun p hp => ?_
      rw [Finset.mem_filter] at hp
      simp [hp.2]
    rw [hz, zero_add]
    refine Finset.sum_nbij' (fun p => (p.2, p.1)) (fun p => (p.2, p.1)) ?_ ?_ ?_ ?_ ?_
    · intro p hp
      simp only [Finset.mem_filter, Finset.mem_product, Finset.mem_univ, true_and, not_le] at hp ⊢
      exact ⟨hp.le, ne_of_lt hp⟩
    · intro p hp
      simp only [Finset.mem_filter, Finset.mem_product, Finset.mem_univ, true_and, not_le] at hp ⊢
      exact lt_of_le_of_ne hp.1 hp.2
    · intro p _; rfl
    · intro p _; rfl
    · intro p hp
      simp only [Finset.mem_filter, Finset.mem_product, Finset.mem_univ, true_and, not_le] at hp
      simp only [ne_of_lt hp, if_false]; ring
  rw [hsw, ← Finset.sum_add_distrib]
  refine Finset.sum_congr rfl fun p _ => ?_
  by_cases hp : p.1 = p.2
  · simp only [hp, if_true, add_zero]
    field_simp
  · simp only [hp, if_false]
    field_simp

end Tranquilo
