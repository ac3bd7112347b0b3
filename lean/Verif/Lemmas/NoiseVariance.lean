import Verif.Model.NoiseVariance
import Verif.Spec.NoiseVariance
import Verif.Lemmas.Log
import Mathlib.Algebra.BigOperators.Group.List.Lemmas
import Mathlib.Algebra.Order.BigOperators.Group.List
import Mathlib.Algebra.BigOperators.Field
import Mathlib.Algebra.Order.BigOperators.Ring.Finset
import Mathlib.Data.Nat.Cast.Order.Ring
import Mathlib.Tactic.FieldSimp

/-!
# Lemmas on the estimates of the noise
-/

namespace Tranquilo

variable {K : Type} [Field K] [LinearOrder K] {n m N : Nat}

theorem mem_varianceCandidates (nrm : Vec K n → K) (f : K) (region : Region K n) (h : Log K n)
    (hev : h.evals ≠ []) (i : Nat) :
    i ∈ varianceCandidates nrm f region h
      ↔ NearPoint nrm h region.center (region.radius * f) i := by
  unfold varianceCandidates Log.indicesInRegion NearPoint
  rw [if_neg hev, List.mem_filter, List.mem_range]
  constructor
  · rintro ⟨hi, h2⟩
    rw [List.getElem?_eq_getElem hi] at h2 ⊢
    exact ⟨_, rfl, by simpa using h2⟩
  · rintro ⟨x, hx, hn⟩
    have hi : i < h.xs.length := by
      by_contra hc
      rw [List.getElem?_eq_none (by omega)] at hx
      simp at hx
    refine ⟨hi, ?_⟩
    rw [hx]
    simpa using hn

theorem nodup_varianceCandidates (nrm : Vec K n → K) (f : K) (region : Region K n) (h : Log K n) :
    (varianceCandidates nrm f region h).Nodup := by
  unfold varianceCandidates Log.indicesInRegion
  split
  · simp
  · exact List.nodup_range.filter _

theorem foldlMaxNat_spec (l : List Nat) (c : Nat) :
    (∀ k ∈ c :: l, k ≤ l.foldl max c) ∧ l.foldl max c ∈ c :: l := by
  induction l generalizing c with
  | nil => simp
  | cons a l ih =>
    obtain ⟨h1, h2⟩ := ih (max c a)
    rw [List.foldl_cons]
    constructor
    · intro k hk
      rcases List.mem_cons.1 hk with rfl | hk
      · exact (le_max_left k a).trans (h1 _ (by simp))
      · rcases List.mem_cons.1 hk with rfl | hk
        · exact (le_max_right c k).trans (h1 _ (by simp))
        · exact h1 k (by simp [hk])
    · rcases List.mem_cons.1 h2 with h2 | h2
      · rcases max_choice c a with hm | hm
        · rw [h2, hm]; simp
        · rw [h2, hm]; simp
      · simp [h2]

/-- What the selection of points does. -/
theorem varianceSelection (nrm : Vec K n → K) (f : K) (minN : Int) (region : Region K n) (h : Log K n)
    (hev : h.evals ≠ []) (hne : ∃ i, NearPoint nrm h region.center (region.radius * f) i) :
    ∃ cutoff, varianceCutoff minN ((varianceCandidates nrm f region h).map (nEvalsAt h)) = .ok cutoff ∧
      (∀ i, i ∈ validIndices h cutoff (varianceCandidates nrm f region h)
        ↔ UsedPoint nrm h region.center (region.radius * f) minN i) ∧
      ∃ i, UsedPoint nrm h region.center (region.radius * f) minN i := by
  have hmem := mem_varianceCandidates nrm f region h hev
  obtain ⟨i0, hi0⟩ := hne
  rcases hl : (varianceCandidates nrm f region h).map (nEvalsAt h) with _ | ⟨c, cs⟩
  · rw [List.map_eq_nil_iff] at hl
    have := (hmem i0).2 hi0
    rw [hl] at this
    simp at this
  · obtain ⟨hmax, hat⟩ := foldlMaxNat_spec cs c
    set M := cs.foldl max c with hM
    rw [← hl] at hmax hat
    obtain ⟨i1, hi1, he1⟩ := List.mem_map.1 hat
    have hle : ∀ j, NearPoint nrm h region.center (region.radius * f) j → (h.fvals j).length ≤ M :=
      fun j hj => hmax _ (List.mem_map.2 ⟨j, (hmem j).2 hj, rfl⟩)
    have he1' : (h.fvals i1).length = M := he1
    refine ⟨min (M : Int) minN, rfl, ?_, i1, (hmem i1).1 hi1, Or.inr fun j hj => ?_⟩
    · intro i
      unfold validIndices UsedPoint
      rw [List.mem_filter, hmem i, decide_eq_true_eq]
      refine and_congr_right fun hnear => ?_
      have hnei : (nEvalsAt h i : Int) = ((h.fvals i).length : Int) := rfl
      rw [hnei, min_le_iff]
      constructor
      · rintro (h1 | h1)
        · exact Or.inr fun j hj => (hle j hj).trans (by exact_mod_cast h1)
        · exact Or.inl h1
      · rintro (h1 | h1)
        · exact Or.inr h1
        · left
          have := h1 i1 ((hmem i1).1 hi1)
          rw [he1'] at this
          exact_mod_cast this
    · rw [he1']
      exact hle j hj

theorem varianceCutoff_nil_of_far (nrm : Vec K n → K) (f : K) (minN : Int) (region : Region K n)
    (h : Log K n) (hfar : h.evals = [] ∨ ∀ i, ¬ NearPoint nrm h region.center (region.radius * f) i) :
    varianceCutoff minN ((varianceCandidates nrm f region h).map (nEvalsAt h))
      = .error .valueError := by
  have : varianceCandidates nrm f region h = [] := by
    by_cases hev : h.evals = []
    · simp [varianceCandidates, Log.indicesInRegion, hev]
    · rw [List.eq_nil_iff_forall_not_mem]
      intro i hi
      exact (hfar.resolve_left hev) i ((mem_varianceCandidates nrm f region h hev i).1 hi)
  rw [this]
  rfl

theorem weightedSum_foldl (l : List (K × K)) (a : K) :
    (l.map fun p => ((.fin p.1 : XVal K), (.fin p.2 : XVal K))).foldl
        (fun out p => out + p.1 * p.2) (.fin a)
      = .fin (a + (l.map fun p => p.1 * p.2).sum) := by
  induction l generalizing a with
  | nil => simp
  | cons p l ih =>
    rw [List.map_cons, List.foldl_cons]
    have : ((.fin a : XVal K) + .fin p.1 * .fin p.2) = .fin (a + p.1 * p.2) := by simp
    rw [this, ih]
    simp [add_assoc]

theorem weightedSum_fin [IsStrictOrderedRing K] (h : Log K n) (valid : List Nat) (hnd : valid.Nodup)
    (htot : 0 < (valid.map (nEvalsAt h)).sum) (g : Nat → K) :
    weightedSum (varianceWeights h valid) (valid.map fun i => (.fin (g i) : XVal K))
      = .fin (∑ i ∈ valid.toFinset,
          ((h.fvals i).length : K) / (∑ j ∈ valid.toFinset, ((h.fvals j).length : K)) * g i) := by
  have htot' : (((valid.map (nEvalsAt h)).sum : Nat) : K) ≠ 0 := by
    exact_mod_cast htot.ne'
  have hsum : (((valid.map (nEvalsAt h)).sum : Nat) : K)
      = ∑ j ∈ valid.toFinset, ((h.fvals j).length : K) := by
    rw [List.sum_toFinset _ hnd, Nat.cast_list_sum, List.map_map]
    rfl
  unfold weightedSum varianceWeights
  have hz : ((valid.map fun i => XVal.divFin (nEvalsAt h i : K)
        (((valid.map (nEvalsAt h)).sum : Nat) : K)).zip (valid.map fun i => (.fin (g i) : XVal K)))
      = ((valid.map fun i => ((nEvalsAt h i : K) / (((valid.map (nEvalsAt h)).sum : Nat) : K), g i)).map
          fun p => ((.fin p.1 : XVal K), (.fin p.2 : XVal K))) := by
    rw [List.zip_map', List.map_map]
    refine List.map_congr_left fun i _ => ?_
    simp only [XVal.divFin, if_neg htot', Function.comp]
  simp only
  rw [hz, weightedSum_foldl, zero_add, List.map_map, List.sum_toFinset _ hnd, hsum]
  rfl

theorem sum_map_fin (l : List K) : (l.map (XVal.fin (K := K))).sum = .fin l.sum := by
  induction l with
  | nil => rfl
  | cons a l ih => rw [List.map_cons, List.sum_cons, ih]; simp

theorem mean_map_fin [IsStrictOrderedRing K] (l : List K) (hl : l ≠ []) :
    XVal.mean (l.map XVal.fin) = .fin (average l) := by
  unfold XVal.mean average
  rw [if_neg (by simpa using hl), sum_map_fin, List.length_map]
  have : l.length ≠ 0 := by simpa using hl
  simp [FloatLike.divNat, this]

/-- Sample covariance of finite values. -/
theorem npCov_fin [IsStrictOrderedRing K] (l : List (K × K)) (hl : 2 ≤ l.length) :
    npCov (l.map fun p => (.fin p.1 : XVal K)) (l.map fun p => (.fin p.2 : XVal K))
      = .fin (sampleCovariance l) := by
  have hne : l ≠ [] := by rintro rfl; simp at hl
  have e1 : (l.map fun p => (.fin p.1 : XVal K)) = (l.map Prod.fst).map XVal.fin := by simp
  have e2 : (l.map fun p => (.fin p.2 : XVal K)) = (l.map Prod.snd).map XVal.fin := by simp
  unfold npCov sampleCovariance
  simp only
  rw [e1, e2, mean_map_fin _ (by simpa using hne), mean_map_fin _ (by simpa using hne), ← e1, ← e2]
  have hz : List.zipWith (fun x y => (x - (.fin (average (l.map Prod.fst)) : XVal K))
        * (y - .fin (average (l.map Prod.snd)))) (l.map fun p => (.fin p.1 : XVal K))
        (l.map fun p => (.fin p.2 : XVal K))
      = (l.map fun p => (p.1 - average (l.map Prod.fst)) * (p.2 - average (l.map Prod.snd))).map
          XVal.fin := by
    rw [List.zipWith_map, List.zipWith_self, List.map_map]
    exact List.map_congr_left fun p _ => by simp
  rw [hz, sum_map_fin, List.length_map]
  have h0 : l.length - 1 ≠ 0 := by omega
  have hc : ((l.length - 1 : Nat) : K) = (l.length : K) - 1 := by
    rw [Nat.cast_sub (by omega)]; simp
  simp only [FloatLike.divNat, if_neg h0, hc]

theorem sampleVariance_eq (l : List K) :
    sampleVariance l = sampleCovariance (l.map fun x => (x, x)) := by
  unfold sampleVariance sampleCovariance
  simp only [List.map_map, List.length_map]
  have : (Prod.fst ∘ fun x : K => (x, x)) = id ∧ (Prod.snd ∘ fun x : K => (x, x)) = id :=
    ⟨rfl, rfl⟩
  rw [this.1, this.2, List.map_id]
  congr 2
  exact List.map_congr_left fun x _ => by simp [sq]

theorem npVar_fin [IsStrictOrderedRing K] (l : List K) (hl : 2 ≤ l.length) :
    npCov (l.map XVal.fin) (l.map XVal.fin) = .fin (sampleVariance l) := by
  have := npCov_fin (l.map fun x => (x, x)) (by simpa using hl)
  rw [List.map_map, List.map_map] at this
  rw [sampleVariance_eq]
  exact this

theorem sampleVariance_nonneg [IsStrictOrderedRing K] (l : List K) (hl : 2 ≤ l.length) :
    0 ≤ sampleVariance l := by
  unfold sampleVariance
  have h1 : (1 : K) ≤ l.length := by exact_mod_cast (by omega : 1 ≤ l.length)
  refine div_nonneg (List.sum_nonneg fun a ha => ?_) (by linarith)
  obtain ⟨x, _, rfl⟩ := List.mem_map.1 ha
  exact sq_nonneg _

/-- There is no variance iff all values are equal. -/
theorem sampleVariance_eq_zero [IsStrictOrderedRing K] (l : List K) (hl : 2 ≤ l.length) :
    sampleVariance l = 0 ↔ ∀ a ∈ l, ∀ b ∈ l, a = b := by
  have h1 : (2 : K) ≤ l.length := by exact_mod_cast hl
  have hpos : (l.length : K) - 1 ≠ 0 := by intro h; linarith
  unfold sampleVariance
  rw [div_eq_zero_iff, or_iff_left hpos]
  constructor
  · intro hs a ha b hb
    have hall : ∀ x ∈ l, (x - average l) ^ 2 = 0 := by
      have hnn : ∀ y ∈ l.map fun x => (x - average l) ^ 2, 0 ≤ y := by
        intro y hy
        obtain ⟨x, _, rfl⟩ := List.mem_map.1 hy
        exact sq_nonneg _
      intro x hx
      refine le_antisymm ?_ (sq_nonneg _)
      rw [← hs]
      exact List.single_le_sum hnn _ (List.mem_map.2 ⟨x, hx, rfl⟩)
    have e : ∀ x ∈ l, x = average l := fun x hx => by
      have := pow_eq_zero_iff (two_ne_zero) |>.1 (hall x hx)
      linarith
    rw [e a ha, e b hb]
  · intro hall
    obtain ⟨a, l', rfl⟩ : ∃ a l', l = a :: l' := by
      cases l with
      | nil => simp at hl
      | cons a l' => exact ⟨a, l', rfl⟩
    have hrep : a :: l' = List.replicate (l'.length + 1) a :=
      List.eq_replicate_iff.2 ⟨by simp, fun b hb => hall b hb a (by simp)⟩
    have hav : average (a :: l') = a := by
      rw [hrep]
      unfold average
      rw [List.sum_replicate, List.length_replicate, nsmul_eq_mul]
      have : ((l'.length + 1 : Nat) : K) ≠ 0 := Nat.cast_ne_zero.2 (Nat.succ_ne_zero _)
      field_simp
    rw [hav]
    refine List.sum_eq_zero fun y hy => ?_
    obtain ⟨x, hx, rfl⟩ := List.mem_map.1 hy
    rw [hall x hx a (by simp)]
    simp

end Tranquilo
