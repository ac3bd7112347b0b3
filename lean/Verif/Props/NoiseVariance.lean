import Verif.Lemmas.NoiseVariance
import Verif.Spec.Subsolver
import Verif.Lemmas.MainLoop
import Verif.Props.Limits

/-!
# C71: the estimate of the noise variance
-/

namespace Tranquilo

variable {K : Type} [Field K] [LinearOrder K] [IsStrictOrderedRing K] {n m N : Nat}

omit [IsStrictOrderedRing K] in
/-- If points need two evaluations and a nearby one has two, then all used points have two. -/
theorem usedPoint_two {nrm : Vec K n → K} {h : Log K n} {center : Vec K n} {d : K} {minN : Int}
    (hmin : 2 ≤ minN) (hex : ∃ i, NearPoint nrm h center d i ∧ 2 ≤ (h.fvals i).length) {i : Nat}
    (hi : UsedPoint nrm h center d minN i) : 2 ≤ (h.fvals i).length := by
  obtain ⟨j, hj, hj2⟩ := hex
  rcases hi.2 with h1 | h1
  · have := hmin.trans h1
    exact_mod_cast this
  · exact hj2.trans (h1 j hj)

omit [IsStrictOrderedRing K] in
theorem evals_ne_nil_of_fvals {h : Log K n} {i : Nat} (hi : 2 ≤ (h.fvals i).length) : h.evals ≠ [] := by
  intro he
  simp [Log.fvals, he] at hi

/-- The shared part of the scalar and the vector estimate. -/
theorem weightedSum_selection (nrm : Vec K n → K) (f : K) (minN : Int) (region : Region K n)
    (h : Log K n) (hmin : 2 ≤ minN)
    (hex : ∃ i, NearPoint nrm h region.center (region.radius * f) i ∧ 2 ≤ (h.fvals i).length) :
    ∃ (cutoff : Int) (used : Finset Nat), 
      varianceCutoff minN ((varianceCandidates nrm f region h).map (nEvalsAt h)) = .ok cutoff ∧
      (∀ i, i ∈ used ↔ UsedPoint nrm h region.center (region.radius * f) minN i) ∧
      used = (validIndices h cutoff (varianceCandidates nrm f region h)).toFinset ∧
      used.Nonempty ∧
      ∀ g : Nat → K,
        weightedSum (varianceWeights h (validIndices h cutoff (varianceCandidates nrm f region h)))
          ((validIndices h cutoff (varianceCandidates nrm f region h)).map
            fun i => (.fin (g i) : XVal K))
          = .fin (∑ i ∈ used,
              ((h.fvals i).length : K) / (∑ j ∈ used, ((h.fvals j).length : K)) * g i) := by
  obtain ⟨i0, hi0, hi2⟩ := hex
  obtain ⟨cutoff, hc, hiff, i1, hi1⟩ :=
    varianceSelection nrm f minN region h (evals_ne_nil_of_fvals hi2) ⟨i0, hi0⟩
  have hnd : (validIndices h cutoff (varianceCandidates nrm f region h)).Nodup :=
    (nodup_varianceCandidates nrm f region h).filter _
  refine ⟨cutoff, _, hc, fun i => by rw [List.mem_toFinset]; exact hiff i, rfl,
    ⟨i1, List.mem_toFinset.2 ((hiff i1).2 hi1)⟩, fun g => ?_⟩
  refine weightedSum_fin h _ hnd ?_ g
  have h2 := usedPoint_two hmin ⟨i0, hi0, hi2⟩ hi1
  have : nEvalsAt h i1 ≤ ((validIndices h cutoff (varianceCandidates nrm f region h)).map
      (nEvalsAt h)).sum :=
    List.single_le_sum (fun _ _ => Nat.zero_le _) _ (List.mem_map.2 ⟨i1, (hiff i1).2 hi1, rfl⟩)
  have e : nEvalsAt h i1 = (h.fvals i1).length := rfl
  omega

/-- C71, the scalar estimate. If a point near the region has been evaluated twice, at least two
evaluations are demanded, and the values at the used points are finite, then the estimate is the
average of the sample variances of exactly the used points, with weights proportional to the number of
evaluations. It is nonnegative, and zero only if there is no variation at any used point.

Missing: smaller values of `min_n_evals` (see `C71_violated_single_evaluation`) and infinite values
(see `C71_undefined`). -/
theorem C71_weighted_average_partial (nrm : Vec K n → K) (f : K) (minN : Int) (region : Region K n)
    (h : Log K n) (hmin : 2 ≤ minN)
    (hex : ∃ i, NearPoint nrm h region.center (region.radius * f) i ∧ 2 ≤ (h.fvals i).length)
    (vals : Nat → List K)
    (hfin : ∀ i, UsedPoint nrm h region.center (region.radius * f) minN i →
      h.fvals i = (vals i).map .fin) :
    ∃ (used : Finset Nat) (w : Nat → K) (v : K),
      (∀ i, i ∈ used ↔ UsedPoint nrm h region.center (region.radius * f) minN i) ∧
      (∀ i ∈ used, 0 < w i) ∧ ∑ i ∈ used, w i = 1 ∧
      (∀ i ∈ used, ∀ j ∈ used, w i * (vals j).length = w j * (vals i).length) ∧
      v = ∑ i ∈ used, w i * sampleVariance (vals i) ∧
      estimateVariance nrm f minN region h = .ok (.fin v) ∧
      0 ≤ v ∧
      (v = 0 ↔ ∀ i ∈ used, ∀ a ∈ vals i, ∀ b ∈ vals i, a = b) := by
  obtain ⟨cutoff, used, hc, hiff, hused, hne, hsum⟩ :=
    weightedSum_selection nrm f minN region h hmin hex
  have hlen : ∀ i ∈ used, (h.fvals i).length = (vals i).length := fun i hi => by
    rw [hfin i ((hiff i).1 hi), List.length_map]
  have h2 : ∀ i ∈ used, 2 ≤ (vals i).length := fun i hi =>
    (hlen i hi) ▸ usedPoint_two hmin hex ((hiff i).1 hi)
  have hposi : ∀ i ∈ used, (0 : K) < ((h.fvals i).length : K) := fun i hi => by
    have := h2 i hi
    rw [hlen i hi]
    exact_mod_cast (by omega : 0 < (vals i).length)
  have hT : 0 < ∑ j ∈ used, ((h.fvals j).length : K) := Finset.sum_pos hposi hne
  set T := ∑ j ∈ used, ((h.fvals j).length : K) with hTdef
  have hw : ∀ i ∈ used, (0 : K) < ((h.fvals i).length : K) / T := fun i hi => div_pos (hposi i hi) hT
  refine ⟨used, fun i => ((h.fvals i).length : K) / T, _, hiff, hw, ?_, ?_, rfl, ?_, ?_, ?_⟩
  · rw [← Finset.sum_div, div_self hT.ne']
  · intro i hi j hj
    simp only
    rw [hlen i hi, hlen j hj]
    ring
  · unfold estimateVariance
    simp only [hc]
    rw [← hsum]
    congr 2
    refine List.map_congr_left fun i hi => ?_
    have hi' : i ∈ used := by rw [hused]; exact List.mem_toFinset.2 hi
    rw [hfin i ((hiff i).1 hi')]
    exact npVar_fin _ (h2 i hi')
  · exact Finset.sum_nonneg fun i hi => mul_nonneg (hw i hi).le (sampleVariance_nonneg _ (h2 i hi))
  · rw [Finset.sum_eq_zero_iff_of_nonneg fun i hi =>
      mul_nonneg (hw i hi).le (sampleVariance_nonneg _ (h2 i hi))]
    refine forall₂_congr fun i hi => ?_
    rw [mul_eq_zero, or_iff_right (hw i hi).ne']
    exact sampleVariance_eq_zero _ (h2 i hi)

omit [IsStrictOrderedRing K] in
theorem sampleCov_of_two (covOfOne : (Fin m → XVal K) → Fin m → Fin m → XVal K)
    (sample : List (Fin m → XVal K)) (h : 2 ≤ sample.length) :
    sampleCov covOfOne sample
      = fun a b => npCov (sample.map fun r => r a) (sample.map fun r => r b) := by
  unfold sampleCov
  split
  · simp at h
  · rfl

omit [LinearOrder K] [IsStrictOrderedRing K] in
theorem sampleCovMatrix_symm (rows : List (Vec K m)) : SymmetricMat (sampleCovMatrix rows) := by
  intro a b
  unfold sampleCovMatrix sampleCovariance
  simp only [List.map_map, List.length_map, Function.comp_def]
  congr 2
  exact List.map_congr_left fun r _ => mul_comm _ _

omit [LinearOrder K] [IsStrictOrderedRing K] in
theorem sum_list_comm {α : Type} (l : List α) (g : Fin m → α → K) :
    ∑ a, (l.map (g a)).sum = (l.map fun r => ∑ a, g a r).sum := by
  induction l with
  | nil => simp
  | cons r l ih => simp [Finset.sum_add_distrib, ih]

theorem sampleCovMatrix_psd (rows : List (Vec K m)) (hl : 2 ≤ rows.length) :
    PosSemidef (sampleCovMatrix rows) := by
  intro x
  have h1 : (1 : K) ≤ rows.length := by exact_mod_cast (by omega : 1 ≤ rows.length)
  let mu : Fin m → K := fun a => average (rows.map fun r => r a)
  have he : ∑ i, ∑ j, sampleCovMatrix rows i j * x i * x j
      = (rows.map fun r => (∑ a, x a * (r a - mu a)) ^ 2).sum / ((rows.length : K) - 1) := by
    have hij : ∀ i j, sampleCovMatrix rows i j * x i * x j
        = (rows.map fun r => (x i * (r i - mu i)) * (x j * (r j - mu j))).sum
          / ((rows.length : K) - 1) := by
      intro i j
      unfold sampleCovMatrix sampleCovariance
      simp only [List.map_map, List.length_map, Function.comp_def]
      have : (rows.map fun r => (x i * (r i - mu i)) * (x j * (r j - mu j)))
          = rows.map fun r => (x i * x j) * ((r i - mu i) * (r j - mu j)) :=
        List.map_congr_left fun r _ => by ring
      rw [this, List.sum_map_mul_left]
      ring
    simp_rw [hij, ← Finset.sum_div]
    congr 1
    simp_rw [sum_list_comm]
    congr 1
    refine List.map_congr_left fun r _ => ?_
    rw [sq, Finset.sum_mul_sum]
  rw [he]
  refine div_nonneg (List.sum_nonneg fun a ha => ?_) (by linarith)
  obtain ⟨r, _, rfl⟩ := List.mem_map.1 ha
  exact sq_nonneg _

/-- C71, the estimate for vector valued criteria: under the same conditions it is the average, with the
same weights, of the sample covariance matrices of the used points. It is symmetric and positive
semidefinite. Missing: as for the scalar estimate. -/
theorem C71_covariance_partial (nrm : Vec K n → K) (f : K) (minN : Int)
    (covOfOne : (Fin m → XVal K) → Fin m → Fin m → XVal K) (region : Region K n)
    (h : Log K n) (fvecs : Nat → List (Fin m → XVal K))
    (hrows : ∀ i, (fvecs i).length = (h.fvals i).length) (hmin : 2 ≤ minN)
    (hex : ∃ i, NearPoint nrm h region.center (region.radius * f) i ∧ 2 ≤ (h.fvals i).length)
    (vals : Nat → List (Vec K m))
    (hfin : ∀ i, UsedPoint nrm h region.center (region.radius * f) minN i →
      fvecs i = (vals i).map fun r a => .fin (r a)) :
    ∃ (used : Finset Nat) (w : Nat → K) (c : Mat K m m),
      (∀ i, i ∈ used ↔ UsedPoint nrm h region.center (region.radius * f) minN i) ∧
      (∀ i ∈ used, 0 < w i) ∧ ∑ i ∈ used, w i = 1 ∧
      (∀ i ∈ used, ∀ j ∈ used, w i * (vals j).length = w j * (vals i).length) ∧
      (∀ a b, c a b = ∑ i ∈ used, w i * sampleCovMatrix (vals i) a b) ∧
      estimateCovariance nrm f minN covOfOne region h fvecs = .ok (fun a b => .fin (c a b)) ∧
      SymmetricMat c ∧ PosSemidef c := by
  obtain ⟨cutoff, used, hc, hiff, hused, hne, hsum⟩ :=
    weightedSum_selection nrm f minN region h hmin hex
  have hlen : ∀ i ∈ used, (h.fvals i).length = (vals i).length := fun i hi => by
    rw [← hrows i, hfin i ((hiff i).1 hi), List.length_map]
  have h2 : ∀ i ∈ used, 2 ≤ (vals i).length := fun i hi =>
    (hlen i hi) ▸ usedPoint_two hmin hex ((hiff i).1 hi)
  have hposi : ∀ i ∈ used, (0 : K) < ((h.fvals i).length : K) := fun i hi => by
    have := h2 i hi
    rw [hlen i hi]
    exact_mod_cast (by omega : 0 < (vals i).length)
  have hT : 0 < ∑ j ∈ used, ((h.fvals j).length : K) := Finset.sum_pos hposi hne
  set T := ∑ j ∈ used, ((h.fvals j).length : K) with hTdef
  have hw : ∀ i ∈ used, (0 : K) < ((h.fvals i).length : K) / T := fun i hi => div_pos (hposi i hi) hT
  refine ⟨used, fun i => ((h.fvals i).length : K) / T,
    fun a b => ∑ i ∈ used, ((h.fvals i).length : K) / T * sampleCovMatrix (vals i) a b,
    hiff, hw, ?_, ?_, fun _ _ => rfl, ?_, ?_, ?_⟩
  · rw [← Finset.sum_div, div_self hT.ne']
  · intro i hi j hj
    simp only
    rw [hlen i hi, hlen j hj]
    ring
  · unfold estimateCovariance
    simp only [hc]
    congr 1
    funext a b
    rw [← hsum]
    congr 1
    refine List.map_congr_left fun i hi => ?_
    have hi' : i ∈ used := by rw [hused]; exact List.mem_toFinset.2 hi
    have hv := hfin i ((hiff i).1 hi')
    rw [sampleCov_of_two _ _ (by rw [hrows, hlen i hi']; exact h2 i hi'), hv]
    have := npCov_fin ((vals i).map fun r => (r a, r b)) (by simpa using h2 i hi')
    simp only [List.map_map] at this ⊢
    exact this
  · intro a b
    exact Finset.sum_congr rfl fun i _ => by rw [sampleCovMatrix_symm (vals i) a b]
  · intro x
    have : ∑ a, ∑ b, (∑ i ∈ used, ((h.fvals i).length : K) / T * sampleCovMatrix (vals i) a b)
        * x a * x b
        = ∑ i ∈ used, ((h.fvals i).length : K) / T
          * ∑ a, ∑ b, sampleCovMatrix (vals i) a b * x a * x b := by
      simp_rw [Finset.sum_mul, Finset.mul_sum]
      rw [Finset.sum_comm]
      refine (Finset.sum_congr rfl fun b _ => Finset.sum_comm).trans ?_
      rw [Finset.sum_comm]
      refine Finset.sum_congr rfl fun i _ => ?_
      rw [Finset.sum_comm]
      exact Finset.sum_congr rfl fun a _ => Finset.sum_congr rfl fun b _ => by ring
    rw [this]
    exact Finset.sum_nonneg fun i hi =>
      mul_nonneg (hw i hi).le (sampleCovMatrix_psd _ (h2 i hi) x)

omit [IsStrictOrderedRing K] in
theorem XVal.sum_eq_nan {l : List (XVal K)} (h : XVal.nan ∈ l) : l.sum = .nan := by
  induction l with
  | nil => simp at h
  | cons a l ih =>
    rw [List.sum_cons]
    rcases List.mem_cons.1 h with rfl | h
    · exact XVal.nan_add _
    · rw [ih h]; exact XVal.add_nan _

omit [IsStrictOrderedRing K] in
/-- A sum with an infinite or undefined summand is this infinity or undefined. -/
theorem XVal.sum_of_mem {l : List (XVal K)} {v : XVal K} (hv : v.isFinite = false) (h : v ∈ l) :
    l.sum = v ∨ l.sum = .nan := by
  induction l with
  | nil => simp at h
  | cons a l ih =>
    rw [List.sum_cons]
    rcases List.mem_cons.1 h with rfl | h
    · cases v <;> cases l.sum <;> simp_all [XVal.isFinite]
    · rcases ih h with e | e <;> rw [e]
      · cases v <;> cases a <;> simp_all [XVal.isFinite]
      · right; exact XVal.add_nan _

omit [IsStrictOrderedRing K] in
theorem npVar_of_infinite {l : List (XVal K)} {v : XVal K} (hv : v.isFinite = false) (h : v ∈ l) :
    npCov l l = .nan := by
  have hne : l ≠ [] := by rintro rfl; simp at h
  have hdiff : v - XVal.mean l = .nan := by
    have hmean : XVal.mean l = v ∨ XVal.mean l = .nan := by
      unfold XVal.mean
      rw [if_neg hne]
      rcases XVal.sum_of_mem hv h with e | e <;> rw [e]
      · left
        cases v <;> first | rfl | simp [XVal.isFinite] at hv
      · right; rfl
    rcases hmean with e | e <;> rw [e]
    · cases v <;> first | rfl | simp [XVal.isFinite] at hv
    · cases v <;> rfl
  unfold npCov
  simp only
  rw [XVal.sum_eq_nan]
  · rfl
  · rw [List.zipWith_self]
    exact List.mem_map.2 ⟨v, h, by rw [hdiff]; rfl⟩

omit [IsStrictOrderedRing K] in
theorem weightedSum_nan {ws vs : List (XVal K)} (hlen : ws.length = vs.length) (h : XVal.nan ∈ vs) :
    weightedSum ws vs = .nan := by
  unfold weightedSum
  generalize (.fin 0 : XVal K) = acc
  induction ws generalizing vs acc with
  | nil => cases vs <;> simp_all
  | cons w ws ih =>
    cases vs with
    | nil => simp at h
    | cons v vs =>
      rw [List.zip_cons_cons, List.foldl_cons]
      rcases List.mem_cons.1 h with rfl | h
      · have hnan : ∀ l : List (XVal K × XVal K),
            l.foldl (fun out p => out + p.1 * p.2) XVal.nan = .nan := by
          intro l
          induction l with
          | nil => rfl
          | cons p l ih => rw [List.foldl_cons, XVal.nan_add]; exact ih
        have : (acc + w * XVal.nan : XVal K) = .nan := by
          have : (w * XVal.nan : XVal K) = .nan := by cases w <;> rfl
          rw [this]; exact XVal.add_nan _
        simp only
        rw [this]
        exact hnan _
      · exact ih (by simpa using hlen) h _

/-- C71, what can go wrong: if a used point has an evaluation that is infinite or undefined, or only one
evaluation, then the estimate is undefined (NaN). -/
theorem C71_undefined (nrm : Vec K n → K) (f : K) (minN : Int) (region : Region K n) (h : Log K n)
    (hev : h.evals ≠ []) (i : Nat)
    (hi : UsedPoint nrm h region.center (region.radius * f) minN i)
    (hbad : (∃ v ∈ h.fvals i, v.isFinite = false) ∨ (h.fvals i).length = 1) :
    estimateVariance nrm f minN region h = .ok .nan := by
  obtain ⟨cutoff, hc, hiff, -⟩ := varianceSelection nrm f minN region h hev ⟨i, hi.1⟩
  unfold estimateVariance
  simp only [hc]
  congr 1
  refine weightedSum_nan (by simp [varianceWeights]) (List.mem_map.2 ⟨i, (hiff i).2 hi, ?_⟩)
  by_cases hinf : ∃ v ∈ h.fvals i, v.isFinite = false
  · obtain ⟨v, hv, hf⟩ := hinf
    exact npVar_of_infinite hf hv
  · obtain ⟨a, ha⟩ := List.length_eq_one_iff.1 (hbad.resolve_left hinf)
    rw [ha] at hinf ⊢
    cases a with
    | fin a =>
      unfold npCov
      simp only
      rw [mean_singleton]
      have h0 : (.fin a - .fin a : XVal K) * (.fin a - .fin a) = .fin 0 := by simp
      simp only [List.zipWith_cons_cons, List.zipWith_nil_left, h0]
      have h1 : ([(.fin 0 : XVal K)]).sum = .fin 0 := by
        show (.fin 0 + .fin 0 : XVal K) = _
        simp
      rw [h1]
      simp [FloatLike.divNat]
    | pinf => exact absurd ⟨.pinf, by simp, rfl⟩ hinf
    | ninf => exact absurd ⟨.ninf, by simp, rfl⟩ hinf
    | nan => exact absurd ⟨.nan, by simp, rfl⟩ hinf

/-- C71, the same for vector valued evaluations: a used point that has been evaluated more than once, with an entry that
is infinite or undefined. -/
theorem C71_covariance_undefined (nrm : Vec K n → K) (f : K) (minN : Int)
    (covOfOne : (Fin m → XVal K) → Fin m → Fin m → XVal K) (region : Region K n) (h : Log K n)
    (fvecs : Nat → List (Fin m → XVal K)) (hev : h.evals ≠ []) (i : Nat)
    (hi : UsedPoint nrm h region.center (region.radius * f) minN i) (htwo : 2 ≤ (fvecs i).length)
    (row : Fin m → XVal K) (hrow : row ∈ fvecs i) (k : Fin m) (hbad : (row k).isFinite = false) :
    ∃ cov, estimateCovariance nrm f minN covOfOne region h fvecs = .ok cov ∧ cov k k = .nan := by
  obtain ⟨cutoff, hc, hiff, -⟩ := varianceSelection nrm f minN region h hev ⟨i, hi.1⟩
  unfold estimateCovariance
  simp only [hc]
  refine ⟨_, rfl, weightedSum_nan (by simp [varianceWeights]) (List.mem_map.2 ⟨i, (hiff i).2 hi, ?_⟩)⟩
  have : sampleCov covOfOne (fvecs i) = fun a b => npCov ((fvecs i).map fun r => r a) ((fvecs i).map fun r => r b) := by
    unfold sampleCov
    split
    · rename_i heq
      rw [heq] at htwo
      simp at htwo
    · rfl
  rw [this]
  exact npVar_of_infinite hbad (List.mem_map.2 ⟨row, hrow, rfl⟩)

omit [IsStrictOrderedRing K] in
/-- C71: without a stored point near the region (or without any evaluation) the call fails. -/
theorem C71_no_point_near (nrm : Vec K n → K) (f : K) (minN : Int) (region : Region K n) (h : Log K n)
    (hfar : h.evals = [] ∨ ∀ i, ¬ NearPoint nrm h region.center (region.radius * f) i) :
    estimateVariance nrm f minN region h = .error .valueError := by
  unfold estimateVariance
  simp only [varianceCutoff_nil_of_far nrm f minN region h hfar]

section run

variable [FloorRing K] {VM SM : Type}

/-- C71 in a run: in no iteration does the estimate of the variance fail for lack of points, because the
center of the region is a stored point. -/
theorem C71_never_fails_in_a_run (c : Config K) (comp : Components K n VM SM)
    (hf : FilterSelects comp) (hrad : RadiusLimitsOk c.radius) (hnrm : ∀ v, 0 ≤ comp.nrm v)
    (hnrm0 : comp.nrm (fun _ => 0) = 0) (hb : 1 ≤ c.batchSize)
    (x : Vec K n) (radius : K) (hr0 : 0 ≤ radius) (bounds : Bounds K n)
    (f : K) (hfac : 0 ≤ f) (minN : Int) (k : Nat) :
    let r := iterates c comp (startRun c comp x radius bounds) k
    ∃ v, estimateVariance comp.nrm f minN r.state.trustregion (theBuild c comp k r).log = .ok v := by
  intro r
  have hinv : RunOk comp bounds r ∧ 0 ≤ r.state.trustregion.radius ∧ r.log.evals ≠ [] := by
    show RunOk comp bounds (iterates c comp (startRun c comp x radius bounds) k) ∧ _
    induction k with
    | zero => exact ⟨startRun_ok c comp x radius bounds, hr0, fun he =>
        startRun_evals c comp hb x radius bounds (by
          have he' : (startRun c comp x radius bounds).log.evals = [] := he
          simp [Log.fvals, he'])⟩
    | succ k ih =>
      obtain ⟨h1, -, h3⟩ := ih
      refine ⟨iteration_ok c comp hf bounds k _ h1, theRadius_nonneg c comp hrad hnrm k _, ?_⟩
      intro he
      have := (iteration_grows c comp hf k _ h1.point).evals_prefix
      rw [show (iteration c comp k (iterates c comp (startRun c comp x radius bounds) k)).log.evals = []
        from he] at this
      exact h3 (List.prefix_nil.1 this)
  obtain ⟨hok, hr, hev⟩ := hinv
  have hg := (buildPhase_ok c comp k r.state r.log r.nEvals hf hok.point).grows
  have hev' : (theBuild c comp k r).log.evals ≠ [] := by
    intro he
    have := hg.evals_prefix
    rw [show (buildPhase c comp k r.state r.log r.nEvals).2.log.evals = [] from he] at this
    exact hev (List.prefix_nil.1 this)
  have hnear : NearPoint comp.nrm (theBuild c comp k r).log r.state.trustregion.center
      (r.state.trustregion.radius * f) r.state.index := by
    refine ⟨r.state.x, getElem?_of_prefix hg.xs_prefix hok.point, ?_⟩
    rw [hok.center]
    simp only [sub_self]
    rw [hnrm0]
    exact mul_nonneg hr hfac
  obtain ⟨cutoff, hc, -⟩ := varianceSelection comp.nrm f minN r.state.trustregion
    (theBuild c comp k r).log hev' ⟨_, hnear⟩
  unfold estimateVariance
  simp only [hc]
  exact ⟨_, rfl⟩

end run

/-- Distance in one dimension. -/
def absNorm (v : Vec ℚ 1) : ℚ := |v 0|

/-- Three points, the first evaluated three times, the second twice, the third (far away) four times. -/
def noisyLog : Log ℚ 1 where
  xs := [![0], ![1], ![100]]
  evals := [(0, .fin 1), (0, .fin 2), (0, .fin 6), (1, .fin 5), (1, .fin 9), (2, .fin 0), (2, .fin 1),
    (2, .fin 2), (2, .fin 3)]

/-- The unit interval. -/
def unitInterval : Region ℚ 1 where
  center := ![0]
  radius := 1
  bounds := { lower := fun _ => none, upper := fun _ => none }

/-- Example: both near points are used if two evaluations are enough; the variances 7 and 8 are weighted
with 3 / 5 and 2 / 5. -/
example : estimateVariance absNorm 3 2 unitInterval noisyLog = .ok (.fin (37 / 5)) := by
  decide +kernel

/-- Example: with three evaluations only the first point is used, and also if more are demanded. -/
example : estimateVariance absNorm 3 3 unitInterval noisyLog = .ok (.fin 7) ∧
    estimateVariance absNorm 3 50 unitInterval noisyLog = .ok (.fin 7) := by
  decide +kernel

/-- C71, refutation: a point with two evaluations is used, but the estimate is not defined because
`min_n_evals = 1` also admits a point with a single evaluation. -/
theorem C71_violated_single_evaluation :
    ∃ (region : Region ℚ 1) (h : Log ℚ 1),
      UsedPoint absNorm h region.center (region.radius * 3) 1 0 ∧ (h.fvals 0).length = 2 ∧
      estimateVariance absNorm 3 1 region h = .ok .nan := by
  refine ⟨unitInterval, ⟨[![0], ![1]], [(0, .fin 1), (0, .fin 2), (1, .fin 5)]⟩,
    ⟨⟨![0], rfl, by decide +kernel⟩, Or.inl (by decide)⟩, by decide, by decide +kernel⟩

end Tranquilo
