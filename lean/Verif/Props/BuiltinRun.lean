import Verif.Spec.BuiltinRun
import Verif.Props.MainLoopRaise
import Verif.Props.Samplers
import Verif.Props.Cluster
import Verif.Props.Filter
import Verif.Props.Fit
import Verif.Props.Aggregate
import Verif.Props.Subproblem
import Verif.Props.Fallback
import Verif.Props.RhoNoise
import Verif.Props.NoiseVariance

/-!
# C98 for the built in components, C26 for the filter
-/

namespace Tranquilo

variable {K : Type} [Field K] [LinearOrder K] [IsStrictOrderedRing K] {n m : Nat}

/-! ## The filters -/

omit [IsStrictOrderedRing K] in
theorem keepClusterCenters_selects (nrm : Vec K n → K) (dimRoot : K → K) (s : K) (shape : String)
    (radius : K) (target : Nat) (l : List (Vec K n × Nat)) {r : List (Vec K n) × List Nat}
    (h : keepClusterCenters nrm dimRoot s shape radius target (l.map Prod.fst) (l.map Prod.snd) = .ok r) :
    ∃ kept : List (Vec K n × Nat), kept ⊆ l ∧ r = (kept.map Prod.fst, kept.map Prod.snd) := by
  unfold keepClusterCenters at h
  dsimp only at h
  split at h
  · cases h
  split at h
  · cases h
  split at h
  · rename_i c hc
    cases h
    have hlen : ∀ i : Fin (l.map Prod.fst).length, i.val < l.length := fun i => by
      simpa using i.isLt
    refine ⟨c.centers.map fun i => l[i.val]'(hlen i), ?_, ?_⟩
    · intro p hp
      obtain ⟨i, -, rfl⟩ := List.mem_map.1 hp
      exact List.getElem_mem _
    · rw [List.map_map, List.map_map]
      congr 1
      · refine List.map_congr_left fun i _ => ?_
        simp
      · refine List.map_congr_left fun i _ => ?_
        have := hlen i
        simp [List.getD_eq_getElem?_getD, List.getElem?_eq_getElem this]
  · cases h

/-- C26 for the filter "clustering": it returns; the kept points are some of the given points with
their indices; every given point is within `radius * (strictness / target_size) ** (1 / dim)` of a kept
point, and two kept points are farther apart than that. -/
theorem C26_filter (nrm : Vec K n → K) (hz : nrm (fun _ => 0) = 0) (dimRoot : K → K)
    (hd : ∀ a, 0 ≤ a → 0 ≤ dimRoot a) (s radius : K) (hs : 0 ≤ s) (hr : 0 ≤ radius) (target : Nat)
    (l : List (Vec K n × Nat)) (hl : l ≠ []) :
    ∃ kept : List (Vec K n × Nat),
      keepClusterCenters nrm dimRoot s "sphere" radius target (l.map Prod.fst) (l.map Prod.snd)
        = .ok (kept.map Prod.fst, kept.map Prod.snd) ∧ kept ⊆ l ∧
      (∀ p ∈ l, ∃ q ∈ kept, nrm (fun k => q.1 k - p.1 k) ≤ radius * dimRoot (s / target)) ∧
      kept.Pairwise fun p q => radius * dimRoot (s / target) < nrm fun k => p.1 k - q.1 k := by
  have heps : 0 ≤ radius * dimRoot (s / target) :=
    mul_nonneg hr (hd _ (div_nonneg hs (Nat.cast_nonneg _)))
  obtain ⟨c, h1, h2, -, h4⟩ := C26_clustering
    (fun i j : Fin (l.map Prod.fst).length => nrm fun k => (l.map Prod.fst)[i] k - (l.map Prod.fst)[j] k)
    (radius * dimRoot (s / target)) (fun i => by simpa [hz] using heps)
  have hlen : ∀ i : Fin (l.map Prod.fst).length, i.val < l.length := fun i => by
    simpa using i.isLt
  refine ⟨c.centers.map fun i => l[i.val]'(hlen i), ?_, ?_, ?_, ?_⟩
  · unfold keepClusterCenters
    dsimp only
    rw [if_neg (by simp), if_neg (by simpa using hl), h1 _ (by omega)]
    dsimp only
    congr 1
    rw [List.map_map, List.map_map]
    congr 1
    · refine List.map_congr_left fun i _ => ?_
      simp
    · refine List.map_congr_left fun i _ => ?_
      have := hlen i
      simp [List.getD_eq_getElem?_getD, List.getElem?_eq_getElem this]
  · intro p hp
    obtain ⟨i, -, rfl⟩ := List.mem_map.1 hp
    exact List.getElem_mem _
  · intro p hp
    obtain ⟨j, hj, rfl⟩ := List.getElem_of_mem hp
    obtain ⟨k, i, -, hi, hle⟩ := h2 ⟨j, by simpa using hj⟩
    refine ⟨_, List.mem_map_of_mem (List.mem_of_getElem? hi), ?_⟩
    simpa using hle
  · rw [List.pairwise_map, List.pairwise_iff_getElem]
    intro i j hi hj hij
    have := h4 i j _ _ hij (List.getElem?_eq_getElem hi) (List.getElem?_eq_getElem hj)
    simpa using this

/-- The built in filters select points with their indices. -/
theorem builtinFilter_selects [FloorRing K] {b : BuiltinSettings K n m} (hv : b.filter.Valid)
    (state : LoopState K n (VectorModel K n m) (ScalarModel K n)) (target : Nat)
    (l : List (Vec K n × Nat)) (r : List (Vec K n) × List Nat)
    (h : builtinFilter b state target (l.map Prod.fst) (l.map Prod.snd) = .ok r) :
    ∃ kept : List (Vec K n × Nat), kept ⊆ (state.x, state.index) :: l ∧
      r = (kept.map Prod.fst, kept.map Prod.snd) := by
  unfold builtinFilter at h
  split at h
  · cases h
    exact ⟨[(state.x, state.index)], by simp, rfl⟩
  · cases h
    exact ⟨l, List.subset_cons_self _ _, rfl⟩
  · obtain ⟨kept, h1, h2⟩ := keepClusterCenters_selects _ _ _ _ _ _ _ h
    exact ⟨kept, List.subset_cons_of_subset _ h1, h2⟩
  · rename_i f hf
    rw [hf] at hv
    unfold dropExcess at h
    dsimp only at h
    split at h
    · obtain ⟨kept, dropped, h1, h2, -⟩ := dropWorst_spec b.nrm state.x state.index
        state.trustregion.radius l
        (max 0 (((l.map Prod.fst).length : Int) - ⌊(target : K) * f⌋)).toNat (by
          have : 0 ≤ ⌊(target : K) * f⌋ := Int.floor_nonneg.2 (mul_nonneg (Nat.cast_nonneg _) hv)
          rw [List.length_map]
          omega)
      rw [h1] at h
      cases h
      exact ⟨kept, List.subset_cons_of_subset _ h2.subset, rfl⟩
    · cases h
      exact ⟨l, List.subset_cons_self _ _, rfl⟩

/-- The built in filters return. -/
theorem builtinFilter_ok [FloorRing K] {b : BuiltinSettings K n m} (hv : b.filter.Valid)
    (hz : b.nrm (fun _ => 0) = 0) (hd : ∀ a, 0 ≤ a → 0 ≤ b.dimRoot a)
    (state : LoopState K n (VectorModel K n m) (ScalarModel K n)) (hr : 0 ≤ state.trustregion.radius)
    (target : Nat) (l : List (Vec K n × Nat)) (hl : l ≠ []) :
    ∃ r, builtinFilter b state target (l.map Prod.fst) (l.map Prod.snd) = .ok r := by
  unfold builtinFilter
  split
  · exact ⟨_, rfl⟩
  · exact ⟨_, rfl⟩
  · rename_i s shape hf
    rw [hf] at hv
    obtain ⟨h0, rfl⟩ := hv
    obtain ⟨kept, h1, -⟩ := C26_filter b.nrm hz b.dimRoot hd s _ h0 hr target l hl
    exact ⟨_, h1⟩
  · rename_i f hf
    rw [hf] at hv
    obtain ⟨xs', is', h1, -⟩ := C25_drop_excess b.nrm state.x state.index state.trustregion.radius
      (l.map Prod.fst) (l.map Prod.snd) (by simp) target f
      (Int.floor_nonneg.2 (mul_nonneg (Nat.cast_nonneg _) hv))
    exact ⟨_, h1⟩

/-! ## The samplers -/

/-- The built in samplers return exactly as many points as requested, all within the bounds. -/
theorem builtinSampleR_ok {b : BuiltinSettings K n m} (hroot : SqrtSpec b.root)
    (hrad : RadialSpec b.radial) (hcr : ∀ a, 0 < a → 0 < b.cubeRadius a) (hs : b.sampler.Valid)
    (hrng : ∀ it round log, RngSpec (b.rng it round log)) (it round : Nat) (log : Log K n)
    (region : Region K n) (hr : 0 < region.radius) (hc : InBounds region.bounds region.center) (k : Nat)
    (xs : List (Vec K n)) :
    ∃ ys, builtinSampleR b it round log region k xs = .ok ys ∧ ys.length = k ∧
      ∀ y ∈ ys, InBounds region.bounds y := by
  have hrows : ∀ (rows : List (Row K n)) (P : Vec K n → Prop), RowsSatisfy rows k P →
      ∃ ys, allRows rows = some ys ∧ ys.length = k ∧ ∀ y ∈ ys, P y := by
    rintro rows P ⟨h1, h2⟩
    obtain ⟨us, rfl, hus⟩ := exists_some_list h2
    exact ⟨us, allRows_map_some _, by simpa using h1, hus⟩
  unfold builtinSampleR
  cases hcase : b.sampler with
  | randomInterior =>
    obtain ⟨rows, h1, h2⟩ := C53_interior b.root b.radial b.cubeRadius hroot hrad region hc hr.le
      (hcr _ hr).le (b.rng it round log) (hrng _ _ _) k
    obtain ⟨ys, h3, h4, h5⟩ := hrows _ _ h2
    exact ⟨ys, by simp only [h1, bind, Except.bind, h3]; rfl, h4, fun y hy => (h5 y hy).2⟩
  | randomHull d =>
    rw [hcase] at hs
    obtain ⟨rows, h1, h2⟩ := C53_hull b.root b.cubeRadius hroot region hc hr.le
      (hcr _ hr).le (b.rng it round log) (hrng _ _ _) d hs k
    obtain ⟨ys, h3, h4, h5⟩ := hrows _ _ h2
    exact ⟨ys, by simp only [h1, bind, Except.bind, h3]; rfl, h4, fun y hy => (h5 y hy).2⟩
  | optimalHull o =>
    rw [hcase] at hs
    obtain ⟨rows, info, h1, h2⟩ := C53_optimal_partial b.root b.cubeRadius hroot region hc hr.le
      (hcr _ hr).le (b.rng it round log) (hrng _ _ _) o hs.1 hs.2.1 hs.2.2 (some xs) k
    obtain ⟨ys, h3, h4, h5⟩ := hrows _ _ h2
    exact ⟨ys, by simp only [h1, bind, Except.bind, h3, Except.map]; rfl, h4, fun y hy => (h5 y hy).2⟩

/-! ## The fitters -/

theorem effectiveRadius_ne_zero {cr : K → K} {r : Region K n} (hr : Usable cr r) (i : Fin n) :
    r.effectiveRadius cr i ≠ 0 := by
  unfold Region.effectiveRadius
  cases hs : r.shape with
  | sphere => exact hr.radius.ne'
  | cube =>
    have := C29_cube_nondegenerate cr r hs hr.center hr.cubeRadius hr.sides i
    exact div_ne_zero (sub_pos.2 this).ne' two_ne_zero

omit [IsStrictOrderedRing K] in
/-- The raw fitters return, for every number of points. -/
theorem builtinFitter_ok {N : Nat} (b : BuiltinSettings K n m) (xs : Fin N → Vec K n) (y : Vec K N) :
    ∃ c, builtinFitter b xs y = .ok c := by
  unfold builtinFitter
  split
  · exact ⟨_, rfl⟩
  · exact ⟨_, rfl⟩
  · unfold fitPowell
    split
    · exact ⟨_, rfl⟩
    split
    · exact ⟨_, rfl⟩
    · rename_i h1 h2
      cases hmt : b.modelType with
      | linear =>
        rw [hmt] at h2
        simp only [nCols] at h2
        omega
      | quadratic =>
        rw [hmt] at h2
        simp only [nCols, nSecondOrderTerms] at h2
        unfold fitMinFrobenius
        rw [if_neg h1, if_neg (by omega)]
        exact ⟨_, rfl⟩
  · exact ⟨_, rfl⟩

theorem except_mapM_ok {α β : Type} (g : α → Except Err β) (l : List α)
    (h : ∀ a ∈ l, ∃ b, g a = .ok b) : ∃ out, l.mapM g = .ok out := by
  induction l with
  | nil => exact ⟨[], rfl⟩
  | cons a l ih =>
    obtain ⟨b, hb⟩ := h a (by simp)
    obtain ⟨out, hout⟩ := ih fun a' ha' => h a' (by simp [ha'])
    refine ⟨b :: out, ?_⟩
    rw [List.mapM_cons, hb, hout]
    rfl

/-- The old models that occur in a run, see C69: the second order terms are zero. -/
structure StartModel (old : VectorModel K n m) : Prop where
  square : old.squareTerms = some fun _ _ _ => 0
  scale : ∀ i, old.scale i ≠ 0

/-- The fitter returns; there are second order terms exactly for quadratic models, and they are
symmetric. -/
theorem builtinFitTemplate_ok {N : Nat} (b : BuiltinSettings K n m) (region : Region K n)
    (hr : Usable b.cubeRadius region) (old : VectorModel K n m) (hold : StartModel old)
    (xs : Fin N → Vec K n) (y : Fin N → Fin m → XVal K) :
    ∃ vm, builtinFitTemplate b region old xs y = .ok vm ∧
      (vm.squareTerms.isSome ↔ b.modelType = .quadratic) ∧
      ∀ q, vm.squareTerms = some q → ∀ k, SymmetricMat (q k) := by
  unfold builtinFitTemplate
  rw [if_neg (by rintro ⟨i, hi⟩; exact effectiveRadius_ne_zero hr i hi)]
  dsimp only
  set xUnit : Fin N → Vec K n := fun s => region.mapToUnit b.cubeRadius (xs s)
  have hcol : ∀ f : Fin m → Vec K N, ∃ coef,
      collectColumns (fun k => builtinFitter b xUnit (f k)) = .ok coef := by
    intro f
    obtain ⟨out, hout⟩ := except_mapM_ok (fun k => builtinFitter b xUnit (f k)) (List.finRange m)
      fun k _ => builtinFitter_ok b xUnit (f k)
    unfold collectColumns
    rw [hout]
    exact ⟨_, rfl⟩
  obtain ⟨coef, hcoef⟩ := hcol fun k s => if b.residualize then
    clipColumns y s k - (old.move b.cubeRadius region).predict (xUnit s) k else clipColumns y s k
  rw [hcoef]
  obtain ⟨-, h1, h2⟩ := C33_prediction_is_inner_product b.modelType coef
    (region.effectiveCenter b.cubeRadius) (region.effectiveRadius b.cubeRadius)
  set results := modelOfCoef b.modelType coef (region.effectiveCenter b.cubeRadius)
    (region.effectiveRadius b.cubeRadius) with hres
  change ∃ vm, (if b.residualize = true then results.add (old.move b.cubeRadius region)
    else .ok results) = .ok vm ∧ _
  by_cases hrz : b.residualize = true
  · rw [if_pos hrz]
    have hshift : (old.move b.cubeRadius region).shift = results.shift := by
      funext i
      simp only [VectorModel.move, VectorModel.scaleBy, VectorModel.shiftBy, hres, modelOfCoef]
      ring
    have hscale : (old.move b.cubeRadius region).scale = results.scale := by
      funext i
      simp only [VectorModel.move, VectorModel.scaleBy, VectorModel.shiftBy, hres, modelOfCoef]
      rw [mul_one_div_cancel (hold.scale i), one_mul]
    have hclose : ∀ v : Vec K n, allClose v v = true := by
      intro v
      simp only [allClose, decide_eq_true_eq]
      intro i
      rw [sub_self, abs_zero]
      positivity
    have hsq : (old.move b.cubeRadius region).squareTerms = some fun _ _ _ => 0 := by
      simp [VectorModel.move, VectorModel.scaleBy, VectorModel.shiftBy, hold.square]
    unfold VectorModel.add
    rw [hshift, hscale, hclose, hclose, hsq]
    simp only [Bool.not_true, Bool.false_eq_true, if_false]
    cases hq : results.squareTerms with
    | none =>
      rw [hq] at h1
      exact ⟨_, rfl, by simpa using h1, fun q h => by cases h⟩
    | some q =>
      rw [hq] at h1
      refine ⟨_, rfl, by simpa using h1, ?_⟩
      intro q' hq' k i j
      have : q' = fun k i j => q k i j + 0 := by
        injection hq' with h
        exact h.symm
      rw [this]
      simp only [add_zero]
      exact h2 q hq k i j
  · rw [if_neg hrz]
    exact ⟨results, rfl, h1, h2⟩

/-! ## The aggregators -/

omit [IsStrictOrderedRing K] in
/-- The aggregator returns a model with symmetric second order terms. -/
theorem aggregate_ok {name : String} {mt : ModelType} (hfit : AggregatorFits name m mt)
    (vm : VectorModel K n m) (hq : mt = .quadratic → vm.squareTerms.isSome)
    (hs : ∀ q, vm.squareTerms = some q → ∀ k, SymmetricMat (q k)) :
    ∃ sm, aggregate name vm = .ok sm ∧ SolvableModel sm := by
  rcases hfit with ⟨rfl, rfl⟩ | ⟨rfl, rfl⟩ | rfl | rfl
  · refine ⟨_, rfl, _, rfl, ?_⟩
    dsimp only
    cases h : vm.squareTerms with
    | none => exact fun i j => rfl
    | some q => exact hs q h _
  · obtain ⟨q, hq⟩ := Option.isSome_iff_exists.1 (hq rfl)
    refine ⟨aggregateWith vm (∑ k, vm.intercepts k, fun i => ∑ k, vm.linearTerms k i,
      fun i j => ∑ k, q k i j), ?_, _, rfl, ?_⟩
    · simp [aggregate, aggregatorSum, hq]
    · intro i j
      dsimp only
      exact Finset.sum_congr rfl fun k _ => hs q hq k i j
  · refine ⟨aggregatorInformation vm, rfl, _, rfl, ?_⟩
    intro i j
    dsimp only
    congr 2
    exact Finset.sum_congr rfl fun k _ => mul_comm _ _
  · refine ⟨aggregatorLeastSquares vm, rfl, _, rfl, ?_⟩
    intro i j
    dsimp only
    exact Finset.sum_congr rfl fun k _ => by ring

/-! ## The subproblem -/

theorem mapToUnit_center_sphere {cr : K → K} {r : Region K n} (hs : r.shape = .sphere) :
    r.mapToUnit cr r.center = fun _ => 0 := by
  funext i
  simp [Region.mapToUnit, hs]

theorem mapToUnit_center_cube {cr : K → K} {r : Region K n} (hr : Usable cr r) (hs : r.shape = .cube) :
    ∀ i, -1 ≤ r.mapToUnit cr r.center i ∧ r.mapToUnit cr r.center i ≤ 1 := by
  have hnd := C29_cube_nondegenerate cr r hs hr.center hr.cubeRadius hr.sides
  rw [← (C29_cube_bijection cr r hs hnd).2.2]
  intro i
  have hR : r.cubeRadius cr = cr r.radius := by rw [Region.cubeRadius, hs]
  have h0 := hr.cubeRadius
  obtain ⟨h1, h2⟩ := hr.center i
  constructor
  · unfold Region.cubeLower Region.clipLower
    rw [hR]
    cases hl : r.bounds.lower i with
    | none => dsimp only; linarith
    | some l => exact max_le (by linarith) (h1 l hl)
  · unfold Region.cubeUpper Region.clipUpper
    rw [hR]
    cases hu : r.bounds.upper i with
    | none => dsimp only; linarith
    | some u => exact le_min (by linarith) (h2 u hu)

theorem solveSubproblem_returns (cr : K → K) (sphere cube fbSphere fbCube : SubSolver K n) (retry : Bool)
    (model : ScalarModel K n) (r : Region K n)
    (h : ∃ raw, callSolver retry (pick r sphere cube) (pick r fbSphere fbCube) model
      (r.mapToUnit cr r.center) = .ok raw) :
    ∃ res, solveSubproblem cr sphere cube fbSphere fbCube retry model r = .ok res := by
  obtain ⟨raw, hraw⟩ := h
  cases hs : r.shape <;> simp only [pick, hs] at hraw <;>
    simp only [solveSubproblem, hs, hraw] <;> split <;> exact ⟨_, rfl⟩

/-- The template returns. -/
theorem builtinSolver_returns {c : Config K} {b : BuiltinSettings K n m} {bounds : Bounds K n}
    (h : SafeSettings c b bounds) (model : ScalarModel K n) (hm : SolvableModel model)
    (region : Region K n) (hr : Usable b.cubeRadius region) :
    ∃ res, solveSubproblem b.cubeRadius b.sphere b.cube b.fallbackSphere b.fallbackCube b.retry model
      region = .ok res :=
  solveSubproblem_returns b.cubeRadius b.sphere b.cube b.fallbackSphere
    b.fallbackCube b.retry model region (by
      cases hs : region.shape with
      | sphere =>
        simp only [pick, hs]
        rw [mapToUnit_center_sphere hs]
        exact h.sphere model hm
      | cube =>
        simp only [pick, hs]
        exact h.cube model hm _ (mapToUnit_center_cube hr hs))

/-- The solver returns a point within the bounds. -/
theorem builtinSolve_ok {c : Config K} {b : BuiltinSettings K n m} {bounds : Bounds K n}
    (h : SafeSettings c b bounds) (model : ScalarModel K n) (hm : SolvableModel model)
    (region : Region K n) (hreg : FeasibleRegion bounds region) (hr : Usable b.cubeRadius region) :
    ∃ sub, builtinSolve b model region = .ok sub ∧ InBounds bounds sub.x := by
  obtain ⟨res, hres⟩ := builtinSolver_returns h model hm region hr
  refine ⟨{ x := res.x, expectedImprovement := res.expectedImprovement }, ?_, ?_⟩
  · unfold builtinSolve
    rw [hres]
    rfl
  · rw [← hreg.box]
    cases hs : region.shape with
    | cube =>
      exact (C40_box b.cubeRadius b.sphere b.cube b.fallbackSphere b.fallbackCube b.retry model region hs
        hr.center hr.cubeRadius.le res hres).1
    | sphere =>
      rcases h.ball with hb | hb
      · rw [hreg.box]
        exact hb _
      · exact (C40_ball_partial b.cubeRadius b.sphere b.cube b.fallbackSphere b.fallbackCube b.retry model
          region hs hr.radius.le hr.center 0 le_rfl
          (fun x raw hx => by simpa using (hb model hm x raw).1 hx)
          (fun x raw hx => by simpa using (hb model hm x raw).2 hx) res hres).2 rfl

/-! ## The noise -/

omit [IsStrictOrderedRing K] in
theorem exists_fin_list {l : List (XVal K)} (h : ∀ v ∈ l, v.isFinite = true) :
    ∃ w : List K, l = w.map .fin := by
  induction l with
  | nil => exact ⟨[], rfl⟩
  | cons v l ih =>
    obtain ⟨w, hw⟩ := ih fun u hu => h u (by simp [hu])
    have := h v (by simp)
    cases v with
    | fin a => exact ⟨a :: w, by rw [hw]; rfl⟩
    | pinf => cases this
    | ninf => cases this
    | nan => cases this

omit [IsStrictOrderedRing K] in
theorem exists_fin_rows {l : List (Fin m → XVal K)} (h : ∀ v ∈ l, ∀ k, (v k).isFinite = true) :
    ∃ w : List (Vec K m), l = w.map fun r a => .fin (r a) := by
  induction l with
  | nil => exact ⟨[], rfl⟩
  | cons v l ih =>
    obtain ⟨w, hw⟩ := ih fun u hu => h u (by simp [hu])
    have hv : ∀ k, ∃ a, v k = .fin a := by
      intro k
      have := h v (by simp) k
      cases hk : v k with
      | fin a => exact ⟨a, rfl⟩
      | pinf => rw [hk] at this; cases this
      | ninf => rw [hk] at this; cases this
      | nan => rw [hk] at this; cases this
    choose a ha using hv
    exact ⟨a :: w, by rw [hw, List.map_cons]; congr 1; funext k; exact ha k⟩

/-- The center is near, with two evaluations. -/
theorem noiseData_near {c : Config K} {b : BuiltinSettings K n m} {bounds : Bounds K n}
    (hz : b.nrm (fun _ => 0) = 0) (hs : SafeNoise c b) {log : Log K n} {region : Region K n}
    (hreg : FeasibleRegion bounds region) (hdata : NoiseData c b.oracle log region) :
    ∃ i, NearPoint b.nrm log region.center (region.radius * b.noiseDistance) i ∧
      2 ≤ (log.fvals i).length := by
  obtain ⟨i, hi, h2⟩ := hdata.center
  refine ⟨i, ⟨region.center, hi, ?_⟩, h2 hs.repeats⟩
  simp only [sub_self]
  rw [hz]
  exact mul_nonneg hreg.radius.le hs.distance

/-- The noise is estimated, and the estimate is a number. -/
theorem builtinNoiseSigma_ok {c : Config K} {b : BuiltinSettings K n m} {bounds : Bounds K n}
    (hz : b.nrm (fun _ => 0) = 0) (hs : SafeNoise c b) {log : Log K n} {region : Region K n}
    (hreg : FeasibleRegion bounds region) (hdata : NoiseData c b.oracle log region) :
    ∃ s, builtinNoiseSigma b log region = .ok (some s) := by
  have hfin : ∀ i, ∃ w : List K, log.fvals i = w.map .fin := by
    intro i
    refine exists_fin_list fun v hv => ?_
    obtain ⟨k, x, hx⟩ := hdata.values _ (fvals_mem hv)
    simp only at hx
    rw [hx]
    exact hs.finite k x
  choose vals hvals using hfin
  obtain ⟨-, -, v, -, -, -, -, -, hv, h0, -⟩ := C71_weighted_average_partial b.nrm b.noiseDistance
    b.noiseMinEvals region log hs.minEvals (noiseData_near hz hs hreg hdata) vals fun i _ => hvals i
  refine ⟨b.root v, ?_⟩
  unfold builtinNoiseSigma
  rw [hv]
  simp [Except.map, h0]

/-- The noise of rho is simulated. -/
theorem builtinRhoNoise_ok {c : Config K} {b : BuiltinSettings K n m} {bounds : Bounds K n}
    (h : SafeSettings c b bounds) (hs : SafeNoise c b) (it : Nat) {log : Log K n} (xs : List (Vec K n))
    {vm old : VectorModel K n m} {region : Region K n} (hreg : FeasibleRegion bounds region)
    (hold : StartModel old) (hdata : NoiseData c b.oracle log region) (hr : Usable b.cubeRadius region)
    (hq : b.modelType = .quadratic → vm.squareTerms.isSome)
    (hsym : ∀ q, vm.squareTerms = some q → ∀ k, SymmetricMat (q k)) :
    ∃ l, builtinRhoNoise b it log xs vm old region = .ok l := by
  have hrows : ∀ i, ∃ w : List (Vec K m), b.fvecs log i = w.map fun r a => .fin (r a) := fun i =>
    exists_fin_rows (hs.finiteRows log (fun e he => by
      obtain ⟨k, x, hx⟩ := hdata.values e he
      rw [hx]
      exact hs.finite k x) i)
  choose vals hvals using hrows
  obtain ⟨-, -, cov, -, -, -, -, -, hcov, -, -⟩ := C71_covariance_partial b.nrm b.noiseDistance
    b.noiseMinEvals b.covOfOne region log (b.fvecs log) (hs.rows log) hs.minEvals
    (noiseData_near h.zero hs hreg hdata) vals fun i _ => hvals i
  have hmat : finiteMat (fun i j => (.fin (cov i j) : XVal K)) = some cov := by
    exact if_pos fun i j => rfl
  unfold builtinRhoNoise
  rw [hcov]
  simp only [bind, Except.bind, hmat]
  unfold simulateRhoNoise
  obtain ⟨tm, htm, -⟩ := aggregate_ok h.aggregator vm hq hsym
  rw [htm]
  change ∃ l, (if b.nDraws < 0 then _ else _) = _
  rw [if_neg (not_lt.2 hs.draws)]
  refine except_mapM_ok _ _ fun draw _ => ?_
  unfold simulateOneRho
  obtain ⟨vm', h1, h2, h3⟩ := builtinFitTemplate_ok b region hr old hold (fun s : Fin xs.length => xs[s])
    fun s k => .fin (vm.predict (region.mapToUnit b.cubeRadius xs[s]) k + draw s k)
  obtain ⟨sm, h4, h5⟩ := aggregate_ok h.aggregator vm' h2.2 h3
  obtain ⟨sub, h6⟩ := builtinSolver_returns h sm h5 region hr
  beta_reduce
  rw [h1]
  change ∃ l, (aggregate b.aggregator vm' >>= _) = _
  rw [h4]
  change ∃ l, (solveSubproblem _ _ _ _ _ _ _ _ >>= _) = _
  rw [h6]
  exact ⟨_, rfl⟩

/-! ## C98 -/

/-- C98, second part: the built in components do not raise on what the main loop gives them. -/
theorem C98_builtin_components_are_safe [FloorRing K] {c : Config K} {b : BuiltinSettings K n m}
    {bounds : Bounds K n} (h : SafeSettings c b bounds) :
    SafeComponents c (builtinComponents b) bounds StartModel where
  zero := h.zero
  filter state log target nEvals l hreg hl :=
    builtinFilter_ok h.filter h.zero h.dimRoot state hreg.radius.le target l
      (List.ne_nil_of_mem hl)
  selects state log target nEvals l r hr := builtinFilter_selects h.filter state target l r hr
  sample it round log region k xs hreg := by
    obtain ⟨ys, h1, h2, h3⟩ := builtinSampleR_ok h.root h.radial h.cubeRadius h.sampler h.rng it round log
      region hreg.radius (by rw [hreg.box]; exact hreg.center) k xs
    rw [hreg.box] at h3
    exact ⟨ys, h1, h2, h3⟩
  model log is region old hreg hold _ _ := by
    have hr : Usable b.cubeRadius region := ⟨hreg.radius, h.cubeRadius _ hreg.radius,
      by rw [hreg.box]; exact hreg.center, by rw [hreg.box]; exact h.sides⟩
    obtain ⟨vm, h1, h2, h3⟩ := builtinFitTemplate_ok (N := is.length) b region hr old hold
      (fun s => (log.xs[is[s]]?).getD region.center) fun s => b.data log is[s]
    obtain ⟨sm, h4, h5⟩ := aggregate_ok h.aggregator vm h2.2 h3
    obtain ⟨sub, h6, h7⟩ := builtinSolve_ok h sm h5 region hreg hr
    exact ⟨vm, sm, sub, h1, h4, h6, h7⟩
  init log region hreg := by
    refine ⟨⟨rfl, fun _ => hreg.radius.ne'⟩, ?_⟩
    obtain ⟨sm, h1, -⟩ := aggregate_ok h.aggregator (builtinInit b log region) (fun _ => rfl) (by
      intro q hq k i j
      injection hq with hq
      rw [← hq])
    exact ⟨sm, h1⟩
  sigma hn log region hreg hdata := by
    obtain ⟨s, hs⟩ := builtinNoiseSigma_ok h.zero (h.noise hn) hreg hdata
    exact ⟨some s, hs, fun _ _ _ _ _ _ => by simp⟩
  rhos hn it log xs vm old region hreg hold hdata hfit := by
    have hr : Usable b.cubeRadius region := ⟨hreg.radius, h.cubeRadius _ hreg.radius,
      by rw [hreg.box]; exact hreg.center, by rw [hreg.box]; exact h.sides⟩
    obtain ⟨log', is, hfit⟩ := hfit
    obtain ⟨vm', h1, h2, h3⟩ := builtinFitTemplate_ok (N := is.length) b region hr old hold
      (fun s => (log'.xs[is[s]]?).getD region.center) fun s => b.data log' is[s]
    have he : vm' = vm := by
      have : builtinFit b log' is region old = .ok vm' := h1
      change builtinFit b log' is region old = .ok vm at hfit
      rw [this] at hfit
      exact Except.ok.inj hfit
    rw [he] at h2 h3
    exact builtinRhoNoise_ok h (h.noise hn) it xs hreg hold hdata hr h2.2 h3
  values := h.values

/-- C98 for the built in components: a run returns, and respects the bounds. -/
theorem C98_builtin_run_partial [FloorRing K] {c : Config K} {b : BuiltinSettings K n m} {bounds : Bounds K n}
    (h : SafeSettings c b bounds) (hcfg : SafeConfig c bounds) (x : Vec K n) (hx : InBounds bounds x)
    (radius : K) (hrad : 0 < radius) :
    ∃ r, tranquiloR c (builtinComponents b) x radius bounds = .ok r ∧ InBounds bounds r.state.x ∧
      (∀ y ∈ r.log.xs, InBounds bounds y) ∧ r.log.xs[r.state.index]? = some r.state.x ∧
      r.states.length ≤ c.maxIter + 1 ∧ r.state.trustregion.center = r.state.x ∧
      0 < r.state.trustregion.radius :=
  C98_safe_components_run_to_the_end (C98_builtin_components_are_safe h) hcfg x hx radius hrad

/-- The condition on the solvers in C98 holds for arbitrary solvers, also for solvers that always
raise, if `retry_subproblem_with_fallback` is set (the default): the fallback solvers never raise. The
fallbacks are those of solve_subproblem.py:107-121. -/
theorem C98_fallback_solvers_return (root : K → K) (scipy : ScipyMinimize K n) (solver : SubSolver K n)
    (model : ScalarModel K n) (hm : SolvableModel model) (x : Vec K n) :
    (∃ raw, callSolver true solver (inscribedCubeSolver root scipy) model x = .ok raw) ∧
    (∃ raw, callSolver true solver (fallbackCubeSolver scipy) model x = .ok raw) := by
  obtain ⟨h, hh, -⟩ := hm
  have hcrit : ∃ crit, fallbackCrit model = .ok crit := by
    unfold fallbackCrit
    rw [hh]
    exact ⟨_, rfl⟩
  obtain ⟨crit, hc⟩ := hcrit
  constructor
  · unfold callSolver
    split
    · exact ⟨_, rfl⟩
    · unfold inscribedCubeSolver robustCube
      rw [hc]
      exact ⟨_, rfl⟩
  · unfold callSolver
    split
    · exact ⟨_, rfl⟩
    · unfold fallbackCubeSolver robustCube
      rw [hc]
      exact ⟨_, rfl⟩

/-- An exception of the first fit of an iteration ends the iteration. -/
theorem iterationR_fit_error [FloorRing K] {VM SM : Type} {c : Config K} {ce : ComponentsR K n VM SM}
    (it : Nat) (r : Run K n VM SM) (e : Err)
    (hf : ∀ state log target nEvals xs is, ∃ q, ce.filter state log target nEvals xs is = .ok q)
    (hs : ∀ log k xs, ∃ ys, ce.sample it 1 log r.state.trustregion k xs = .ok ys)
    (hfit : ∀ log is old, ce.fit log is r.state.trustregion old = .error e) :
    iterationR c ce it r = .error e := by
  have hb : buildPhaseR c ce it r.state r.log r.nEvals = .error e := by
    unfold buildPhaseR
    obtain ⟨q, hq⟩ := hf r.state r.log c.targetSize r.nEvals
      (r.log.getXs (r.log.indicesInRegion ce.nrm r.state.trustregion.center
        (c.searchRadiusFactor * r.state.trustregion.radius)))
      (r.log.indicesInRegion ce.nrm r.state.trustregion.center
        (c.searchRadiusFactor * r.state.trustregion.radius))
    obtain ⟨ys, hys⟩ := hs r.log
      (nextMultiple (K := K) (c.targetSize - q.1.length) c.batchSize).toNat q.1
    dsimp only
    rw [hq]
    change (ce.sample it 1 r.log r.state.trustregion _ q.1 >>= _) = _
    rw [hys]
    change (buildModelR ce r.state _ _ _ >>= _) = _
    unfold buildModelR
    rw [hfit]
    rfl
  unfold iterationR
  rw [hb]
  rfl

/-- C98 is false of the code without the condition on the bounds: with a fixed parameter (equal lower and
upper bound) every run raises in the first iteration, because the trust region has a side of length
zero. For all options with at least one iteration, all built in samplers, fitters and solvers. -/
theorem C98_violated_by_fixed_parameter [FloorRing K] {c : Config K} {b : BuiltinSettings K n m}
    {bounds : Bounds K n} (hit : 0 < c.maxIter) (hroot : SqrtSpec b.root) (hradial : RadialSpec b.radial)
    (hcr : ∀ a, 0 < a → 0 < b.cubeRadius a) (hs : b.sampler.Valid)
    (hrng : ∀ it round log, RngSpec (b.rng it round log))
    (hf : b.filter = .discardAll ∨ b.filter = .keepAll)
    (hagg : AggregatorFits b.aggregator m b.modelType) (x : Vec K n) (hx : InBounds bounds x)
    (radius : K) (hrad : 0 < radius) (i : Fin n) (v : K) (hl : bounds.lower i = some v)
    (hu : bounds.upper i = some v) :
    tranquiloR c (builtinComponents b) x radius bounds = .error .linAlgError := by
  obtain ⟨k, hk⟩ : ∃ k, c.maxIter = k + 1 := ⟨c.maxIter - 1, by omega⟩
  set region : Region K n := { center := x, radius := radius, bounds := bounds } with hregion
  obtain ⟨sm, hsm, -⟩ := aggregate_ok hagg
    (builtinInit b (startLogR c b.oracle x) region) (fun _ => rfl) (by
      intro q hq k i j
      injection hq with hq
      rw [← hq])
  have hfil : ∀ state target xs is, ∃ r, builtinFilter b state target xs is = .ok r := by
    intro state target xs is
    unfold builtinFilter
    rcases hf with hf | hf <;> rw [hf] <;> exact ⟨_, rfl⟩
  have hfit : ∀ log is old, builtinFit b log is region old = .error .linAlgError := by
    intro log is old
    have hc : x i = v := le_antisymm ((hx i).2 v hu) ((hx i).1 v hl)
    obtain ⟨h1, h2⟩ := C29_violated_for_fixed_parameter b.cubeRadius region i v hl hu hc hrad.le
      (hcr _ hrad).le
    unfold builtinFit builtinFitTemplate
    rw [if_pos ⟨i, by rw [Region.effectiveRadius, h1]; dsimp only; rw [h2, zero_div]⟩]
  have hstart : ∃ r, startRunR c (builtinComponents b) x radius bounds = .ok r ∧
      r.state.trustregion = region := by
    unfold startRunR
    dsimp only
    change ∃ r, (aggregate b.aggregator (builtinInit b (startLogR c b.oracle x) region) >>= _) = _ ∧ _
    rw [hsm]
    exact ⟨_, rfl, rfl⟩
  obtain ⟨r, h1, h2⟩ := hstart
  unfold tranquiloR
  rw [h1, hk]
  change (iterationR c (builtinComponents b) 0 r >>= _) = _
  rw [iterationR_fit_error 0 r .linAlgError (fun state log target _ xs is => hfil state target xs is)]
  · rfl
  · intro log k xs
    rw [h2]
    obtain ⟨ys, h3, -⟩ := builtinSampleR_ok hroot hradial hcr hs hrng 0 1 log region hrad hx k xs
    exact ⟨ys, h3⟩
  · intro log is old
    rw [h2]
    exact hfit log is old

/-- Settings for which the hypotheses of C98 hold: bounds `-1 <= x <= 1` in two dimensions, two residuals,
solvers that always raise, and the fallback solvers with an optimizer that returns the clipped start
point. -/
noncomputable def raisingSettings : BuiltinSettings ℝ 2 2 where
  nrm v := Real.sqrt (∑ i, v i ^ 2)
  root := Real.sqrt
  radial _ := 1
  cubeRadius := id
  dimRoot := Real.sqrt
  lstsq _ _ _ _ _ := 0
  qr _ _ _ _ := 0
  oracle _ x := .fin (x 0 ^ 2)
  data _ _ _ := .fin 0
  start _ _ := 0
  filter := .clustering 1 "sphere"
  sampler := .randomHull none
  rng _ _ _ := constantRng
  fitter := .powell
  modelType := .linear
  residualize := true
  aggregator := "least_squares_linear"
  sphere _ _ := .error .linAlgError
  cube _ _ := .error .zeroDivisionError
  fallbackSphere := inscribedCubeSolver Real.sqrt fun crit x0 l u =>
    ⟨fun i => npClip (x0 i) (l i) (u i), crit fun i => npClip (x0 i) (l i) (u i), 0⟩
  fallbackCube := fallbackCubeSolver fun crit x0 l u =>
    ⟨fun i => npClip (x0 i) (l i) (u i), crit fun i => npClip (x0 i) (l i) (u i), 0⟩
  retry := true
  fvecs log i := (log.fvals i).map fun v _ => v
  noiseDistance := 3
  noiseMinEvals := 3
  covOfOne _ _ _ := .nan
  draws _ _ _ _ k := List.replicate k fun _ _ => 0
  nDraws := 100
  ignoreCorrelation := true

/-- C98, example. -/
example (c : Config ℝ) (hn : c.noisy = true → RepeatsEvaluations c)
    (hd : ∀ m rf, c.decider ≠ .lineSearch m rf) :
    SafeSettings c raisingSettings ⟨fun _ => some (-1), fun _ => some 1⟩ where
  zero := by simp [raisingSettings]
  root := sqrtSpec_realSqrt
  radial := fun _ => ⟨zero_le_one, le_rfl⟩
  cubeRadius := fun _ h => h
  dimRoot := fun a _ => Real.sqrt_nonneg a
  rng := fun _ _ _ => constantRng_spec
  filter := ⟨zero_le_one, rfl⟩
  sampler := Or.inl rfl
  aggregator := Or.inr (Or.inr (Or.inr rfl))
  sides := by
    intro i l u hl hu
    cases hl
    cases hu
    norm_num
  noise h := by
    refine ⟨hn h, by norm_num [raisingSettings], by norm_num [raisingSettings],
      by norm_num [raisingSettings], fun _ _ => rfl, fun log i => by simp [raisingSettings], ?_⟩
    intro log hlog i row hrow k
    obtain ⟨v, hv, rfl⟩ := List.mem_map.1 hrow
    exact hlog _ (fvals_mem hv)
  values m rf h := absurd h (hd m rf)
  sphere := fun model hm => (C98_fallback_solvers_return _ _ _ model hm _).1
  cube := fun model hm x _ => (C98_fallback_solvers_return Real.sqrt _ _ model hm x).2
  ball := Or.inr fun model _ x raw => ⟨fun h => (by cases h), fun h =>
    C52_inscribed_cube Real.sqrt sqrtSpec_realSqrt _ (fun _ _ _ _ h => ⟨fun i => npClip_mem (h i), rfl⟩)
      model x raw h⟩

end Tranquilo
