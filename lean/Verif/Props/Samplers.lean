import Verif.Lemmas.Samplers
import Verif.Spec.MainLoop
import Verif.Lemmas.Budget
import Mathlib.Analysis.SpecialFunctions.Pow.Real

/-!
# C53, C54: the samplers
-/

namespace Tranquilo

variable {K : Type} [Field K] [LinearOrder K] [IsStrictOrderedRing K] {n : Nat}

/-! ## C53 -/

theorem ballRow_ok {root radial : K → K} (hroot : SqrtSpec root) (hrad : RadialSpec radial)
    {raw : Vec K n} (hx : raw ≠ fun _ => 0) :
    ∃ u, ballRow root radial raw = some u ∧ sumSq u ≤ 1 := by
  have hpos := root_sumSq_pos hroot hx
  refine ⟨_, by simp only [ballRow, if_neg hpos.ne']; rfl, ?_⟩
  have h2 : norm2 root raw ^ 2 = sumSq raw := by
    rw [norm2, dot_self_eq_sumSq, sq]; exact (hroot _ (sumSq_pos hx).le).2
  obtain ⟨h0, h1⟩ := hrad (norm2 root raw)
  have : sumSq (fun i => raw i * (radial (norm2 root raw) / norm2 root raw))
      = radial (norm2 root raw) ^ 2 * (sumSq raw / norm2 root raw ^ 2) := by
    simp only [sumSq, Finset.sum_div, Finset.mul_sum]
    exact Finset.sum_congr rfl fun i _ => by ring
  rw [this, h2, div_self (sumSq_pos hx).ne', mul_one]
  nlinarith

/-- C53 for the interior sampler: exactly `n_points` points, all in the feasible region and within the
bounds. -/
theorem C53_interior (root radial cr : K → K) (hroot : SqrtSpec root) (hrad : RadialSpec radial)
    (r : Region K n) (hc : InBounds r.bounds r.center) (hr : 0 ≤ r.radius) (hcr : 0 ≤ cr r.radius)
    (rng : SampleRng K n) (hrng : RngSpec rng) (k : Nat) :
    ∃ rows, interiorSampler root radial cr r k rng = .ok rows ∧
      RowsSatisfy rows k fun x => InFeasibleRegion cr r x ∧ InBounds r.bounds x := by
  have hk : ¬ ((k : Int) < 0) := by omega
  cases hs : r.shape with
  | sphere =>
    refine ⟨_, by simp only [interiorSampler, hs, ballSampler, if_neg hk]; rfl, ?_, ?_⟩
    · simp [hrng.normal_length]
    · intro p hp
      obtain ⟨raw, hraw, rfl⟩ := List.mem_map.1 hp
      obtain ⟨u, hu, hle⟩ := ballRow_ok hroot hrad (hrng.normal_nonzero _ raw hraw)
      refine ⟨r.mapFromUnit cr u, by rw [hu]; rfl, ?_⟩
      have hball : InBallSq r.center r.radius (r.mapFromUnit cr u) := by
        have : sumSq (fun i => r.mapFromUnit cr u i - r.center i) = sumSq u * r.radius ^ 2 := by
          simp only [sumSq, Region.mapFromUnit, hs, add_sub_cancel_right, mul_pow, Finset.sum_mul]
        rw [InBallSq, this]
        nlinarith [sq_nonneg r.radius]
      refine ⟨by simp only [InFeasibleRegion, hs]; exact hball, fun i => ?_⟩
      obtain ⟨h1, h2⟩ := C27_sphere_strictly_in_bounds r hr hs _ hball i
      exact ⟨fun l hl => (h1 l hl).le, fun v hv => (h2 v hv).le⟩
  | cube =>
    refine ⟨_, by simp only [interiorSampler, hs, boxSampler, if_neg hk]; rfl, ?_, ?_⟩
    · simp [hrng.uniform_length]
    · intro p hp
      obtain ⟨u, hu, rfl⟩ := List.mem_map.1 hp
      refine ⟨_, rfl, ?_⟩
      have hbox : InBox (r.cubeLower cr) (r.cubeUpper cr)
          (scaleUniform (r.cubeLower cr) (r.cubeUpper cr) u) := by
        intro i
        obtain ⟨h1, h2⟩ := hrng.uniform_range _ u hu i
        have hcen := C28_center_in_cube cr r hs hc hcr i
        have hle := hcen.1.trans hcen.2
        constructor
        · show _ ≤ r.cubeLower cr i + (r.cubeUpper cr i - r.cubeLower cr i) * u i
          nlinarith
        · show r.cubeLower cr i + (r.cubeUpper cr i - r.cubeLower cr i) * u i ≤ _
          nlinarith
      have h := (C28_cube_is_intersection cr r hs _).1 hbox
      exact ⟨by simp only [InFeasibleRegion, hs]; exact h, h.1⟩

theorem theDistribution_valid {d : Option String} (hd : ValidDistribution d) (s : Shape) :
    theDistribution d s = "normal" ∨ theDistribution d s = "uniform" := by
  rcases hd with rfl | rfl | rfl <;> cases s <;> simp [theDistribution]

theorem scaleUniform_ne_zero {u : Vec K n} (hu : u ≠ fun _ => 1 / 2) :
    scaleUniform (fun _ => -1) (fun _ => 1) u ≠ fun _ => (0 : K) := by
  intro h
  apply hu
  funext i
  have := congrFun h i
  simp only [scaleUniform] at this
  linarith

theorem drawRows_ok {rng : SampleRng K n} (hrng : RngSpec rng) {d : String}
    (hd : d = "normal" ∨ d = "uniform") (k : Nat) :
    ∃ raw, drawRows d rng k = .ok raw ∧ raw.length = k ∧ ∀ v ∈ raw, v ≠ fun _ => 0 := by
  rcases hd with rfl | rfl
  · exact ⟨rng.normal k, by simp [drawRows], hrng.normal_length k, hrng.normal_nonzero k⟩
  · refine ⟨_, by simp only [drawRows]; rfl, ?_, ?_⟩
    · simp [hrng.uniform_length]
    · intro v hv
      obtain ⟨u, hu, rfl⟩ := List.mem_map.1 hv
      exact scaleUniform_ne_zero (hrng.uniform_nonzero k u hu)

theorem drawBlocks_ok {rng : SampleRng K n} (hrng : RngSpec rng) {d : String}
    (hd : d = "normal" ∨ d = "uniform") (m k : Nat) :
    ∃ blocks, drawBlocks d rng m k = .ok blocks ∧ blocks.length = m ∧
      ∀ b ∈ blocks, b.length = k ∧ ∀ v ∈ b, v ≠ fun _ => 0 := by
  rcases hd with rfl | rfl
  · exact ⟨rng.normalBlocks m k, by simp [drawBlocks], hrng.normalBlocks_length m k,
      hrng.normalBlocks_rows m k⟩
  · refine ⟨_, by simp only [drawBlocks]; rfl, ?_, ?_⟩
    · simp [hrng.uniformBlocks_length]
    · intro b hb
      obtain ⟨u, hu, rfl⟩ := List.mem_map.1 hb
      obtain ⟨h1, h2⟩ := hrng.uniformBlocks_rows m k u hu
      refine ⟨by simpa using h1, ?_⟩
      intro v hv
      obtain ⟨w, hw, rfl⟩ := List.mem_map.1 hv
      exact scaleUniform_ne_zero (h2 w hw).2

theorem mapped_rows_on_hull (cr : K → K) (r : Region K n) (hc : InBounds r.bounds r.center)
    (hr : 0 ≤ r.radius) (hcr : 0 ≤ cr r.radius) {rows : List (Row K n)} (hu : UnitRows r.shape rows)
    {k : Nat} (hk : rows.length = k) :
    RowsSatisfy (rows.map fun p => p.map (r.mapFromUnit cr)) k
      fun x => OnRegionHull cr r x ∧ InBounds r.bounds x := by
  refine ⟨by simpa using hk, ?_⟩
  intro p hp
  obtain ⟨q, hq, rfl⟩ := List.mem_map.1 hp
  obtain ⟨u, rfl, hu⟩ := hu q hq
  exact ⟨_, rfl, mapFromUnit_hull cr r hc hr hcr hu⟩

/-- C53 for the random hull sampler: exactly `n_points` points, all on the hull of the feasible region
and within the bounds. -/
theorem C53_hull (root cr : K → K) (hroot : SqrtSpec root) (r : Region K n)
    (hc : InBounds r.bounds r.center) (hr : 0 ≤ r.radius) (hcr : 0 ≤ cr r.radius)
    (rng : SampleRng K n) (hrng : RngSpec rng) (d : Option String) (hd : ValidDistribution d)
    (k : Nat) :
    ∃ rows, hullSampler root cr r k rng d = .ok rows ∧
      RowsSatisfy rows k fun x => OnRegionHull cr r x ∧ InBounds r.bounds x := by
  have hk : ¬ ((k : Int) < 0) := by omega
  obtain ⟨raw, h1, h2, h3⟩ := drawRows_ok hrng (theDistribution_valid hd r.shape) k
  refine ⟨_, by simp only [hullSampler, if_neg hk, Int.toNat_natCast, h1]; rfl, ?_⟩
  refine mapped_rows_on_hull cr r hc hr hcr (projectHull_unitRows hroot r.shape ?_) ?_
  · intro p hp
    obtain ⟨v, hv, rfl⟩ := List.mem_map.1 hp
    exact ⟨v, rfl, h3 v hv⟩
  · simp [projectHull, h2]

/-- What an optimizer returns is arbitrary as long as the shape is right and there is no zero row. -/
theorem npArgmax_spec {l : List (XVal K)} (hl : l ≠ []) (hfin : ∀ a ∈ l, ∃ v, a = .fin v) :
    ∃ i, npArgmax l = .ok i ∧ ∃ a, l[i]? = some a ∧ ∀ b ∈ l, b ≤ a := by
  have hnan : l.findIdx? XVal.isNan = none := by
    rw [List.findIdx?_eq_none_iff]
    intro a ha
    obtain ⟨v, rfl⟩ := hfin a ha
    rfl
  have hmax : ∃ a ∈ l, ∀ b ∈ l, b ≤ a := by
    clear hnan
    induction l with
    | nil => exact absurd rfl hl
    | cons a rest ih =>
      obtain ⟨v, rfl⟩ := hfin a List.mem_cons_self
      by_cases hrest : rest = []
      · subst hrest
        exact ⟨.fin v, by simp, by simp⟩
      · obtain ⟨m, hm, hm2⟩ := ih hrest fun b hb => hfin b (List.mem_cons_of_mem _ hb)
        obtain ⟨w, rfl⟩ := hfin m (List.mem_cons_of_mem _ hm)
        rcases le_total v w with h | h
        · refine ⟨.fin w, List.mem_cons_of_mem _ hm, ?_⟩
          intro b hb
          rcases List.mem_cons.1 hb with rfl | hb
          · simpa using h
          · exact hm2 b hb
        · refine ⟨.fin v, List.mem_cons_self, ?_⟩
          intro b hb
          rcases List.mem_cons.1 hb with rfl | hb
          · simp
          · obtain ⟨z, rfl⟩ := hfin b (List.mem_cons_of_mem _ hb)
            have := hm2 _ hb
            simp only [XVal.fin_le_fin] at this ⊢
            exact this.trans h
  refine ⟨l.findIdx fun a => l.all fun b => decide (b ≤ a), ?_, ?_⟩
  · simp [npArgmax, hl, hnan]
  · obtain ⟨a, ha, hb⟩ := hmax
    have hlt : l.findIdx (fun a => l.all fun b => decide (b ≤ a)) < l.length :=
      List.findIdx_lt_length_of_exists ⟨a, ha, by simpa using hb⟩
    refine ⟨_, List.getElem?_eq_getElem hlt, ?_⟩
    have := List.findIdx_getElem (w := hlt)
    simpa using this

/-- The start sample consists of unit rows and is best among the candidates. -/
theorem startSample_spec {root : K → K} (hroot : SqrtSpec root) (existing : Option (List (Vec K n)))
    (shape : Shape) {m : Nat} (hm : 1 ≤ m) {k : Nat} {cands : List (List (Row K n))}
    (hlen : cands.length = m) (hc : ∀ b ∈ cands, b.length = k ∧ UnitRows shape b) :
    ∃ x0, startSample root existing shape m cands = .ok x0 ∧ x0 ∈ cands ∧
      ∀ b ∈ cands, determinantOnHull root existing shape b ≤ determinantOnHull root existing shape x0 := by
  have hfin : ∀ b ∈ cands, ∃ v, determinantOnHull root existing shape b = .fin v := by
    intro b hb
    obtain ⟨us, rfl, hus⟩ := exists_unit_list (hc b hb).2
    exact ⟨_, determinantOnHull_unit hroot existing hus⟩
  by_cases h1 : m = 1
  · subst h1
    obtain ⟨b, rfl⟩ := List.length_eq_one_iff.1 hlen
    refine ⟨b, by simp [startSample], by simp, ?_⟩
    intro b' hb'
    obtain rfl := List.mem_singleton.1 hb'
    obtain ⟨v, hv⟩ := hfin b' hb'
    rw [hv]; simp
  · have hne : cands ≠ [] := by rintro rfl; simp at hlen; omega
    obtain ⟨i, hi, a, ha, hall⟩ := npArgmax_spec
      (l := cands.map (determinantOnHull root existing shape)) (by simpa using hne) (by
        intro a ha
        obtain ⟨b, hb, rfl⟩ := List.mem_map.1 ha
        exact hfin b hb)
    rw [List.getElem?_map] at ha
    obtain ⟨x0, hx0, rfl⟩ := Option.map_eq_some_iff.1 ha
    refine ⟨x0, ?_, List.mem_of_getElem? hx0, ?_⟩
    · simp only [startSample, if_neg h1, hi]
      rw [List.getD_eq_getElem?_getD, hx0]; rfl
    · intro b hb
      exact hall _ (List.mem_map.2 ⟨b, hb, rfl⟩)

/-- Everything about the optimal sampler in one statement: its result are the images of unit points
that are at least as good as each of the random candidates. -/
theorem optimalHullSampler_spec (root cr : K → K) (hroot : SqrtSpec root) (r : Region K n)
    (rng : SampleRng K n) (hrng : RngSpec rng) (o : OptimalSampler K n)
    (hd : ValidDistribution o.distribution) (hm : 1 ≤ o.nPointsRandomsearch)
    (hmin : MinimizeSpec o.minimize) (existing : Option (List (Vec K n))) (k : Nat) (hk : 1 ≤ k) :
    ∃ blocks us info,
      drawBlocks (theDistribution o.distribution r.shape) rng o.nPointsRandomsearch k = .ok blocks ∧
      blocks.length = o.nPointsRandomsearch ∧
      optimalHullSampler root cr r k rng o existing
        = .ok (us.map fun u => some (r.mapFromUnit cr u), some info) ∧
      us.length = k ∧ (∀ u ∈ us, OnUnitHull r.shape u) ∧
      ∀ b ∈ blocks, ∃ vs, projectHull root r.shape (b.map some) = vs.map some ∧ vs.length = k ∧
        dOptimality vs ((existingUnit root cr r (theCriterion o.criterion k) existing).getD [])
          ≤ dOptimality us ((existingUnit root cr r (theCriterion o.criterion k) existing).getD []) := by
  obtain ⟨blocks, hb1, hb2, hb3⟩ := drawBlocks_ok hrng (theDistribution_valid hd r.shape)
    o.nPointsRandomsearch k
  set eu := existingUnit root cr r (theCriterion o.criterion k) existing with heu
  set cands := blocks.map fun b => projectHull root r.shape (b.map some) with hcands
  have hcu : ∀ b ∈ cands, b.length = k ∧ UnitRows r.shape b := by
    intro b hb
    obtain ⟨b', hb', rfl⟩ := List.mem_map.1 hb
    refine ⟨by simp [projectHull, (hb3 b' hb').1], projectHull_unitRows hroot r.shape ?_⟩
    intro p hp
    obtain ⟨v, hv, rfl⟩ := List.mem_map.1 hp
    exact ⟨v, rfl, (hb3 b' hb').2 v hv⟩
  obtain ⟨x0, hx0, hx0m, hx0b⟩ := startSample_spec hroot eu r.shape hm
    (by rw [hcands, List.length_map, hb2]) hcu
  obtain ⟨hx0k, hx0u⟩ := hcu x0 hx0m
  obtain ⟨us0, hus0, hus0u⟩ := exists_unit_list hx0u
  -- the result of the optimizer, also on the unit hull after projection
  have hk0 : ¬ ((k : Int) ≤ 0) := by omega
  have hx0nz : ∀ p ∈ x0, ∃ x, p = some x ∧ x ≠ fun _ => 0 := by
    intro p hp
    obtain ⟨u, hu, hu2⟩ := hx0u p hp
    exact ⟨u, hu, onUnitHull_ne_zero hu2⟩
  -- the value that is kept
  have key : ∃ us, projectHull root r.shape (optimizeSample root cr r k o eu x0).2.optParams
        = us.map some ∧ us.length = k ∧ (∀ u ∈ us, OnUnitHull r.shape u) ∧
        dOptimality us0 (eu.getD []) ≤ dOptimality us (eu.getD []) := by
    simp only [optimizeSample]
    generalize hopt : optimizerResult root r.shape k o eu x0 = opt
    have hoptk : opt.length = k ∧ ∀ p ∈ opt, ∃ x, p = some x ∧ x ≠ fun _ => 0 := by
      rw [← hopt, optimizerResult]
      split
      · exact ⟨hx0k, hx0nz⟩
      · obtain ⟨h1, h2⟩ := hmin (sampleObjective root r.shape k o eu) x0 hx0nz
        exact ⟨h1.trans hx0k, h2⟩
    split
    · refine ⟨us0, ?_, ?_, hus0u, le_rfl⟩
      · rw [← hus0, projectHull_of_unitRows hroot hx0u]
      · rw [hus0] at hx0k; simpa using hx0k
    · rename_i hlt
      obtain ⟨us, hus, husu⟩ := exists_unit_list (projectHull_unitRows hroot r.shape hoptk.2)
      refine ⟨us, hus, ?_, husu, ?_⟩
      · have : (projectHull root r.shape opt).length = k := by simp [projectHull, hoptk.1]
        rw [hus] at this; simpa using this
      · rw [determinantOnHull_project hroot eu hoptk.2, hus, determinantOnHull_unit hroot eu husu,
          hus0, determinantOnHull_unit hroot eu hus0u, XVal.fin_le_fin, not_le] at hlt
        exact hlt.le
  obtain ⟨us, hus, husk, husu, hbest⟩ := key
  refine ⟨blocks, us, (optimizeSample root cr r k o eu x0).2, hb1, hb2, ?_, husk, husu, ?_⟩
  · have : (optimizeSample root cr r k o eu x0).1
        = us.map fun u => some (r.mapFromUnit cr u) := by
      have h : (optimizeSample root cr r k o eu x0).1 = (projectHull root r.shape
        (optimizeSample root cr r k o eu x0).2.optParams).map fun p => p.map (r.mapFromUnit cr) := rfl
      rw [h, hus, List.map_map]; rfl
    simp only [optimalHullSampler, if_neg hk0, Int.toNat_natCast, hb1]
    rw [← heu, ← hcands, hx0]
    simp only [this]
  · intro b hb
    have hbm : projectHull root r.shape (b.map some) ∈ cands := List.mem_map.2 ⟨b, hb, rfl⟩
    obtain ⟨hbk, hbu⟩ := hcu _ hbm
    obtain ⟨vs, hvs, hvsu⟩ := exists_unit_list hbu
    refine ⟨vs, hvs, ?_, ?_⟩
    · rw [hvs] at hbk; simpa using hbk
    · refine le_trans ?_ hbest
      have := hx0b _ hbm
      rw [hvs, determinantOnHull_unit hroot eu hvsu, hus0, determinantOnHull_unit hroot eu hus0u] at this
      simpa using this

/-- C53 for the optimal hull sampler: exactly `n_points` points, all on the hull of the feasible region
and within the bounds, for all draws, existing points, criteria and optimizers. Missing for the
full claim: an optimizer that returns a zero row (all optimizers are quantified over in the
claim), see `C53_violated_by_zero_row`. -/
theorem C53_optimal_partial (root cr : K → K) (hroot : SqrtSpec root) (r : Region K n)
    (hc : InBounds r.bounds r.center) (hr : 0 ≤ r.radius) (hcr : 0 ≤ cr r.radius)
    (rng : SampleRng K n) (hrng : RngSpec rng) (o : OptimalSampler K n)
    (hd : ValidDistribution o.distribution) (hm : 1 ≤ o.nPointsRandomsearch)
    (hmin : MinimizeSpec o.minimize) (existing : Option (List (Vec K n))) (k : Nat) :
    ∃ rows info, optimalHullSampler root cr r k rng o existing = .ok (rows, info) ∧
      RowsSatisfy rows k fun x => OnRegionHull cr r x ∧ InBounds r.bounds x := by
  rcases Nat.eq_zero_or_pos k with rfl | hk
  · exact ⟨[], none, by simp [optimalHullSampler], rfl, by simp⟩
  · obtain ⟨blocks, us, info, -, -, h1, h2, h3, -⟩ :=
      optimalHullSampler_spec root cr hroot r rng hrng o hd hm hmin existing k hk
    refine ⟨_, _, h1, by simpa using h2, ?_⟩
    intro p hp
    obtain ⟨u, hu, rfl⟩ := List.mem_map.1 hp
    exact ⟨_, rfl, mapFromUnit_hull cr r hc hr hcr (h3 u hu)⟩

omit [IsStrictOrderedRing K] in
/-- C53: no points are returned for `n_points <= 0` by the optimal sampler, whatever the draws and the
optimizer do. -/
theorem C53_optimal_none_for_nonpositive (root cr : K → K) (r : Region K n) (rng : SampleRng K n)
    (o : OptimalSampler K n) (existing : Option (List (Vec K n))) (k : Int) (hk : k ≤ 0) :
    optimalHullSampler root cr r k rng o existing = .ok ([], none) := by
  simp [optimalHullSampler, hk]

omit [IsStrictOrderedRing K] in
/-- The part of C53 on `n_points < 0` is false of the other two samplers: they raise. -/
theorem C53_violated_negative_raises (root radial cr : K → K) (r : Region K n) (rng : SampleRng K n)
    (d : Option String) (k : Int) (hk : k < 0) :
    interiorSampler root radial cr r k rng = .error .valueError ∧
    hullSampler root cr r k rng d = .error .valueError := by
  constructor
  · cases hs : r.shape <;> simp [interiorSampler, hs, ballSampler, boxSampler, hk]
  · simp [hullSampler, hk]

/-- C53 is false of the code for optimizers that return a row of zeros: the zero row is divided by its
norm. The criterion of the optimized sample is then NaN, the comparison with the start sample is
false and the NaN row is returned. For all regions, draws and existing points, two points or
more. -/
theorem C53_violated_by_zero_row (root cr : K → K) (hroot : SqrtSpec root) (r : Region K n)
    (o : OptimalSampler K n) (existing : Option (List (Vec K n)))
    (k : Int) (hk : 2 ≤ k) (x0 : List (Row K n))
    (hzero : ∀ f x, (some fun _ => 0) ∈ o.minimize f x) :
    none ∈ (optimizeSample root cr r k o existing x0).1 := by
  have hz : projectRow root r.shape (some fun _ : Fin n => (0 : K)) = none := by
    have : hullNorm root r.shape (fun _ : Fin n => (0 : K)) = 0 := by
      cases r.shape with
      | sphere =>
        show norm2 root (fun _ : Fin n => (0 : K)) = 0
        rw [norm2, dot_zero_left]
        obtain ⟨h1, h2⟩ := hroot 0 le_rfl
        exact mul_self_eq_zero.1 h2
      | cube =>
        show (vecMax fun _ : Fin n => |(0 : K)|) = 0
        unfold vecMax
        split
        · simp
        · rfl
    simp only [projectRow, this, if_true]
  have hall : ∀ l : List (Row K n), none ∈ l → allRows l = none := by
    intro l
    induction l with
    | nil => simp
    | cons p rest ih =>
      intro h
      cases p with
      | none => rfl
      | some x =>
        have : none ∈ rest := by simpa using h
        simp [allRows, ih this]
  have hres : optimizerResult root r.shape k o existing x0
      = o.minimize (sampleObjective root r.shape k o existing) x0 := by
    rw [optimizerResult, if_neg]
    rintro ⟨-, h⟩; omega
  have hmem : none ∈ projectHull root r.shape
      (o.minimize (sampleObjective root r.shape k o existing) x0) :=
    List.mem_map.2 ⟨_, hzero _ _, hz⟩
  have hnan : determinantOnHull root existing r.shape
      (o.minimize (sampleObjective root r.shape k o existing) x0) = .nan := by
    rw [determinantOnHull, hall _ hmem]
  simp only [optimizeSample, hres, hnan, XVal.nan_le, if_false]
  exact List.mem_map.2 ⟨none, hmem, rfl⟩

/-! ## C54 -/

omit [IsStrictOrderedRing K] in
theorem existingUnit_getD (root cr : K → K) (r : Region K n) (crit : SampleCriterion)
    (existing : Option (List (Vec K n))) :
    (existingUnit root cr r crit existing).getD []
      = relevantExisting root cr r crit (existing.getD []) := by
  cases existing with
  | none => simp [existingUnit, relevantExisting]
  | some xs =>
    cases crit with
    | determinant => simp [existingUnit, relevantExisting]
    | distance =>
      simp only [existingUnit, relevantExisting]
      split
      · rename_i h
        simp only [Option.getD_none, Option.getD_some, reduceCtorEq, false_or]
        exact h.symm
      · simp

/-- `map_to_unit` undoes `map_from_unit` on the unit hull. -/
theorem mapToUnit_mapFromUnit_hull (cr : K → K) (r : Region K n)
    (hnd : match r.shape with
      | .sphere => 0 < r.radius
      | .cube => ∀ i, r.cubeLower cr i < r.cubeUpper cr i)
    {u : Vec K n} (hu : OnUnitHull r.shape u) : r.mapToUnit cr (r.mapFromUnit cr u) = u := by
  cases hs : r.shape with
  | sphere => rw [hs] at hnd; exact (C29_sphere_bijection cr r hs hnd).2.1 u
  | cube =>
    rw [hs] at hnd hu
    exact (C29_cube_bijection cr r hs hnd).2.1 u fun i => abs_le.1 (hu.1 i)

/-- C54: the D-optimality of the returned sample (in the unit coordinates of the region and next to the
relevant existing points) is at least that of each of the random samples that were drawn, hence of
the one that the optimization started from. For all draws, existing points, criteria and optimizers
that return no zero row (missing: with a zero row the returned sample is NaN, see
`C53_violated_by_zero_row`); the region has positive size. -/
theorem C54_not_worse_than_any_draw_partial (root cr : K → K) (hroot : SqrtSpec root) (r : Region K n)
    (hnd : match r.shape with
      | .sphere => 0 < r.radius
      | .cube => ∀ i, r.cubeLower cr i < r.cubeUpper cr i)
    (rng : SampleRng K n) (hrng : RngSpec rng) (o : OptimalSampler K n)
    (hd : ValidDistribution o.distribution) (hm : 1 ≤ o.nPointsRandomsearch)
    (hmin : MinimizeSpec o.minimize) (existing : Option (List (Vec K n))) (k : Nat) (hk : 1 ≤ k) :
    ∃ (blocks : List (List (Vec K n))) (xs : List (Vec K n)) (info : SampleInfo K n),
      drawBlocks (theDistribution o.distribution r.shape) rng o.nPointsRandomsearch k = .ok blocks ∧
      blocks.length = o.nPointsRandomsearch ∧
      optimalHullSampler root cr r k rng o existing = .ok (xs.map some, some info) ∧
      ∀ b ∈ blocks, ∃ vs, projectHull root r.shape (b.map some) = vs.map some ∧
        dOptimality vs (relevantExisting root cr r (theCriterion o.criterion k) (existing.getD []))
          ≤ dOptimality (xs.map (r.mapToUnit cr))
            (relevantExisting root cr r (theCriterion o.criterion k) (existing.getD [])) := by
  obtain ⟨blocks, us, info, h1, h2, h3, h4, h5, h6⟩ :=
    optimalHullSampler_spec root cr hroot r rng hrng o hd hm hmin existing k hk
  refine ⟨blocks, us.map (r.mapFromUnit cr), info, h1, h2, ?_, ?_⟩
  · rw [h3, List.map_map]; rfl
  · have hback : (us.map (r.mapFromUnit cr)).map (r.mapToUnit cr) = us := by
      rw [List.map_map]
      refine (List.map_congr_left (g := id) fun u hu => ?_).trans (List.map_id _)
      exact mapToUnit_mapFromUnit_hull cr r hnd (h5 u hu)
    intro b hb
    obtain ⟨vs, hv1, -, hv3⟩ := h6 b hb
    refine ⟨vs, hv1, ?_⟩
    rw [hback, ← existingUnit_getD]
    exact hv3

/-! ## C78: the information about the optimization -/

omit [IsStrictOrderedRing K] in
/-- The part of C78 that holds: the reported start values belong to the start sample; the reported
final criterion belongs to the final sample whenever the optimization improved the criterion. -/
theorem C78_info_partial (root cr : K → K) (r : Region K n) (k : Int) (o : OptimalSampler K n)
    (existing : Option (List (Vec K n))) (x0 : List (Row K n)) :
    let info := (optimizeSample root cr r k o existing x0).2
    info.startParams = x0 ∧
    info.startFekete = determinantOnHull root existing r.shape info.startParams ∧
    (¬ info.optFekete ≤ info.startFekete →
      info.optFekete = determinantOnHull root existing r.shape info.optParams) ∧
    (optimizeSample root cr r k o existing x0).1
      = (projectHull root r.shape info.optParams).map fun p => p.map (r.mapFromUnit cr) := by
  refine ⟨rfl, rfl, ?_, rfl⟩
  simp only [optimizeSample]
  intro h
  rw [if_neg h]

omit [IsStrictOrderedRing K] in
/-- C78 is false of the code: when the optimizer makes the sample strictly worse, the start sample is
returned but the reported criterion is the one of the discarded sample. -/
theorem C78_violated_when_start_is_kept (root cr : K → K) (r : Region K n) (k : Int)
    (o : OptimalSampler K n) (existing : Option (List (Vec K n))) (x0 : List (Row K n)) (a b : K)
    (ha : determinantOnHull root existing r.shape x0 = .fin a)
    (hb : determinantOnHull root existing r.shape (optimizerResult root r.shape k o existing x0)
      = .fin b) (hab : b < a) :
    let info := (optimizeSample root cr r k o existing x0).2
    info.optParams = x0 ∧ info.optFekete = .fin b ∧
      determinantOnHull root existing r.shape info.optParams = .fin a := by
  simp only [optimizeSample, ha, hb, XVal.fin_le_fin, if_pos hab.le, true_and]

/-! ## C77: the pairs of points that the distance criterion looks at -/

/-- Squared Euclidean distance. -/
def sqDist (x y : Vec K n) : K := ∑ i, (x i - y i) ^ 2

omit [LinearOrder K] [IsStrictOrderedRing K] in
theorem pdistSq_length (l : List (Vec K n)) : (pdistSq l).length = l.length * (l.length - 1) / 2 := by
  induction l with
  | nil => simp [pdistSq]
  | cons x rest ih =>
    simp only [pdistSq, List.length_append, List.length_map, ih, List.length_cons, Nat.add_sub_cancel]
    rcases Nat.eq_zero_or_pos rest.length with h | h
    · simp [h]
    · obtain ⟨m, hm⟩ := Nat.exists_eq_add_of_le h
      rw [hm]
      have e1 : (1 + m) * (1 + m - 1) = (1 + m) * m := by rw [Nat.add_sub_cancel_left]
      have e2 : (1 + m + 1) * (1 + m) = (1 + m) * 2 + (1 + m) * m := by ring
      rw [e1, e2, Nat.add_comm ((1 + m) * 2), Nat.add_mul_div_right _ _ (by norm_num), Nat.add_comm]

omit [LinearOrder K] [IsStrictOrderedRing K] in
/-- The pairs come in the order: first all pairs with a member of the first part, then the pairs of the
second part. -/
theorem pdistSq_append (p e : List (Vec K n)) :
    ∃ front, pdistSq (p ++ e) = front ++ pdistSq e ∧
      front.Perm (pdistSq p ++ (p.product e).map fun q => sqDist q.1 q.2) := by
  induction p with
  | nil => exact ⟨[], rfl, by simp [pdistSq, List.product]⟩
  | cons x rest ih =>
    obtain ⟨front, h1, h2⟩ := ih
    refine ⟨((rest ++ e).map fun y => sqDist x y) ++ front, ?_, ?_⟩
    · simp only [List.cons_append, pdistSq, h1, List.append_assoc]
      rfl
    · have hprod : ((x :: rest).product e).map (fun q => sqDist q.1 q.2)
          = (e.map fun y => sqDist x y) ++ (rest.product e).map fun q => sqDist q.1 q.2 := by
        simp [List.product, List.flatMap_cons, Function.comp_def]
      rw [hprod]
      simp only [pdistSq, List.map_append]
      have : (rest.map fun y => ∑ i, (x i - y i) ^ 2) = rest.map fun y => sqDist x y := rfl
      rw [this]
      refine (List.Perm.append_left _ h2).trans ?_
      simp only [List.append_assoc]
      refine List.Perm.append_left _ ?_
      simp only [← List.append_assoc]
      exact List.Perm.append_right _ List.perm_append_comm

omit [LinearOrder K] [IsStrictOrderedRing K] in
/-- C77: the distance criterion is computed from exactly the pairs with at least one new point: all
pairs of new points and all pairs of a new and an existing point, each once, and no pair of existing
points. -/
theorem C77_pairs_with_a_new_point (p e : List (Vec K n)) :
    (hullDistances (some e) p).Perm
      (pdistSq p ++ (p.product e).map fun q => sqDist q.1 q.2) ∧
    hullDistances none p = pdistSq p := by
  refine ⟨?_, rfl⟩
  obtain ⟨front, h1, h2⟩ := pdistSq_append p e
  have hl := pdistSq_length e
  simp only [hullDistances]
  split
  · rename_i h0
    have : pdistSq e = [] := List.eq_nil_of_length_eq_zero (hl.trans h0)
    rw [h1, this, List.append_nil]
    exact h2
  · rw [h1, List.length_append, hl, Nat.add_sub_cancel, List.take_left']
    · exact h2
    · rfl

/-- Contract of `scipy.special.logsumexp` over the reals. -/
def LogsumexpSpec (lse : List ℝ → ℝ) : Prop := ∀ l, lse l = Real.log (l.map Real.exp).sum

/-- C77: the value of the distance criterion is a soft minimum of these squared distances. It
is at most `hardness` times the smallest one and below it by at most the logarithm of the number of
pairs, so after division by the hardness it tends to the minimum. -/
theorem C77_soft_minimum (root : ℝ → ℝ) (hroot : SqrtSpec root) (lse : List ℝ → ℝ)
    (hlse : LogsumexpSpec lse) (hardness : ℝ) (hh : 0 < hardness)
    (existing : Option (List (Vec ℝ n))) (shape : Shape) (us : List (Vec ℝ n))
    (hus : ∀ u ∈ us, OnUnitHull shape u) (d : ℝ) (hd : d ∈ hullDistances existing us)
    (hmin : ∀ d' ∈ hullDistances existing us, d ≤ d') :
    ∃ v, distanceOnHull root lse hardness existing shape (us.map some) = .fin v ∧
      v / hardness ≤ d ∧
      d - Real.log (hullDistances existing us).length / hardness ≤ v / hardness := by
  have hu : UnitRows shape (us.map some) := by
    intro p hp
    obtain ⟨u, hu, rfl⟩ := List.mem_map.1 hp
    exact ⟨u, rfl, hus u hu⟩
  set ds := hullDistances existing us with hds
  refine ⟨-(lse (ds.map fun d => -hardness * d)), ?_, ?_, ?_⟩
  · unfold distanceOnHull
    rw [projectHull_of_unitRows hroot hu, allRows_map_some]
  all_goals rw [hlse, List.map_map]
  · -- the sum is at least its term for `d`
    have hle : Real.exp (-hardness * d) ≤ (ds.map (Real.exp ∘ fun d => -hardness * d)).sum :=
      List.single_le_sum (by
        intro x hx
        obtain ⟨y, -, rfl⟩ := List.mem_map.1 hx
        exact (Real.exp_pos _).le) _ (List.mem_map.2 ⟨d, hd, rfl⟩)
    have := Real.log_le_log (Real.exp_pos _) hle
    rw [Real.log_exp] at this
    rw [div_le_iff₀ hh]
    linarith
  · have hle : (ds.map (Real.exp ∘ fun d => -hardness * d)).sum
        ≤ ds.length * Real.exp (-hardness * d) := by
      have : ∀ l : List ℝ, (∀ y ∈ l, d ≤ y) →
          (l.map (Real.exp ∘ fun d => -hardness * d)).sum ≤ l.length * Real.exp (-hardness * d) := by
        intro l
        induction l with
        | nil => simp
        | cons a rest ih =>
          intro h
          have h1 := ih fun y hy => h y (List.mem_cons_of_mem _ hy)
          have h2 : Real.exp (-hardness * a) ≤ Real.exp (-hardness * d) :=
            Real.exp_le_exp.2 (by nlinarith [h a List.mem_cons_self])
          simp only [List.map_cons, List.sum_cons, List.length_cons, Function.comp, Nat.cast_add,
            Nat.cast_one] at h1 ⊢
          linarith
      exact this ds hmin
    have hlen : (0 : ℝ) < ds.length := by
      have := List.length_pos_of_mem hd
      exact_mod_cast this
    have hpos : 0 < (ds.map (Real.exp ∘ fun d => -hardness * d)).sum :=
      lt_of_lt_of_le (Real.exp_pos (-hardness * d)) (List.single_le_sum (by
        intro x hx
        obtain ⟨y, -, rfl⟩ := List.mem_map.1 hx
        exact (Real.exp_pos _).le) _ (List.mem_map.2 ⟨d, hd, rfl⟩))
    have := Real.log_le_log hpos hle
    rw [Real.log_mul hlen.ne' (Real.exp_pos _).ne', Real.log_exp] at this
    rw [le_div_iff₀ hh, sub_mul, div_mul_cancel₀ _ hh.ne']
    linarith

/-- The contract of the radial transformation follows from `0 ≤ gammainc ≤ 1`. -/
theorem radialSpec_of_gammainc (n : Nat) (gammainc : ℝ → ℝ → ℝ)
    (hg : ∀ a b, 0 ≤ gammainc a b ∧ gammainc a b ≤ 1) :
    RadialSpec fun v : ℝ => gammainc (n / 2) (v ^ 2 / 2) ^ (1 / (n : ℝ)) := by
  intro v
  obtain ⟨h1, h2⟩ := hg (n / 2) (v ^ 2 / 2)
  exact ⟨Real.rpow_nonneg h1 _, Real.rpow_le_one h1 h2 (by positivity)⟩

/-! ## The built in samplers as components of the main loop -/

/-- A built in sampler as component of the main loop (tranquilo.py:123-135). `rng` says what the
generator draws in the given iteration. Rows of NaN and errors do not occur under the contracts of the
theorems below; the function drops them. -/
def builtInSample (root radial cr : K → K) (s : BuiltInSampler K n)
    (rng : Nat → Nat → Log K n → SampleRng K n) (it round : Nat) : Sampler K n :=
  fun log region k existing =>
    let rows := match s with
      | .randomInterior => interiorSampler root radial cr region k (rng it round log)
      | .randomHull d => hullSampler root cr region k (rng it round log) d
      | .optimalHull o =>
        (optimalHullSampler root cr region k (rng it round log) o (some existing)).map Prod.fst
    match rows with
    | .ok rows => rows.filterMap id
    | .error _ => []

/-- C53 for the sampler component of the main loop: in every call with a feasible center it gives
exactly the requested number of points, all in the feasible region and within the bounds. -/
theorem C53_component (root radial cr : K → K) (hroot : SqrtSpec root) (hrad : RadialSpec radial)
    (hcr : ∀ a, 0 ≤ a → 0 ≤ cr a) (s : BuiltInSampler K n) (hs : s.Valid)
    (rng : Nat → Nat → Log K n → SampleRng K n) (hrng : ∀ it round log, RngSpec (rng it round log))
    (it round : Nat) (log : Log K n) (region : Region K n) (hr : 0 ≤ region.radius)
    (hc : InBounds region.bounds region.center) (k : Nat) (existing : List (Vec K n)) :
    let xs := builtInSample root radial cr s rng it round log region k existing
    xs.length = k ∧ ∀ x ∈ xs, InFeasibleRegion cr region x ∧ InBounds region.bounds x := by
  have hrows : ∀ (rows : List (Row K n)) (P : Vec K n → Prop), RowsSatisfy rows k P →
      (rows.filterMap id).length = k ∧ ∀ x ∈ rows.filterMap id, P x := by
    rintro rows P ⟨h1, h2⟩
    obtain ⟨us, rfl, hus⟩ := exists_some_list h2
    have : (us.map some).filterMap id = us := by simp [List.filterMap_map]
    rw [this]
    exact ⟨by simpa using h1, hus⟩
  cases s with
  | randomInterior =>
    obtain ⟨rows, h1, h2⟩ := C53_interior root radial cr hroot hrad region hc hr (hcr _ hr)
      (rng it round log) (hrng _ _ _) k
    have := hrows rows _ h2
    simp only [builtInSample, h1]
    exact this
  | randomHull d =>
    obtain ⟨rows, h1, h2⟩ := C53_hull root cr hroot region hc hr (hcr _ hr)
      (rng it round log) (hrng _ _ _) d hs k
    have := hrows rows _ h2
    simp only [builtInSample, h1]
    exact ⟨this.1, fun x hx => ⟨(this.2 x hx).1.1, (this.2 x hx).2⟩⟩
  | optimalHull o =>
    obtain ⟨rows, info, h1, h2⟩ := C53_optimal_partial root cr hroot region hc hr (hcr _ hr)
      (rng it round log) (hrng _ _ _) o hs.1 hs.2.1 hs.2.2 (some existing) k
    have := hrows rows _ h2
    simp only [builtInSample, h1, Except.map]
    exact ⟨this.1, fun x hx => ⟨(this.2 x hx).1.1, (this.2 x hx).2⟩⟩

/-- Hence components with a built in sampler satisfy the assumption of C68. -/
theorem builtInSample_feasible {VM SM : Type} (root radial cr : K → K) (hroot : SqrtSpec root)
    (hrad : RadialSpec radial) (hcr : ∀ a, 0 ≤ a → 0 ≤ cr a) (s : BuiltInSampler K n) (hs : s.Valid)
    (rng : Nat → Nat → Log K n → SampleRng K n) (hrng : ∀ it round log, RngSpec (rng it round log))
    (comp : Components K n VM SM) (hcomp : comp.sample = builtInSample root radial cr s rng) :
    SamplerFeasible comp := by
  intro it round log region k xs hr hc y hy
  rw [hcomp] at hy
  exact ((C53_component root radial cr hroot hrad hcr s hs rng hrng it round log region hr hc k xs).2
    y hy).2

/-! ## Concrete cases -/

/-- Draws without zero rows exist. -/
noncomputable def constantRng : SampleRng ℝ 2 where
  normal k := List.replicate k fun i => if i = 0 then 1 else -2
  uniform01 k := List.replicate k fun i => if i = 0 then 0 else 1 / 3
  normalBlocks m k := List.replicate m (List.replicate k fun i => if i = 0 then 1 else -2)
  uniformBlocks01 m k := List.replicate m (List.replicate k fun i => if i = 0 then 0 else 1 / 3)

theorem constantRng_spec : RngSpec constantRng := by
  have h1 : (fun i : Fin 2 => if i = 0 then (1 : ℝ) else -2) ≠ fun _ => 0 := by
    intro h; have := congrFun h 0; simp at this
  have h2 : (fun i : Fin 2 => if i = 0 then (0 : ℝ) else 1 / 3) ≠ fun _ => 1 / 2 := by
    intro h; have := congrFun h 0; norm_num at this
  have h3 : ∀ i : Fin 2, 0 ≤ (if i = 0 then (0 : ℝ) else 1 / 3) ∧
      (if i = 0 then (0 : ℝ) else 1 / 3) < 1 := by
    intro i; split <;> norm_num
  refine ⟨?_, ?_, ?_, ?_, ?_, ?_, ?_, ?_, ?_⟩
  · intro k; simp [constantRng]
  · intro k v hv; rw [List.eq_of_mem_replicate hv]; exact h1
  · intro k; simp [constantRng]
  · intro k u hu; rw [List.eq_of_mem_replicate hu]; exact h3
  · intro k u hu; rw [List.eq_of_mem_replicate hu]; exact h2
  · intro m k; simp [constantRng]
  · intro m k b hb
    rw [List.eq_of_mem_replicate hb]
    exact ⟨by simp, fun v hv => by rw [List.eq_of_mem_replicate hv]; exact h1⟩
  · intro m k; simp [constantRng]
  · intro m k b hb
    rw [List.eq_of_mem_replicate hb]
    exact ⟨by simp, fun v hv => by rw [List.eq_of_mem_replicate hv]; exact ⟨h3, h2⟩⟩

theorem sqrtSpec_realSqrt : SqrtSpec Real.sqrt := fun a ha =>
  ⟨Real.sqrt_nonneg a, Real.mul_self_sqrt ha⟩

/-- The hypotheses of the theorems on C53 and C54 are met: a region cut by a bound, three points, five
candidates, an optimizer that reverses the order of the points. -/
example :
    let r : Region ℝ 2 := ⟨fun _ => 0, 1, ⟨fun i => if i = 0 then some (-1 / 2) else none, fun _ => none⟩⟩
    let o : OptimalSampler ℝ 2 := ⟨none, 1, none, 5, fun _ => 0, fun _ x => x.reverse⟩
    ∃ rows info, optimalHullSampler Real.sqrt id r 3 constantRng o none = .ok (rows, info) ∧
      RowsSatisfy rows 3 fun x => OnRegionHull id r x ∧ InBounds r.bounds x := by
  intro r o
  refine C53_optimal_partial Real.sqrt id sqrtSpec_realSqrt r ?_ zero_le_one zero_le_one constantRng
    constantRng_spec o (Or.inl rfl) (by norm_num [o]) ?_ none 3
  · intro i
    refine ⟨fun l hl => ?_, fun u hu => by simp [r] at hu⟩
    have hl : (if i = 0 then some (-1 / 2 : ℝ) else none) = some l := hl
    split at hl
    · obtain rfl := Option.some.inj hl; norm_num [r]
    · simp at hl
  · intro f x0 h
    exact ⟨by simp [o], fun p hp => h p (by simpa [o] using hp)⟩

/-- C78 on a concrete case (a box, two points): the start sample consists of the two unit vectors with
criterion 1/4, the optimizer returns the same point twice with criterion 0. -/
example :
    let r : Region ℚ 2 := ⟨fun _ => 0, 1, ⟨fun _ => some (-1), fun _ => some 1⟩⟩
    let e0 : Vec ℚ 2 := ![1, 0]
    let e1 : Vec ℚ 2 := ![0, 1]
    let o : OptimalSampler ℚ 2 := ⟨none, 1, none, 1, fun _ => 0, fun _ _ => [some e0, some e0]⟩
    determinantOnHull id none r.shape [some e0, some e1] = .fin (1 / 4) ∧
    determinantOnHull id none r.shape
      (optimizerResult id r.shape 2 o none [some e0, some e1]) = .fin 0 := by
  decide +kernel

/-- C77 on a concrete case: two new points and two existing ones give five of the six pairs. -/
example : hullDistances (some [![0, 3], ![4, 0]]) ([![0, 0], ![1, 0]] : List (Vec ℚ 2))
    = [1, 9, 16, 10, 9] := by
  decide +kernel

end Tranquilo
