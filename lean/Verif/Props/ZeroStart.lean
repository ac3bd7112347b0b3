import Verif.Props.CallUses

/-!
# C70, C98, C106: flat trust regions

If the bounds fix a parameter, the first trust region is flat. The default of the initial radius is zero if the start
vector is zero (options.py:29-31); the first trust region is then a point. In both cases unit coordinates are `0 / 0`, and
the first fit raises.
-/

namespace Tranquilo

variable {K O : Type} [Field K] [LinearOrder K] [FloorRing K] {n m : Nat}

omit [FloorRing K] in
/-- A region of radius zero has the effective radius zero. -/
theorem effectiveRadius_of_radius_zero [IsStrictOrderedRing K] (cr : K → K) (h0 : cr 0 = 0) (r : Region K n)
    (hr : r.radius = 0) (hc : InBounds r.bounds r.center) (i : Fin n) : r.effectiveRadius cr i = 0 := by
  unfold Region.effectiveRadius
  cases hs : r.shape with
  | sphere => exact hr
  | cube =>
    have hcr : r.cubeRadius cr = 0 := by
      unfold Region.cubeRadius
      rw [hs, hr]
      exact h0
    have hl : r.cubeLower cr i = r.center i := by
      unfold Region.cubeLower
      rw [hcr, sub_zero]
      cases hb : r.bounds.lower i with
      | none => rfl
      | some l => exact max_eq_left ((hc i).1 l hb)
    have hu : r.cubeUpper cr i = r.center i := by
      unfold Region.cubeUpper
      rw [hcr, add_zero]
      cases hb : r.bounds.upper i with
      | none => rfl
      | some u => exact min_eq_left ((hc i).2 u hb)
    change (r.cubeUpper cr i - r.cubeLower cr i) / 2 = 0
    rw [hl, hu, sub_self, zero_div]

/-- The built in samplers return also if the radius is zero. -/
theorem builtinSampleR_flat [IsStrictOrderedRing K] {b : BuiltinSettings K n m} (hroot : SqrtSpec b.root)
    (hrad : RadialSpec b.radial) (hs : b.sampler.Valid)
    (hrng : ∀ it round log, RngSpec (b.rng it round log)) (it round : Nat) (log : Log K n)
    (region : Region K n) (hr : 0 ≤ region.radius) (hcr : 0 ≤ b.cubeRadius region.radius) (hc : InBounds region.bounds region.center) (k : Nat)
    (xs : List (Vec K n)) : ∃ ys, builtinSampleR b it round log region k xs = .ok ys := by
  have hrows : ∀ (rows : List (Row K n)) (P : Vec K n → Prop), RowsSatisfy rows k P →
      ∃ ys, allRows rows = some ys := by
    rintro rows P ⟨h1, h2⟩
    obtain ⟨us, rfl, hus⟩ := exists_some_list h2
    exact ⟨us, allRows_map_some _⟩
  unfold builtinSampleR
  cases hcase : b.sampler with
  | randomInterior =>
    obtain ⟨rows, h1, h2⟩ := C53_interior b.root b.radial b.cubeRadius hroot hrad region hc hr
      hcr (b.rng it round log) (hrng _ _ _) k
    obtain ⟨ys, h3⟩ := hrows _ _ h2
    exact ⟨ys, by simp only [h1, bind, Except.bind, h3]; rfl⟩
  | randomHull d =>
    rw [hcase] at hs
    obtain ⟨rows, h1, h2⟩ := C53_hull b.root b.cubeRadius hroot region hc hr
      hcr (b.rng it round log) (hrng _ _ _) d hs k
    obtain ⟨ys, h3⟩ := hrows _ _ h2
    exact ⟨ys, by simp only [h1, bind, Except.bind, h3]; rfl⟩
  | optimalHull o =>
    rw [hcase] at hs
    obtain ⟨rows, info, h1, h2⟩ := C53_optimal_partial b.root b.cubeRadius hroot region hc hr
      hcr (b.rng it round log) (hrng _ _ _) o hs.1 hs.2.1 hs.2.2 (some xs) k
    obtain ⟨ys, h3⟩ := hrows _ _ h2
    exact ⟨ys, by simp only [h1, bind, Except.bind, h3, Except.map]; rfl⟩

/-- A run raises a `LinAlgError` in the first fit if the first region is flat in one direction. -/
theorem tranquiloR_flat_region [IsStrictOrderedRing K] {c : Config K} {b : BuiltinSettings K n m}
    {bounds : Bounds K n} (hit : 0 < c.maxIter) (hroot : SqrtSpec b.root)
    (hradial : RadialSpec b.radial) (hs : b.sampler.Valid)
    (hrng : ∀ it round log, RngSpec (b.rng it round log))
    (hf : b.filter = .discardAll ∨ b.filter = .keepAll ∨ ∃ q, 0 ≤ q ∧ b.filter = .dropExcess q)
    (hagg : AggregatorFits b.aggregator m b.modelType) (x : Vec K n) (hx : InBounds bounds x)
    (radius : K) (hr : 0 ≤ radius) (hcr : 0 ≤ b.cubeRadius radius)
    (hflat : ∃ i, ({ center := x, radius := radius, bounds := bounds } : Region K n).effectiveRadius b.cubeRadius i = 0) :
    tranquiloR c (builtinComponents b) x radius bounds = .error .linAlgError := by
  obtain ⟨k, hk⟩ : ∃ k, c.maxIter = k + 1 := ⟨c.maxIter - 1, by omega⟩
  set region : Region K n := { center := x, radius := radius, bounds := bounds } with hregion
  obtain ⟨sm, hsm, -⟩ := aggregate_ok hagg
    (builtinInit b (startLogR c b.oracle x) region) (fun _ => rfl) (by
      intro q hq k i j
      injection hq with hq
      rw [← hq])
  have hfil : ∀ (state : LoopState K n (VectorModel K n m) (ScalarModel K n)) target (l : List (Vec K n × Nat)),
      ∃ r, builtinFilter b state target (l.map Prod.fst) (l.map Prod.snd) = .ok r := by
    intro state target l
    unfold builtinFilter
    rcases hf with hf | hf | ⟨q, hq, hf⟩ <;> rw [hf]
    · exact ⟨_, rfl⟩
    · exact ⟨_, rfl⟩
    · obtain ⟨xs', is', h1, -⟩ := C25_drop_excess b.nrm state.x state.index state.trustregion.radius
        (l.map Prod.fst) (l.map Prod.snd) (by simp) target q
        (Int.floor_nonneg.2 (mul_nonneg (Nat.cast_nonneg _) hq))
      exact ⟨_, h1⟩
  have hfit : ∀ log is old, builtinFit b log is region old = .error .linAlgError := by
    intro log is old
    unfold builtinFit builtinFitTemplate
    rw [if_pos hflat]
  have hstart : ∃ r, startRunR c (builtinComponents b) x radius bounds = .ok r ∧
      r.state.trustregion = region := by
    unfold startRunR
    dsimp only
    change ∃ r, (aggregate b.aggregator (builtinInit b (startLogR c b.oracle x) region) >>= _) = _ ∧ _
    rw [hsm]
    exact ⟨_, rfl, rfl⟩
  obtain ⟨r, h1, h2⟩ := hstart
  unfold tranquiloR
  rw [h1, hk]
  change (iterationR c (builtinComponents b) 0 r >>= _) = _
  have hb : buildPhaseR c (builtinComponents b) 0 r.state r.log r.nEvals = .error .linAlgError := by
    unfold buildPhaseR
    obtain ⟨l, e1, e2, -⟩ := Log.getXs_eq_map r.log (r.log.indicesInRegion b.nrm r.state.trustregion.center
      (c.searchRadiusFactor * r.state.trustregion.radius)) (fun i hi => mem_indicesInRegion hi)
    obtain ⟨q, hq⟩ := hfil r.state c.targetSize l
    rw [← e1, ← e2] at hq
    obtain ⟨ys, hys⟩ := builtinSampleR_flat hroot hradial hs hrng 0 1 r.log region hr hcr hx
      (nextMultiple (K := K) (c.targetSize - q.1.length) c.batchSize).toNat q.1
    rw [← h2] at hys
    dsimp only
    change (builtinFilter b r.state c.targetSize _ _ >>= _) = _
    dsimp only [builtinComponents] at hq ⊢
    rw [hq]
    change (builtinSampleR b 0 1 r.log r.state.trustregion _ q.1 >>= _) = _
    rw [hys]
    change (buildModelR (builtinComponents b) r.state _ _ _ >>= _) = _
    unfold buildModelR
    change ((builtinFit b _ _ r.state.trustregion _ >>= _) >>= _) = _
    rw [h2, hfit]
    rfl
  unfold iterationR
  rw [hb]
  rfl

/-- C98: a run with the initial radius zero raises a `LinAlgError` in the first fit. -/
theorem C98_violated_by_zero_radius [IsStrictOrderedRing K] {c : Config K} {b : BuiltinSettings K n m}
    {bounds : Bounds K n} (hn : 0 < n) (hit : 0 < c.maxIter) (hroot : SqrtSpec b.root)
    (hradial : RadialSpec b.radial) (h0 : b.cubeRadius 0 = 0) (hs : b.sampler.Valid)
    (hrng : ∀ it round log, RngSpec (b.rng it round log))
    (hf : b.filter = .discardAll ∨ b.filter = .keepAll ∨ ∃ q, 0 ≤ q ∧ b.filter = .dropExcess q)
    (hagg : AggregatorFits b.aggregator m b.modelType) (x : Vec K n) (hx : InBounds bounds x) :
    tranquiloR c (builtinComponents b) x 0 bounds = .error .linAlgError :=
  tranquiloR_flat_region hit hroot hradial hs hrng hf hagg x hx 0 le_rfl h0.ge
    ⟨⟨0, hn⟩, effectiveRadius_of_radius_zero b.cubeRadius h0 _ rfl hx _⟩

/-- A call with built in components and valid options enters the main loop. -/
theorem call_enters_loop [IsStrictOrderedRing K] (env : PyEnv K O) (ext : Externals K O n m)
    (hext : ext.Spec) (hn : 0 < n) (o : CallOptions K) (ho : o.Valid)
    (hcl : o.sampleFilter ≠ some "clustering") (hscalar : o.functype = "scalar" → m = 1) (x : Vec K n)
    (bounds : Bounds K n) :
    ∃ c b rad, tranquiloCall env ext o.arguments x bounds =
        (tranquiloR c (builtinComponents b) x rad bounds).map some ∧
      (∀ i, |x i| / 10 ≤ rad) ∧ (∃ i, rad = |x i| / 10) ∧ c.maxIter = o.maxIter.toNat ∧ b.root = ext.root ∧
      b.radial = ext.radial ∧ b.cubeRadius = ext.cubeRadius ∧ b.rng = ext.rng ∧ b.sampler.Valid ∧
      (b.filter = .discardAll ∨ b.filter = .keepAll ∨ ∃ q, 0 ≤ q ∧ b.filter = .dropExcess q) ∧
      AggregatorFits b.aggregator m b.modelType := by
  have hxs : List.ofFn x ≠ [] := by
    intro h
    have := congrArg List.length h
    simp only [List.length_ofFn, List.length_nil] at this
    omega
  obtain ⟨rad, hrad, hrad1, hrad2⟩ := defaultInitialRadius_ok (List.ofFn x) hxs
  have hrad0 : ∃ i, rad = |x i| / 10 := by
    obtain ⟨v, hv, rfl⟩ := hrad2
    obtain ⟨i, rfl⟩ := (List.mem_ofFn' x v).1 hv
    exact ⟨i, rfl⟩
  obtain ⟨start, hst, hst1, hst2⟩ := step_atStart (O := O) env o ho
  obtain ⟨per, hper⟩ := step_perPoint (O := O) env o ho
  obtain ⟨q, hq, hq0⟩ := step_factor (O := O) env o ho
  obtain ⟨batch, hb, hb1⟩ := step_batch (O := O) env o ho
  obtain ⟨size, hsize⟩ := step_size (O := O) env o (defaultModelType o.functype) (List.ofFn x) o.noisy batch
  obtain ⟨fit, hfit, hfit'⟩ := step_fitter (O := O) (R := Option (Piece K n)) o ho (defaultModelType o.functype)
    (defaultModelType_cases o.functype) size (List.ofFn x)
  obtain ⟨res, hres⟩ := step_residualize (O := O) (R := Option (Piece K n)) o fit
  obtain ⟨filt, hfilt, hfilt'⟩ := step_filter (O := O) (R := Option (Piece K n)) o ho batch
  obtain ⟨dec, hdec, hdec1, hdec2, hdec3⟩ := step_decider (O := O) (R := Option (Piece K n)) o ho
  obtain ⟨ft', agg, mt, hft', hagg, hmt, haggfits⟩ : ∃ f g mt, Functype.parse o.functype = .ok f ∧
      defaultAggregator o.functype (defaultModelType o.functype) = .ok g ∧
      modelTypeOf (defaultModelType o.functype) = some mt ∧ AggregatorFits g m mt := by
    rcases ho.functype with h | h | h
    · rw [h]
      exact ⟨_, _, _, rfl, rfl, rfl, Or.inl ⟨rfl, hscalar h⟩⟩
    · rw [h]
      exact ⟨_, _, _, rfl, rfl, rfl, Or.inr (Or.inr (Or.inl rfl))⟩
    · rw [h]
      exact ⟨_, _, _, rfl, rfl, rfl, Or.inr (Or.inr (Or.inr rfl))⟩
  obtain ⟨c1, S, hc1, hS, hSv⟩ := sampler_piece env ext hext.minimize o.sampler ho.sampler
  obtain ⟨c2, d2, hc2, hd2⟩ := sphere_piece env ext o.sphereSubsolver ho.sphere
  obtain ⟨c3, d3, hc3, hd3⟩ := cube_piece env ext o.cubeSubsolver ho.cube
  obtain ⟨c4, F, hc4, hF, hFv⟩ := filter_piece env ext filt hfilt'
  obtain ⟨c5, T, hc5, hT⟩ := fitter_piece env ext fit hfit'
  obtain ⟨c6, nd, nk, hc6, hV, hnd, hnk⟩ := variance_piece env ext
  obtain ⟨c7, D, hc7, hD, hD1, hD2, hD3, hD4⟩ := decider_piece env ext dec hdec1
  have hseed : checkSeed (.int o.seed : PyVal K O) = .ok () := by
    unfold checkSeed
    exact if_pos (Int.natCast_nonneg _)
  have hrun : ∃ p, processArguments env (pieces ext) { o.arguments with x := List.ofFn x } = .ok p ∧
      p.ftolAbs = .fin o.ftolAbs ∧ p.gtolAbs = .fin o.gtolAbs ∧ p.xtolAbs = .fin o.xtolAbs ∧
      p.ftolRel = .fin o.ftolRel ∧ p.gtolRel = .fin o.gtolRel ∧ p.xtolRel = .fin o.xtolRel ∧
      p.radiusOptions = radiusDefaults rad ∧ p.noiseAdaptationOptions = noiseAdaptationDefaults ∧
      p.stagnationOptions = stagnationDefaults p.noisy batch ∧ p.batchSize = (batch : ℤ) ∧
      p.targetSampleSize = .int size ∧ p.searchRadiusFactor = .fin q ∧ p.nEvalsPerPoint = .int per ∧
      p.nEvalsAtStart = (start : ℤ) ∧ p.acceptCandidate = c7 ∧ p.samplePoints = c1 ∧ p.filterPoints = c4 ∧
      p.rawFitter = c5 ∧ p.sphereSolver = c2 ∧ p.cubeSolver = c3 ∧ p.estimateVariance = c6 ∧
      p.modelType = defaultModelType o.functype ∧ p.noisy = o.noisy ∧ p.maxIter = o.maxIter ∧
      p.aggregator = agg ∧ p.retryWithFallback = true := by
    refine ⟨{ noisy := o.noisy, nCores := o.nCores, disableConvergence := o.disableConvergence
              ftolAbs := .fin o.ftolAbs, gtolAbs := .fin o.gtolAbs, xtolAbs := .fin o.xtolAbs
              ftolRel := .fin o.ftolRel, gtolRel := .fin o.gtolRel, xtolRel := .fin o.xtolRel
              maxIter := o.maxIter, maxEval := o.maxEval, radiusOptions := radiusDefaults rad, batchSize := batch
              targetSampleSize := .int size, stagnationOptions := stagnationDefaults o.noisy batch
              noiseAdaptationOptions := noiseAdaptationDefaults, searchRadiusFactor := .fin q
              nEvalsPerPoint := .int per, nEvalsAtStart := start, functype := ft'
              modelType := defaultModelType o.functype, fitterName := .str fit, residualize := res
              aggregator := agg, samplePoints := c1, sphereSolver := c2, cubeSolver := c3
              retryWithFallback := true, filterPoints := c4, rawFitter := c5, estimateVariance := c6
              acceptCandidate := c7 }, ?_, rfl, rfl, rfl, rfl, rfl, rfl, rfl, rfl, rfl, rfl, rfl, rfl, rfl, rfl,
      rfl, rfl, rfl, rfl, rfl, rfl, rfl, rfl, rfl, rfl, rfl, rfl⟩
    have e1 : ∀ d : Dict (PyVal K O), updateOptionBundle env d none = .ok d := fun _ => rfl
    simp only [processArguments, CallOptions.arguments, pyGt, toFloat, toInt, toBool, hseed, bind, Except.bind,
      e1, hper, hst, hq, hb, hrad, processModelType, hsize, hfit, hres, hft', checkBatchEvaluator,
      hc1, hc2, hc3, hfilt, hc4, hc5, checkInfinityHandler, hagg, hc6, if_true, true_or]
    erw [hdec, hc7]
    rfl
  obtain ⟨p, hp, p1, p2, p3, p4, p5, p6, p7, p8, p9, p10, p11, p12, p13, p14, p15, p16, p17, p18, p19, p20, p21,
    p22, p23, p24, p25, p26⟩ := hrun
  rw [← p15] at hD
  rw [← p16] at hS
  rw [← p17] at hF
  rw [← p18] at hT
  rw [← p19] at hd2
  rw [← p20] at hd3
  rw [← p21] at hV
  rw [← p22] at hmt
  obtain ⟨c, hc, k1, k2, -, k4, k5, k6, k7, k8, k9, k10⟩ :=
    callConfig_some p1 p2 p3 p4 p5 p6 p7 p8 p9 p10 p11 p12 p13 p14 hD
  have hset := callSettings_some (ext := ext) hS hF hT hd2 hd3 hV hmt p8
  obtain ⟨b, hb', hbe⟩ : ∃ b, callSettings ext p = some b ∧ _ = b := ⟨_, hset, rfl⟩
  have hcall : tranquiloCall env ext o.arguments x bounds =
      (tranquiloR c (builtinComponents b) x rad bounds).map some := by
    have hnum : numOf p.radiusOptions "initial_radius" = some rad := by rw [p7]; rfl
    unfold tranquiloCall
    rw [hp]
    change (match callConfig p, callSettings ext p, numOf p.radiusOptions "initial_radius" with
      | some c, some b, some radius => (tranquiloR c (builtinComponents b) x radius bounds).map some
      | _, _, _ => .ok none) = _
    rw [hc, hb', hnum]
  have hp' : numOf p.radiusOptions "initial_radius" = some rad := by rw [p7]; rfl
  have hu := call_uses env ext o.arguments x p hp c hc b hb' rad hp'
  have hfilter : b.filter = .discardAll ∨ b.filter = .keepAll ∨ ∃ q, 0 ≤ q ∧ b.filter = .dropExcess q := by
    have hv : b.filter.Valid := by rw [← hbe]; exact hFv
    obtain ⟨s, hs1, hs2⟩ : ∃ s, FilterIs env
        (o.arguments (O := O) (R := Option (Piece K n))).sampleFilterOptions s b.filter ∧ s ≠ "clustering" := by
      cases hsf : o.sampleFilter with
      | none =>
        refine ⟨_, hu.filter _ (by change requestedName (o.sampleFilter.map _) _ = _; rw [hsf]; rfl), ?_⟩
        split <;> decide
      | some s =>
        refine ⟨s, hu.filter s (by change requestedName (o.sampleFilter.map _) _ = _; rw [hsf]; rfl), ?_⟩
        rintro rfl
        exact hcl hsf
    generalize b.filter = F' at hs1 hv
    cases hs1 with
    | discardAll => exact Or.inl rfl
    | keepAll => exact Or.inr (Or.inl rfl)
    | clustering => exact absurd rfl hs2
    | dropExcess q => exact Or.inr (Or.inr ⟨q, hv, rfl⟩)
  subst hbe
  exact ⟨c, _, rad, hcall, fun i => hrad1 (x i) (by simp), hrad0, by rw [k2, p24], rfl, rfl, rfl, rfl, hSv, hfilter,
    by change AggregatorFits p.aggregator m mt; rw [p25]; exact haggfits⟩

/-- C106 without the condition on the start vector is false: a call with built in components and valid options that
starts at zero raises a `LinAlgError`, for every criterion, with and without bounds and noise. Only the filter
`clustering` is not covered. -/
theorem C106_violated_from_zero [IsStrictOrderedRing K] (env : PyEnv K O) (ext : Externals K O n m)
    (hext : ext.Spec) (h0 : ext.cubeRadius 0 = 0) (hn : 0 < n) (o : CallOptions K) (ho : o.Valid)
    (hcl : o.sampleFilter ≠ some "clustering") (hit : 0 < o.maxIter) (hscalar : o.functype = "scalar" → m = 1)
    (bounds : Bounds K n) (hx : InBounds bounds fun _ => 0) :
    tranquiloCall env ext o.arguments (fun _ => 0) bounds = .error .linAlgError := by
  obtain ⟨c, b, rad, h1, -, ⟨i, hi⟩, h4, h5, h6, h7, h8, h9, h10, h11⟩ :=
    call_enters_loop env ext hext hn o ho hcl hscalar (fun _ => 0) bounds
  have hrad : rad = 0 := by rw [hi, abs_zero, zero_div]
  subst hrad
  rw [h1, C98_violated_by_zero_radius hn (by rw [h4]; omega) (h5 ▸ hext.root) (h6 ▸ hext.radial) (h7 ▸ h0) h9
    (h8 ▸ hext.rng) h10 h11 _ hx]
  rfl

/-- C106 without the condition on the bounds is false: a call with built in components and valid options in which the
bounds fix a parameter raises a `LinAlgError`, for every criterion, with and without noise. -/
theorem C106_violated_by_fixed_parameter [IsStrictOrderedRing K] (env : PyEnv K O) (ext : Externals K O n m)
    (hext : ext.Spec) (o : CallOptions K) (ho : o.Valid) (hcl : o.sampleFilter ≠ some "clustering")
    (hit : 0 < o.maxIter) (hscalar : o.functype = "scalar" → m = 1) (x : Vec K n) (hx0 : ∃ i, x i ≠ 0)
    (bounds : Bounds K n) (hx : InBounds bounds x) (i : Fin n) (v : K) (hl : bounds.lower i = some v)
    (hu : bounds.upper i = some v) : tranquiloCall env ext o.arguments x bounds = .error .linAlgError := by
  obtain ⟨c, b, rad, h1, h2, -, h4, h5, h6, h7, h8, h9, h10, h11⟩ :=
    call_enters_loop env ext hext (Nat.zero_lt_of_lt i.2) o ho hcl hscalar x bounds
  have hrad : 0 < rad := by
    obtain ⟨j, hj⟩ := hx0
    have := h2 j
    have := abs_pos.2 hj
    linarith
  have hcr : 0 < b.cubeRadius rad := h7 ▸ hext.cubeRadius rad hrad
  have hc : x i = v := le_antisymm ((hx i).2 v hu) ((hx i).1 v hl)
  obtain ⟨e1, e2⟩ := C29_violated_for_fixed_parameter b.cubeRadius
    { center := x, radius := rad, bounds := bounds } i v hl hu hc hrad.le hcr.le
  rw [h1, tranquiloR_flat_region (by rw [h4]; omega) (h5 ▸ hext.root) (h6 ▸ hext.radial) h9 (h8 ▸ hext.rng) h10 h11
    x hx rad hrad.le hcr.le ⟨i, by unfold Region.effectiveRadius; rw [e1]; dsimp only; rw [e2, zero_div]⟩]
  rfl

/-- C70, on the level of a call: with the defaults, each of the three function types raises at the start vector zero,
although a call that starts anywhere else returns (`C106_default_call_returns`). -/
theorem C70_violated_call_from_zero [IsStrictOrderedRing K] (env : PyEnv K O) (ext : Externals K O n m)
    (hext : ext.Spec) (h0 : ext.cubeRadius 0 = 0) (hn : 0 < n) (ft : String)
    (hft : ft = "scalar" ∨ ft = "likelihood" ∨ ft = "least_squares") (hscalar : ft = "scalar" → m = 1) :
    tranquiloCall env ext { functype := ft, x := [] } (fun _ => 0) ⟨fun _ => none, fun _ => none⟩ =
      .error .linAlgError :=
  C106_violated_from_zero env ext hext h0 hn { functype := ft }
    { functype := hft, cores := le_refl 1, batch := fun _ h => (by cases h), factor := fun _ h => (by cases h)
      perPoint := fun _ h => (by cases h), atStart := fun _ h => (by cases h), sampler := Or.inr (Or.inr rfl)
      filter := fun _ h => (by cases h), fitter := fun _ h => (by cases h), cube := Or.inr rfl
      sphere := Or.inr (Or.inl rfl), decider := fun _ h => (by cases h) } (fun h => by cases h) (by norm_num) hscalar
    ⟨fun _ => none, fun _ => none⟩ fun i => ⟨fun l h => (by cases h), fun u h => (by cases h)⟩

/-- The hypotheses hold: two parameters, two residuals. -/
example (env : PyEnv ℝ Unit) :
    tranquiloCall env plainExternals { functype := "least_squares", x := [] } (fun _ => 0)
      ⟨fun _ => none, fun _ => none⟩ = .error .linAlgError :=
  C70_violated_call_from_zero env plainExternals plainExternals_spec rfl (by norm_num) _ (Or.inr (Or.inr rfl))
    (fun h => absurd h (by decide))

/-- The hypotheses hold: two parameters, the second is fixed at one. -/
example (env : PyEnv ℝ Unit) :
    tranquiloCall env plainExternals ({ functype := "least_squares" } : CallOptions ℝ).arguments (fun _ => 1)
      ⟨fun i => if i = 1 then some 1 else none, fun i => if i = 1 then some 1 else none⟩ = .error .linAlgError := by
  refine C106_violated_by_fixed_parameter env plainExternals plainExternals_spec { functype := "least_squares" }
    { functype := Or.inr (Or.inr rfl), cores := le_refl 1, batch := fun _ h => (by cases h)
      factor := fun _ h => (by cases h), perPoint := fun _ h => (by cases h), atStart := fun _ h => (by cases h)
      sampler := Or.inr (Or.inr rfl), filter := fun _ h => (by cases h), fitter := fun _ h => (by cases h)
      cube := Or.inr rfl, sphere := Or.inr (Or.inl rfl), decider := fun _ h => (by cases h) } (fun h => by cases h)
    (by norm_num) (fun h => absurd h (by decide)) (fun _ => 1) ⟨0, one_ne_zero⟩ _ (fun i => ⟨fun l h => ?_, fun u h => ?_⟩)
    1 1 rfl rfl
  · dsimp only at h
    split at h
    · exact (Option.some.inj h).ge
    · cases h
  · dsimp only at h
    split at h
    · exact (Option.some.inj h).le
    · cases h

end Tranquilo
