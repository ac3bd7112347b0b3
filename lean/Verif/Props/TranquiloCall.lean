import Verif.Spec.CallOptions
import Verif.Props.ProcessArgs
import Verif.Props.BuiltinRun
import Verif.Props.Fallback

/-!
# C106: calls with built in components
-/

namespace Tranquilo

variable {K O : Type} [Field K] [LinearOrder K] [FloorRing K] {n m : Nat}

/-! ## The components -/

theorem sampler_piece (env : PyEnv K O) (ext : Externals K O n m)
    (hmin : ∀ algorithm options, MinimizeSpec (ext.minimize algorithm options)) (s : String)
    (hs : s = "random_interior" ∨ s = "random_hull" ∨ s = "optimal_hull") :
    ∃ c S, getSampler env (pieces ext "sampler") (.str s) none = .ok c ∧
      (calledPiece c samplerCallKeys).bind Piece.sampler? = some S ∧ S.Valid := by
  rcases hs with rfl | rfl | rfl
  · exact ⟨_, _, rfl, rfl, trivial⟩
  · exact ⟨_, _, rfl, rfl, Or.inl rfl⟩
  · exact ⟨_, _, rfl, rfl, Or.inl rfl, le_refl _, hmin _ _⟩

theorem filter_piece [IsStrictOrderedRing K] (env : PyEnv K O) (ext : Externals K O n m) (s : String)
    (hs : s = "discard_all" ∨ s = "keep_all" ∨ s = "clustering" ∨ s = "drop_excess") :
    ∃ c S, getSampleFilter env (pieces ext "sample_filter") (.str s) none = .ok c ∧
      (calledPiece c filterCallKeys).bind Piece.filter? = some S ∧ S.Valid := by
  rcases hs with rfl | rfl | rfl | rfl
  · exact ⟨_, _, rfl, rfl, trivial⟩
  · exact ⟨_, _, rfl, rfl, trivial⟩
  · exact ⟨_, _, rfl, rfl, (by positivity : (0 : K) ≤ 1 / 10 ^ 10), rfl⟩
  · exact ⟨_, _, rfl, rfl, (by norm_num : (0 : K) ≤ ((3 : ℤ) : K))⟩

theorem fitter_piece (env : PyEnv K O) (ext : Externals K O n m) (s : String)
    (hs : s = "ols" ∨ s = "ridge" ∨ s = "powell" ∨ s = "tranquilo") :
    ∃ c S, getRawFitter env (pieces ext "fitter") (.str s) none = .ok c ∧
      (calledPiece c fitterCallKeys).bind Piece.fitter? = some S := by
  rcases hs with rfl | rfl | rfl | rfl
  · exact ⟨_, _, rfl, rfl⟩
  · exact ⟨_, _, rfl, rfl⟩
  · exact ⟨_, _, rfl, rfl⟩
  · exact ⟨_, _, rfl, rfl⟩

theorem sphere_piece (env : PyEnv K O) (ext : Externals K O n m) (s : String)
    (hs : s = "gqtpar" ∨ s = "gqtpar_fast" ∨ s = "fallback_reparametrized" ∨
      s = "fallback_inscribed_cube" ∨ s = "fallback_norm_constraint") :
    ∃ c d, getSphereSolver env (pieces ext "sphere_solver") (.str s) none = .ok c ∧
      (calledPiece c subsolverCallKeys).bind Piece.solver? = some (ext.solver s d) := by
  rcases hs with rfl | rfl | rfl | rfl | rfl
  · exact ⟨_, _, rfl, rfl⟩
  · exact ⟨_, _, rfl, rfl⟩
  · exact ⟨_, _, rfl, rfl⟩
  · exact ⟨_, _, rfl, rfl⟩
  · exact ⟨_, _, rfl, rfl⟩

set_option maxHeartbeats 4000000 in
theorem cube_piece (env : PyEnv K O) (ext : Externals K O n m) (s : String)
    (hs : s = "bntr" ∨ s = "bntr_fast") :
    ∃ c d, getCubeSolver env (pieces ext "cube_solver") (.str s) none = .ok c ∧
      (calledPiece c subsolverCallKeys).bind Piece.solver? = some (ext.solver s d) := by
  rcases hs with rfl | rfl
  · exact ⟨_, _, rfl, rfl⟩
  · exact ⟨_, _, rfl, rfl⟩

theorem variance_piece [IsStrictOrderedRing K] (env : PyEnv K O) (ext : Externals K O n m) :
    ∃ c f k, getVarianceEstimator env (pieces ext "variance estimator") (.str "classic") none = .ok c ∧
      (calledPiece c varianceCallKeys).bind Piece.variance? = some (f, k) ∧ (0 : K) ≤ f ∧ 2 ≤ k :=
  ⟨_, _, _, rfl, rfl, by norm_num, by norm_num⟩

set_option maxHeartbeats 4000000 in
theorem decider_piece (env : PyEnv K O) (ext : Externals K O n m) (s : String)
    (hs : s = "classic" ∨ s = "naive_noisy" ∨ s = "noisy") :
    ∃ c D, getAcceptanceDecider env (pieces ext "acceptance_decider") (.str s) none = .ok c ∧
      (calledPiece c acceptanceCallKeys).bind Piece.decider? = some D ∧
      (∀ mi rf, D ≠ .lineSearch mi rf) ∧
      (∀ mi zc zp a b, D = .noisy mi zc zp a b → s = "noisy") ∧
      (s = "naive_noisy" → ∃ mi, D = .naiveNoisy mi) ∧
      (s = "noisy" → ∃ mi zc zp a b, D = .noisy mi zc zp a b ∧ 2 ≤ a ∧ a ≤ b) := by
  rcases hs with rfl | rfl | rfl
  · exact ⟨_, _, rfl, rfl, by simp, by simp, by simp, by simp⟩
  · exact ⟨_, _, rfl, rfl, by simp, by simp, fun _ => ⟨_, rfl⟩, by simp⟩
  · exact ⟨_, _, rfl, rfl, by simp, by simp, by simp, fun _ => ⟨_, _, _, _, _, rfl, by decide, by decide⟩⟩

/-! ## The single steps -/

theorem step_atStart (env : PyEnv K O) (o : CallOptions K) (h : o.Valid) :
    ∃ k : ℕ, processNEvalsAtStart env (pyNat o.nEvalsAtStart : PyVal K O) o.noisy = .ok (k : ℤ) ∧ 1 ≤ k ∧
      (o.noisy = true → 2 ≤ k) := by
  cases hk : o.nEvalsAtStart with
  | none =>
    cases hn : o.noisy with
    | false => exact ⟨1, rfl, le_refl _, by simp⟩
    | true => exact ⟨5, rfl, by norm_num, fun _ => by norm_num⟩
  | some k =>
    obtain ⟨h1, h2⟩ := h.atStart k hk
    refine ⟨k, ?_, h1, h2⟩
    change (if (k : ℤ) < 1 then Except.error Err.valueError else Except.ok (k : ℤ)) = _
    exact if_neg (by omega)

theorem step_perPoint (env : PyEnv K O) (o : CallOptions K) (h : o.Valid) :
    ∃ k : ℤ, processNEvalsPerPoint env (pyNat o.nEvalsPerPoint : PyVal K O) o.noisy
      (noiseAdaptationDefaults : Dict (PyVal K O)) = .ok (.int k) := by
  cases hk : o.nEvalsPerPoint with
  | none =>
    cases hn : o.noisy with
    | false => exact ⟨1, rfl⟩
    | true => exact ⟨1, rfl⟩
  | some k =>
    have h1 := h.perPoint k hk
    refine ⟨k, ?_⟩
    change (if decide ((k : ℤ) < 1) = true then Except.error Err.valueError else
      Except.ok (PyVal.int (k : ℤ))) = _
    rw [if_neg (by simp; omega)]

theorem step_factor [IsStrictOrderedRing K] (env : PyEnv K O) (o : CallOptions K) (h : o.Valid) :
    ∃ q : K, processSearchRadiusFactor env (pyNum o.searchRadiusFactor : PyVal K O) o.functype = .ok (.fin q) ∧
      0 < q := by
  cases hq : o.searchRadiusFactor with
  | none =>
    obtain ⟨q, h1, h2⟩ := default_factor_ok env o.functype
    exact ⟨q, h1, by linarith⟩
  | some q =>
    have h1 := h.factor q hq
    refine ⟨q, ?_, h1⟩
    change (if (XVal.fin q : XVal K) ≤ .fin 0 then Except.error Err.valueError else
      Except.ok (XVal.fin q)) = _
    exact if_neg (not_le.2 h1)

theorem step_batch (env : PyEnv K O) (o : CallOptions K) (h : o.Valid) :
    ∃ k : ℕ, processBatchSize env (pyNat o.batchSize : PyVal K O) (o.nCores : ℤ) = .ok (k : ℤ) ∧ 1 ≤ k := by
  cases hb : o.batchSize with
  | none => exact ⟨o.nCores, rfl, h.cores⟩
  | some b =>
    have h1 := h.batch b hb
    refine ⟨b, ?_, h.cores.trans h1⟩
    change (if decide ((b : ℤ) < o.nCores) = true then Except.error Err.valueError else
      Except.ok (b : ℤ)) = _
    rw [if_neg (by simp; omega)]

theorem step_size (env : PyEnv K O) (o : CallOptions K) (modelType : String) (x : List K) (noisy : Bool)
    (batch : ℤ) :
    ∃ k : ℕ, processSampleSize env (.value (pyNat o.sampleSize) : SampleSizeArg K O) modelType x noisy batch =
      .ok (.int k) := by
  cases hs : o.sampleSize with
  | none =>
    have : ∃ k : ℕ, defaultSampleSize modelType x.length noisy batch = k := by
      unfold defaultSampleSize
      split
      · exact ⟨2 * x.length + 1, by push_cast; ring⟩
      · split
        · exact ⟨x.length + 1, by push_cast; ring⟩
        · exact ⟨x.length + 2, by push_cast; ring⟩
    obtain ⟨k, hk⟩ := this
    exact ⟨k, congrArg (fun i => Except.ok (PyVal.int i)) hk⟩
  | some k => exact ⟨k, rfl⟩

theorem step_fitter {R : Type} (o : CallOptions K) (h : o.Valid) (modelType : String)
    (hmt : modelType = "linear" ∨ modelType = "quadratic") (size : ℤ) (x : List K) :
    ∃ s, processModelFitter (O := O) (R := R) (o.modelFitter.map .str) modelType (.int size) x = .ok (.str s) ∧
      (s = "ols" ∨ s = "ridge" ∨ s = "powell" ∨ s = "tranquilo") := by
  cases hf : o.modelFitter with
  | none =>
    obtain ⟨s, h1, h2⟩ := defaultModelFitter_int (K := K) (O := O) modelType hmt size x
    refine ⟨s, ?_, ?_⟩
    · unfold processModelFitter
      simp only [Option.map_none, h1, Except.map]
    · rcases h2 with h2 | h2 <;> simp [h2]
  | some s => exact ⟨s, rfl, h.fitter s hf⟩

theorem step_residualize {R : Type} (o : CallOptions K) (s : String) :
    ∃ b, processResidualize (R := R) (pyBool o.residualize : PyVal K O) (.str s) = .ok b := by
  cases o.residualize with
  | none => exact ⟨_, rfl⟩
  | some b => exact ⟨b, rfl⟩

theorem step_filter {R : Type} (o : CallOptions K) (h : o.Valid) (batch : ℤ) :
    ∃ s, (o.sampleFilter.map (NameOrFunc.str (V := PyVal K O) (R := R))).getD
        (.str (if 1 < batch then "drop_excess" else "keep_all")) = .str s ∧
      (s = "discard_all" ∨ s = "keep_all" ∨ s = "clustering" ∨ s = "drop_excess") := by
  cases hf : o.sampleFilter with
  | none =>
    refine ⟨_, rfl, ?_⟩
    split <;> simp
  | some s => exact ⟨s, rfl, h.filter s hf⟩

theorem step_decider {R : Type} (o : CallOptions K) (h : o.Valid) :
    ∃ s, (o.acceptanceDecider.map (NameOrFunc.str (V := PyVal K O) (R := R))).getD
        (.str (if o.noisy then "noisy" else "classic")) = .str s ∧
      (s = "classic" ∨ s = "naive_noisy" ∨ s = "noisy") ∧ (s = "noisy" → o.noisy = true) ∧
      (o.noisy = true → s = "naive_noisy" ∨ s = "noisy") := by
  cases hf : o.acceptanceDecider with
  | none =>
    refine ⟨_, rfl, ?_⟩
    cases o.noisy <;> simp
  | some s =>
    refine ⟨s, rfl, ?_⟩
    rcases h.decider s hf with ⟨rfl, h1⟩ | rfl | ⟨rfl, h1⟩
    · simp [h1]
    · simp
    · simp [h1]

/-! ## Reading the processed arguments -/

theorem callConfig_some {p : ProcessedArguments K O (Option (Piece K n))} {f1 f2 f3 f4 f5 f6 q r : K} {k : ℤ}
    {size batch start : ℕ} {D : DeciderChoice K}
    (h1 : p.ftolAbs = .fin f1) (h2 : p.gtolAbs = .fin f2) (h3 : p.xtolAbs = .fin f3)
    (h4 : p.ftolRel = .fin f4) (h5 : p.gtolRel = .fin f5) (h6 : p.xtolRel = .fin f6)
    (hrad : p.radiusOptions = radiusDefaults r) (hnoise : p.noiseAdaptationOptions = noiseAdaptationDefaults)
    (hstag : p.stagnationOptions = stagnationDefaults p.noisy batch) (hb : p.batchSize = (batch : ℤ))
    (hsize : p.targetSampleSize = .int size) (hq : p.searchRadiusFactor = .fin q)
    (hper : p.nEvalsPerPoint = .int k) (hstart : p.nEvalsAtStart = (start : ℤ))
    (hD : (calledPiece p.acceptCandidate acceptanceCallKeys).bind Piece.decider? = some D) :
    ∃ c, callConfig p = some c ∧ c.noisy = p.noisy ∧ c.maxIter = p.maxIter.toNat ∧
      c.maxEval = p.maxEval.toNat ∧ c.batchSize = batch ∧
      c.searchRadiusFactor = q ∧ c.radius.minRadius = 1 / 10 ^ 6 ∧ c.radius.maxRadius = 10 ^ 6 ∧
      c.radius.maxRadiusToStepRatio = .pinf ∧ c.nEvalsAtStart = start ∧ c.decider = D := by
  obtain ⟨conv, e0⟩ : ∃ v, callConv p = some v := by
    refine ⟨{ disable := p.disableConvergence, ftolAbs := f1, gtolAbs := f2, xtolAbs := f3
              ftolRel := f4, gtolRel := f5, xtolRel := f6 }, ?_⟩
    unfold callConv
    rw [h1, h2, h3, h4, h5, h6]
    rfl
  obtain ⟨rad, e1, e1'⟩ : ∃ rad, callRadius (radiusDefaults r : Dict (PyVal K O)) = some rad ∧
      rad.minRadius = 1 / 10 ^ 6 ∧ rad.maxRadius = 10 ^ 6 ∧ rad.maxRadiusToStepRatio = .pinf :=
    ⟨_, rfl, rfl, rfl, rfl⟩
  obtain ⟨noise, e2⟩ : ∃ v, callNoise (noiseAdaptationDefaults : Dict (PyVal K O)) = some v := ⟨_, rfl⟩
  obtain ⟨stag, e3⟩ : ∃ v, callStagnation (stagnationDefaults p.noisy batch : Dict (PyVal K O)) = some v :=
    ⟨_, rfl⟩
  have es : ∀ j : ℕ, sizeOf? (j : ℤ) = some j := fun j => if_pos (Int.natCast_nonneg j)
  refine ⟨{ noisy := p.noisy, conv := conv, maxIter := p.maxIter.toNat, maxEval := p.maxEval.toNat, radius := rad
            noise := noise, batchSize := batch, targetSize := size, stagnation := stag
            searchRadiusFactor := q, nEvalsPerPoint := k, nEvalsAtStart := start, decider := D },
    ?_, rfl, rfl, rfl, rfl, rfl, e1'.1, e1'.2.1, e1'.2.2, rfl, rfl⟩
  · unfold callConfig
    have et : (PyVal.int (size : ℤ) : PyVal K O).int?.bind sizeOf? = some size := es size
    rw [e0, hrad, hnoise, hstag, e1, e2, e3, hb, es, hsize, hq, hper, hstart, es, hD, et]
    rfl

theorem callSettings_some {ext : Externals K O n m} {p : ProcessedArguments K O (Option (Piece K n))}
    {S : BuiltInSampler K n} {F : FilterChoice K} {T : FitterChoice K} {sphere cube : SubSolver K n} {f : K} {k : ℤ}
    {mt : ModelType}
    (h1 : (calledPiece p.samplePoints samplerCallKeys).bind Piece.sampler? = some S)
    (h2 : (calledPiece p.filterPoints filterCallKeys).bind Piece.filter? = some F)
    (h3 : (calledPiece p.rawFitter fitterCallKeys).bind Piece.fitter? = some T)
    (h4 : (calledPiece p.sphereSolver subsolverCallKeys).bind Piece.solver? = some sphere)
    (h5 : (calledPiece p.cubeSolver subsolverCallKeys).bind Piece.solver? = some cube)
    (h6 : (calledPiece p.estimateVariance varianceCallKeys).bind Piece.variance? = some (f, k))
    (h7 : modelTypeOf p.modelType = some mt)
    (h8 : p.noiseAdaptationOptions = noiseAdaptationDefaults) :
    callSettings ext p = some
      { nrm := ext.nrm, root := ext.root, radial := ext.radial, cubeRadius := ext.cubeRadius
        dimRoot := ext.dimRoot, lstsq := ext.lstsq, qr := ext.qr, oracle := ext.oracle, data := ext.data
        start := ext.start, filter := F, sampler := S, rng := ext.rng, fitter := T, modelType := mt
        residualize := p.residualize, aggregator := p.aggregator, sphere := sphere, cube := cube
        fallbackSphere := inscribedCubeSolver ext.root ext.scipy
        fallbackCube := fallbackCubeSolver ext.scipy
        retry := p.retryWithFallback, fvecs := ext.fvecs, noiseDistance := f
        noiseMinEvals := k, covOfOne := ext.covOfOne, draws := ext.draws, nDraws := 100
        ignoreCorrelation := true } := by
  unfold callSettings
  rw [h1, h2, h3, h4, h5, h6, h7, h8]
  rfl

/-! ## The call -/

/-- C106: a call with built in components whose options are valid and whose start vector is not zero returns. The
result and all evaluated points are within the bounds. If there are bounds, the solver for balls must stay in the ball;
apart from that the solvers may do anything. -/
theorem C106_call_returns_partial [IsStrictOrderedRing K] (env : PyEnv K O) (ext : Externals K O n m)
    (hext : ext.Spec) (o : CallOptions K) (ho : o.Valid) (hscalar : o.functype = "scalar" → m = 1)
    (hnoisy : o.noisy = true → ext.FiniteData) (x : Vec K n) (hx0 : ∃ i, x i ≠ 0) (bounds : Bounds K n)
    (hball : (∀ y, InBounds bounds y) ∨ ext.StaysInBall o.sphereSubsolver) (hx : InBounds bounds x)
    (hsides : ∀ i l u, bounds.lower i = some l → bounds.upper i = some u → l < u) :
    ∃ r, tranquiloCall env ext o.arguments x bounds = .ok (some r) ∧ InBounds bounds r.state.x ∧
      (∀ y ∈ r.log.xs, InBounds bounds y) ∧ r.log.xs[r.state.index]? = some r.state.x ∧
      r.states.length ≤ o.maxIter.toNat + 1 := by
  have hxs : List.ofFn x ≠ [] := by
    obtain ⟨i, -⟩ := hx0
    intro h
    have := congrArg List.length h
    simp only [List.length_ofFn, List.length_nil] at this
    exact (this ▸ i).elim0
  obtain ⟨rad, hrad, hrad1, -⟩ := defaultInitialRadius_ok (List.ofFn x) hxs
  have hradpos : 0 < rad := by
    obtain ⟨i, hi⟩ := hx0
    have h1 := hrad1 (x i) (by simp)
    have h2 := abs_pos.2 hi
    linarith
  obtain ⟨start, hst, hst1, hst2⟩ := step_atStart (O := O) env o ho
  obtain ⟨per, hper⟩ := step_perPoint (O := O) env o ho
  obtain ⟨q, hq, hq0⟩ := step_factor (O := O) env o ho
  obtain ⟨batch, hb, hb1⟩ := step_batch (O := O) env o ho
  obtain ⟨size, hsize⟩ := step_size (O := O) env o (defaultModelType o.functype) (List.ofFn x) o.noisy batch
  obtain ⟨fit, hfit, hfit'⟩ := step_fitter (O := O) (R := Option (Piece K n)) o ho (defaultModelType o.functype)
    (defaultModelType_cases o.functype) size (List.ofFn x)
  obtain ⟨res, hres⟩ := step_residualize (O := O) (R := Option (Piece K n)) o fit
  obtain ⟨filt, hfilt, hfilt'⟩ := step_filter (O := O) (R := Option (Piece K n)) o ho batch
  obtain ⟨dec, hdec, hdec1, hdec2, hdec3⟩ := step_decider (O := O) (R := Option (Piece K n)) o ho
  obtain ⟨ft', agg, mt, hft', hagg, hmt, haggfits⟩ : ∃ f g mt, Functype.parse o.functype = .ok f ∧
      defaultAggregator o.functype (defaultModelType o.functype) = .ok g ∧
      modelTypeOf (defaultModelType o.functype) = some mt ∧ AggregatorFits g m mt := by
    rcases ho.functype with h | h | h
    · rw [h]
      exact ⟨_, _, _, rfl, rfl, rfl, Or.inl ⟨rfl, hscalar h⟩⟩
    · rw [h]
      exact ⟨_, _, _, rfl, rfl, rfl, Or.inr (Or.inr (Or.inl rfl))⟩
    · rw [h]
      exact ⟨_, _, _, rfl, rfl, rfl, Or.inr (Or.inr (Or.inr rfl))⟩
  obtain ⟨c1, S, hc1, hS, hSv⟩ := sampler_piece env ext hext.minimize o.sampler ho.sampler
  obtain ⟨c2, d2, hc2, hd2⟩ := sphere_piece env ext o.sphereSubsolver ho.sphere
  obtain ⟨c3, d3, hc3, hd3⟩ := cube_piece env ext o.cubeSubsolver ho.cube
  obtain ⟨c4, F, hc4, hF, hFv⟩ := filter_piece env ext filt hfilt'
  obtain ⟨c5, T, hc5, hT⟩ := fitter_piece env ext fit hfit'
  obtain ⟨c6, nd, nk, hc6, hV, hnd, hnk⟩ := variance_piece env ext
  obtain ⟨c7, D, hc7, hD, hD1, hD2, hD3, hD4⟩ := decider_piece env ext dec hdec1
  have hseed : checkSeed (.int o.seed : PyVal K O) = .ok () := by
    unfold checkSeed
    exact if_pos (Int.natCast_nonneg _)
  have hrun : ∃ p, processArguments env (pieces ext) { o.arguments with x := List.ofFn x } = .ok p ∧
      p.ftolAbs = .fin o.ftolAbs ∧ p.gtolAbs = .fin o.gtolAbs ∧ p.xtolAbs = .fin o.xtolAbs ∧
      p.ftolRel = .fin o.ftolRel ∧ p.gtolRel = .fin o.gtolRel ∧ p.xtolRel = .fin o.xtolRel ∧
      p.radiusOptions = radiusDefaults rad ∧ p.noiseAdaptationOptions = noiseAdaptationDefaults ∧
      p.stagnationOptions = stagnationDefaults p.noisy batch ∧ p.batchSize = (batch : ℤ) ∧
      p.targetSampleSize = .int size ∧ p.searchRadiusFactor = .fin q ∧ p.nEvalsPerPoint = .int per ∧
      p.nEvalsAtStart = (start : ℤ) ∧ p.acceptCandidate = c7 ∧ p.samplePoints = c1 ∧ p.filterPoints = c4 ∧
      p.rawFitter = c5 ∧ p.sphereSolver = c2 ∧ p.cubeSolver = c3 ∧ p.estimateVariance = c6 ∧
      p.modelType = defaultModelType o.functype ∧ p.noisy = o.noisy ∧ p.maxIter = o.maxIter ∧
      p.aggregator = agg ∧ p.retryWithFallback = true := by
    refine ⟨{ noisy := o.noisy, nCores := o.nCores, disableConvergence := o.disableConvergence
              ftolAbs := .fin o.ftolAbs, gtolAbs := .fin o.gtolAbs, xtolAbs := .fin o.xtolAbs
              ftolRel := .fin o.ftolRel, gtolRel := .fin o.gtolRel, xtolRel := .fin o.xtolRel
              maxIter := o.maxIter, maxEval := o.maxEval, radiusOptions := radiusDefaults rad, batchSize := batch
              targetSampleSize := .int size, stagnationOptions := stagnationDefaults o.noisy batch
              noiseAdaptationOptions := noiseAdaptationDefaults, searchRadiusFactor := .fin q
              nEvalsPerPoint := .int per, nEvalsAtStart := start, functype := ft'
              modelType := defaultModelType o.functype, fitterName := .str fit, residualize := res
              aggregator := agg, samplePoints := c1, sphereSolver := c2, cubeSolver := c3
              retryWithFallback := true, filterPoints := c4, rawFitter := c5, estimateVariance := c6
              acceptCandidate := c7 }, ?_, rfl, rfl, rfl, rfl, rfl, rfl, rfl, rfl, rfl, rfl, rfl, rfl, rfl, rfl,
      rfl, rfl, rfl, rfl, rfl, rfl, rfl, rfl, rfl, rfl, rfl, rfl⟩
    have e1 : ∀ d : Dict (PyVal K O), updateOptionBundle env d none = .ok d := fun _ => rfl
    simp only [processArguments, CallOptions.arguments, pyGt, toFloat, toInt, toBool, hseed, bind, Except.bind,
      e1, hper, hst, hq, hb, hrad, processModelType, hsize, hfit, hres, hft', checkBatchEvaluator,
      hc1, hc2, hc3, hfilt, hc4, hc5, checkInfinityHandler, hagg, hc6, if_true, true_or]
    erw [hdec, hc7]
    rfl
  obtain ⟨p, hp, p1, p2, p3, p4, p5, p6, p7, p8, p9, p10, p11, p12, p13, p14, p15, p16, p17, p18, p19, p20, p21,
    p22, p23, p24, p25, p26⟩ := hrun
  rw [← p15] at hD
  rw [← p16] at hS
  rw [← p17] at hF
  rw [← p18] at hT
  rw [← p19] at hd2
  rw [← p20] at hd3
  rw [← p21] at hV
  rw [← p22] at hmt
  obtain ⟨c, hc, k1, k2, -, k4, k5, k6, k7, k8, k9, k10⟩ :=
    callConfig_some p1 p2 p3 p4 p5 p6 p7 p8 p9 p10 p11 p12 p13 p14 hD
  have hset := callSettings_some (ext := ext) hS hF hT hd2 hd3 hV hmt p8
  obtain ⟨b, hb', hbe⟩ : ∃ b, callSettings ext p = some b ∧ _ = b := ⟨_, hset, rfl⟩
  have hcall : tranquiloCall env ext o.arguments x bounds =
      (tranquiloR c (builtinComponents b) x rad bounds).map some := by
    have hnum : numOf p.radiusOptions "initial_radius" = some rad := by rw [p7]; rfl
    unfold tranquiloCall
    rw [hp]
    change (match callConfig p, callSettings ext p, numOf p.radiusOptions "initial_radius" with
      | some c, some b, some radius => (tranquiloR c (builtinComponents b) x radius bounds).map some
      | _, _, _ => .ok none) = _
    rw [hc, hb', hnum]
  have hcfg : SafeConfig c bounds :=
    { batch := by rw [k4]; exact hb1
      search := by rw [k5]; exact hq0.le
      minRadius := by rw [k6]; positivity
      maxRadius := by rw [k7]; positivity
      ratio := k8
      noise := fun mi zc zp a b h => by
        rw [k1, p23]
        exact hdec2 (hD2 mi zc zp a b (k10 ▸ h))
      line := fun mi rf h => absurd (k10 ▸ h) (hD1 mi rf) }
  have hsafe : SafeSettings c b bounds := by
    subst hbe
    exact
    { zero := hext.zero
      root := hext.root
      radial := hext.radial
      cubeRadius := hext.cubeRadius
      dimRoot := hext.dimRoot
      rng := hext.rng
      filter := hFv
      sampler := hSv
      aggregator := by
        change AggregatorFits p.aggregator m mt
        rw [p25]; exact haggfits
      sides := hsides
      noise := fun hn => by
        rw [k1, p23] at hn
        have hfin := hnoisy hn
        exact
        { repeats := by
            refine ⟨by rw [k9]; exact hst2 hn, ?_⟩
            rcases hdec3 hn with h | h
            · obtain ⟨mi, hmi⟩ := hD3 h
              exact Or.inl ⟨mi, k10.trans hmi⟩
            · obtain ⟨mi, zc, zp, a, b, hmi, hab⟩ := hD4 h
              exact Or.inr ⟨mi, zc, zp, a, b, k10.trans hmi, hab⟩
          distance := hnd
          minEvals := hnk
          draws := by norm_num
          finite := hfin.finite
          rows := hfin.rows
          finiteRows := hfin.finiteRows }
      values := fun mi rf h => absurd (k10 ▸ h) (hD1 mi rf)
      sphere := fun model hm => by
        change ∃ raw, callSolver p.retryWithFallback _ _ _ _ = .ok raw
        rw [p26]
        exact (C98_fallback_solvers_return ext.root ext.scipy _ model hm _).1
      cube := fun model hm x _ => by
        change ∃ raw, callSolver p.retryWithFallback _ _ _ _ = .ok raw
        rw [p26]
        exact (C98_fallback_solvers_return ext.root ext.scipy _ model hm x).2
      ball := hball.imp id fun hball model hm x raw => ⟨hball _ model x raw,
        C52_inscribed_cube ext.root hext.root ext.scipy hext.scipy model x raw⟩ }
  obtain ⟨r, h1, h2, h3, h4, h5, -⟩ := C98_builtin_run_partial hsafe hcfg x hx rad hradpos
  refine ⟨r, ?_, h2, h3, h4, ?_⟩
  · rw [hcall, h1]; rfl
  · rw [k2, p24] at h5
    exact h5

/-- C106, defaults: without bounds, noise and options, a call returns for each of the three function types and each
start vector that is not zero, whatever the criterion and the subsolvers return. -/
theorem C106_default_call_returns [IsStrictOrderedRing K] (env : PyEnv K O) (ext : Externals K O n m)
    (hext : ext.Spec) (ft : String) (hft : ft = "scalar" ∨ ft = "likelihood" ∨ ft = "least_squares")
    (hscalar : ft = "scalar" → m = 1) (x : Vec K n) (hx0 : ∃ i, x i ≠ 0) :
    ∃ r, tranquiloCall env ext { functype := ft, x := [] } x ⟨fun _ => none, fun _ => none⟩ = .ok (some r) ∧
      r.log.xs[r.state.index]? = some r.state.x ∧ r.states.length ≤ 201 := by
  have hin : ∀ y : Vec K n, InBounds ⟨fun _ => none, fun _ => none⟩ y := fun y i =>
    ⟨fun l h => (by cases h), fun u h => (by cases h)⟩
  obtain ⟨r, h1, -, -, h4, h5⟩ := C106_call_returns_partial env ext hext { functype := ft }
    { functype := hft, cores := le_refl 1, batch := fun _ h => (by cases h), factor := fun _ h => (by cases h)
      perPoint := fun _ h => (by cases h), atStart := fun _ h => (by cases h), sampler := Or.inr (Or.inr rfl)
      filter := fun _ h => (by cases h), fitter := fun _ h => (by cases h), cube := Or.inr rfl
      sphere := Or.inr (Or.inl rfl), decider := fun _ h => (by cases h) } hscalar (fun h => by cases h) x hx0
    ⟨fun _ => none, fun _ => none⟩ (Or.inl hin) (hin x) (fun _ _ _ h => by cases h)
  exact ⟨r, h1, h4, h5⟩

/-- Functions for which the hypotheses of C106 hold: two parameters, two residuals, solvers that raise. -/
noncomputable def plainExternals : Externals ℝ Unit 2 2 where
  nrm v := Real.sqrt (∑ i, v i ^ 2)
  root := Real.sqrt
  radial _ := 1
  cubeRadius := id
  dimRoot := Real.sqrt
  lstsq _ _ _ _ _ := 0
  qr _ _ _ _ := 0
  oracle _ x := .fin (x 0 ^ 2)
  data _ _ _ := .fin 0
  start _ _ := 0
  fvecs log i := (log.fvals i).map fun v _ => v
  rng _ _ _ := constantRng
  draws _ _ _ _ k := List.replicate k fun _ _ => 0
  covOfOne _ _ _ := .nan
  quantile := id
  logsumexp _ := 0
  minimize _ _ _ x0 := x0
  scipy crit x0 l u := ⟨fun i => npClip (x0 i) (l i) (u i), crit fun i => npClip (x0 i) (l i) (u i), 0⟩
  solver _ _ _ _ := .error .linAlgError

theorem plainExternals_spec : plainExternals.Spec where
  zero := by simp [plainExternals]
  root := sqrtSpec_realSqrt
  radial := fun _ => ⟨zero_le_one, le_rfl⟩
  cubeRadius := fun _ h => h
  dimRoot := fun a _ => Real.sqrt_nonneg a
  rng := fun _ _ _ => constantRng_spec
  minimize := fun _ _ _ x0 h => ⟨rfl, h⟩
  scipy := fun _ _ _ _ h => ⟨fun i => npClip_mem (h i), rfl⟩

/-- C106, example: a noisy call with bounds, four cores and clustering. -/
example (env : PyEnv ℝ Unit) : ∃ r, tranquiloCall env plainExternals
    ({ functype := "least_squares", noisy := true, nCores := 4, sampleFilter := some "clustering",
       modelFitter := some "tranquilo", nEvalsAtStart := some 3 } : CallOptions ℝ).arguments (fun _ => 1 / 2)
    ⟨fun _ => some (-1), fun _ => some 1⟩ = .ok (some r) ∧
      InBounds ⟨fun _ => some (-1), fun _ => some 1⟩ r.state.x := by
  obtain ⟨r, h1, h2, -⟩ := C106_call_returns_partial env plainExternals plainExternals_spec
    { functype := "least_squares", noisy := true, nCores := 4, sampleFilter := some "clustering",
      modelFitter := some "tranquilo", nEvalsAtStart := some 3 }
    { functype := Or.inr (Or.inr rfl), cores := by norm_num, batch := fun _ h => (by cases h)
      factor := fun _ h => (by cases h)
      perPoint := fun _ h => (by cases h), atStart := fun k h => (by cases h; simp)
      sampler := Or.inr (Or.inr rfl)
      filter := fun _ h => (by cases h; simp)
      fitter := fun _ h => (by cases h; simp)
      cube := Or.inr rfl
      sphere := Or.inr (Or.inl rfl), decider := fun _ h => (by cases h) } (fun h => by simp at h)
    (fun _ => ⟨fun _ _ => rfl, fun log i => by simp [plainExternals], fun log hlog i row hrow k => by
      obtain ⟨v, hv, rfl⟩ := List.mem_map.1 hrow
      exact hlog _ (fvals_mem hv)⟩) (fun _ => 1 / 2) ⟨0, by norm_num⟩
    ⟨fun _ => some (-1), fun _ => some 1⟩ (Or.inr fun _ _ _ _ h => by cases h)
    (fun i => ⟨fun l h => (by cases h; norm_num), fun u h => (by cases h; norm_num)⟩)
    (fun i l u hl hu => by cases hl; cases hu; norm_num)
  exact ⟨r, h1, h2⟩

end Tranquilo
