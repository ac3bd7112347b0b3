import Verif.Model.ProcessArgs
import Verif.Props.BuiltinComponents
import Mathlib.Tactic.NormNum

/-!
# C59, C88, C89: processing of the arguments
-/

namespace Tranquilo

variable {K O R : Type} [Field K] [LinearOrder K] [FloorRing K]

theorem except_bind_ok {α β : Type} {x : Except Err α} {g : α → Except Err β} {b : β} :
    (x >>= g) = .ok b ↔ ∃ a, x = .ok a ∧ g a = .ok b := by
  cases x with
  | error e => simp [bind, Except.bind]
  | ok a => simp [bind, Except.bind]

theorem except_map_ok {α β : Type} {x : Except Err α} {g : α → β} {b : β} :
    x.map g = .ok b ↔ ∃ a, x = .ok a ∧ g a = b := by
  cases x with
  | error e => simp [Except.map]
  | ok a => simp [Except.map]

/-! ## The single steps -/

theorem pyLt_false_int [IsStrictOrderedRing K] (env : PyEnv K O) (b : PyVal K O) (n out : ℤ)
    (h : pyLt b n = .ok false) (hi : toInt env b = .ok out) : n ≤ out := by
  cases b with
  | none => cases h
  | bool c =>
    simp only [pyLt, Except.ok.injEq, decide_eq_false_iff_not, not_lt] at h
    simp only [toInt, Except.ok.injEq] at hi
    omega
  | int i =>
    simp only [pyLt, Except.ok.injEq, decide_eq_false_iff_not, not_lt] at h
    simp only [toInt, Except.ok.injEq] at hi
    omega
  | flt x =>
    cases x with
    | fin x =>
      simp only [pyLt, Except.ok.injEq, decide_eq_false_iff_not, not_lt] at h
      simp only [toInt, Except.ok.injEq] at hi
      subst hi
      unfold truncate
      split
      · exact Int.le_floor.2 h
      · have h' : (n : K) ≤ (⌈x⌉ : ℤ) := h.trans (Int.le_ceil x)
        exact_mod_cast h'
    | pinf => cases hi
    | ninf => cases hi
    | nan => cases hi
  | str s => cases h
  | obj o => cases h

theorem processBatchSize_ok [IsStrictOrderedRing K] (env : PyEnv K O) (b : PyVal K O) (n out : ℤ)
    (h : processBatchSize env b n = .ok out) : n ≤ out := by
  by_cases hb : b = .none
  · subst hb
    simp only [processBatchSize, Except.ok.injEq] at h
    omega
  · have h' : ∃ c, pyLt b n = .ok c ∧
        (if c then Except.error Err.valueError else toInt env b) = .ok out := by
      cases b with
      | none => exact absurd rfl hb
      | _ => simpa only [processBatchSize, except_bind_ok] using h
    obtain ⟨c, hc, h'⟩ := h'
    cases c with
    | true => cases h'
    | false => exact pyLt_false_int env b n out hc h'

theorem processNEvalsAtStart_ok (env : PyEnv K O) (v : PyVal K O) (noisy : Bool) (out : ℤ)
    (h : processNEvalsAtStart env v noisy = .ok out) : 1 ≤ out := by
  simp only [processNEvalsAtStart, except_bind_ok] at h
  obtain ⟨o, -, h⟩ := h
  split at h
  · cases h
  · cases h; omega

theorem processSearchRadiusFactor_ok (env : PyEnv K O) (v : PyVal K O) (ft : String)
    (out : XVal K) (h : processSearchRadiusFactor env v ft = .ok out) : ¬ out ≤ .fin 0 := by
  simp only [processSearchRadiusFactor, except_bind_ok] at h
  obtain ⟨o, -, h⟩ := h
  split at h
  · cases h
  · rename_i hn
    cases h; exact hn

theorem not_le_zero_cases (x : XVal K) (h : ¬ x ≤ .fin 0) :
    (∃ r, x = .fin r ∧ 0 < r) ∨ x = .pinf ∨ x = .nan := by
  cases x with
  | fin r => exact Or.inl ⟨r, rfl, not_le.1 h⟩
  | pinf => exact Or.inr (Or.inl rfl)
  | ninf => exact absurd trivial h
  | nan => exact Or.inr (Or.inr rfl)

theorem processModelType_ok (v : PyVal K O) (ft out : String)
    (h : processModelType v ft = .ok out) : out = "linear" ∨ out = "quadratic" := by
  cases v with
  | none =>
    simp only [processModelType, Except.ok.injEq] at h
    subst h
    unfold defaultModelType
    split
    · exact Or.inr rfl
    · exact Or.inl rfl
  | str s =>
    simp only [processModelType] at h
    split at h
    · cases h; assumption
    · cases h
  | _ => cases h

theorem defaultAggregator_ok (ft mt out : String) (h : defaultAggregator ft mt = .ok out) :
    (ft = "scalar" ∧ mt = "quadratic" ∧ out = "identity") ∨
    (ft = "least_squares" ∧ mt = "linear" ∧ out = "least_squares_linear") ∨
    (ft = "likelihood" ∧ mt = "linear" ∧ out = "information_equality_linear") := by
  unfold defaultAggregator at h
  split at h
  · rename_i hc; cases h; exact Or.inl ⟨hc.1, hc.2, rfl⟩
  · split at h
    · rename_i hc; cases h; exact Or.inr (Or.inl ⟨hc.1, hc.2, rfl⟩)
    · split at h
      · rename_i hc; cases h; exact Or.inr (Or.inr ⟨hc.1, hc.2, rfl⟩)
      · cases h

theorem processNEvalsPerPoint_ok [IsStrictOrderedRing K] (env : PyEnv K O) (v : PyVal K O)
    (noisy : Bool) (user : Option (UserOptions K O)) (opts : Dict (PyVal K O)) (out : PyVal K O)
    (hopts : updateOptionBundle env noiseAdaptationDefaults user = .ok opts)
    (h : processNEvalsPerPoint env v noisy opts = .ok out) :
    (∃ i : ℤ, out = .int i ∧ 1 ≤ i) ∨ out = .bool true := by
  simp only [processNEvalsPerPoint, except_bind_ok] at h
  obtain ⟨o, ho, c, hc, h⟩ := h
  cases c with
  | true => cases h
  | false =>
    cases h
    have hkind : (∃ i : ℤ, out = .int i) ∨ ∃ b, out = .bool b := by
      by_cases hv : v = .none
      · subst hv
        simp only [rawNEvalsPerPoint, Except.ok.injEq] at ho
        subst ho
        cases noisy with
        | false => exact Or.inl ⟨1, rfl⟩
        | true =>
          simp only [if_true]
          have hdef : (noiseAdaptationDefaults : Dict (PyVal K O)).lookup "min_n_evals"
              = some (.int 1) := rfl
          cases user with
          | none =>
            cases hopts
            exact Or.inl ⟨1, by rw [hdef]; rfl⟩
          | some u =>
            cases hu : u.asDict with
            | error e => simp only [updateOptionBundle, hu] at hopts; cases hopts
            | ok d =>
              have hd : u = .dict d ∨ u = .namedTuple d := by
                cases u with
                | dict d' => cases hu; exact Or.inl rfl
                | namedTuple d' => cases hu; exact Or.inr rfl
                | other => cases hu
              have h3 := (C58_update_changes_named_fields env _ _ d u hd hopts).2.2 _ _ hdef
              cases hl : d.lookup "min_n_evals" with
              | none => exact Or.inl ⟨1, by rw [h3.1 hl]; rfl⟩
              | some w =>
                obtain ⟨w', hw', hs⟩ := h3.2 w hl
                rw [hw', Option.getD_some]
                cases hs with
                | int i j => exact Or.inl ⟨j, rfl⟩
                | boolIsInt i b => exact Or.inr ⟨b, rfl⟩
                | fltToInt i x j => exact Or.inl ⟨j, rfl⟩
                | strToInt i s j => exact Or.inl ⟨j, rfl⟩
      · have : ∃ i, toInt env v = .ok i ∧ PyVal.int i = out := by
          cases v with
          | none => exact absurd rfl hv
          | _ => simpa only [rawNEvalsPerPoint, except_map_ok] using ho
        obtain ⟨i, -, rfl⟩ := this
        exact Or.inl ⟨i, rfl⟩
    rcases hkind with ⟨i, rfl⟩ | ⟨b, rfl⟩
    · simp only [pyLt, Except.ok.injEq, decide_eq_false_iff_not, not_lt] at hc
      exact Or.inl ⟨i, rfl, hc⟩
    · cases b with
      | true => exact Or.inr rfl
      | false => simp [pyLt] at hc

/-- The number of coefficients of a model: an intercept, the gradient, and for quadratic models one
coefficient for each unordered pair of parameters. -/
def nCoefficients (modelType : String) (n : ℕ) : ℕ :=
  1 + n + if modelType = "quadratic" then n * (n + 1) / 2 else 0

theorem nFreeParams_eq (n : ℕ) (mt : String) (p : ℕ) (h : nFreeParams n mt = .ok p) :
    p = nCoefficients mt n := by
  unfold nFreeParams at h
  unfold nCoefficients
  split at h
  · split at h
    · rename_i hq
      cases h
      rw [if_pos hq]
      unfold nSecondOrderTerms
      omega
    · rename_i hq
      cases h
      rw [if_neg hq]
      omega
  · cases h

/-- The default fitter on the default sample size: least squares are used only when there are at
least as many points as coefficients. -/
theorem default_fitter_determined (mt : String) (hmt : mt = "linear" ∨ mt = "quadratic") (x : List K)
    (noisy : Bool) (batch : ℤ) (fitter : String)
    (h : defaultModelFitter (K := K) (O := O) mt
      (.int (defaultSampleSize mt x.length noisy batch)) x = .ok fitter) :
    (fitter = "ols" ∧ (nCoefficients mt x.length : ℤ) ≤ defaultSampleSize mt x.length noisy batch) ∨
    (fitter = "tranquilo" ∧ mt = "quadratic") := by
  simp only [defaultModelFitter, except_bind_ok] at h
  obtain ⟨p, hp, h⟩ := h
  have hp' := nFreeParams_eq _ _ _ hp
  split at h
  · rename_i hl
    cases h
    refine Or.inl ⟨rfl, ?_⟩
    subst hl
    simp only [nCoefficients, defaultSampleSize]
    rw [if_neg (by decide), if_neg (by decide)]
    split <;> push_cast <;> omega
  · rename_i hl
    rw [except_bind_ok] at h
    obtain ⟨c, hc, h⟩ := h
    have hq : mt = "quadratic" := hmt.resolve_left hl
    cases c with
    | true => cases h; exact Or.inr ⟨rfl, hq⟩
    | false =>
      cases h
      simp only [pyLt, Except.ok.injEq, decide_eq_false_iff_not, not_lt] at hc
      exact Or.inl ⟨rfl, by rw [← hp']; exact hc⟩

/-! ## C59 -/

/-- C59: whenever the arguments are accepted, the batch size is at least the number of cores, the
numbers of evaluations are at least one, the search radius factor is positive (or NaN, see
`C59_violated_nan_factor`), the combination of function type and model type is one of the three
supported ones, together with its aggregator, and the default fitter on the default sample size uses
least squares only if there are at least as many points as coefficients. -/
theorem C59_accepted_arguments_partial [IsStrictOrderedRing K] (env : PyEnv K O)
    (beh : String → String → Dict (PyVal K O) → Except Err R) (a : Arguments K O R)
    (out : ProcessedArguments K O R) (h : processArguments env beh a = .ok out) :
    out.nCores ≤ out.batchSize ∧
    1 ≤ out.nEvalsAtStart ∧
    ((∃ i : ℤ, out.nEvalsPerPoint = .int i ∧ 1 ≤ i) ∨ out.nEvalsPerPoint = .bool true) ∧
    ((∃ r, out.searchRadiusFactor = .fin r ∧ 0 < r) ∨ out.searchRadiusFactor = .pinf ∨
      out.searchRadiusFactor = .nan) ∧
    ((a.functype = "scalar" ∧ out.modelType = "quadratic" ∧ out.aggregator = "identity") ∨
      (a.functype = "least_squares" ∧ out.modelType = "linear" ∧
        out.aggregator = "least_squares_linear") ∨
      (a.functype = "likelihood" ∧ out.modelType = "linear" ∧
        out.aggregator = "information_equality_linear")) ∧
    (a.modelFitter = none → a.sampleSize = .value .none →
      ∃ (fitter : String) (size : ℤ), out.fitterName = .str fitter ∧ out.targetSampleSize = .int size ∧
        ((fitter = "ols" ∧ (nCoefficients out.modelType a.x.length : ℤ) ≤ size) ∨
          (fitter = "tranquilo" ∧ out.modelType = "quadratic"))) := by
  simp only [processArguments, except_bind_ok] at h
  obtain ⟨-, -, f1, hf1, f2, hf2, f3, hf3, f4, hf4, f5, hf5, f6, hf6, -, -, maxIter, -, maxEval, -, -, -, nCores, -,
    -, -, nStart, hstart, noise, hnoise, nPer, hper, factor, hfactor, batch, hbatch, radius, -,
    ropts, -, mt, hmt, stag, -, size, hsize, fitter, hfitter, res, -, ft, -, -, -, sampler, -,
    sphere, -, cube, -, filt, -, raw, -, -, -, agg, hagg, est, -, acc, -, hout⟩ := h
  cases hout
  refine ⟨processBatchSize_ok env _ _ _ hbatch, processNEvalsAtStart_ok env _ _ _ hstart,
    processNEvalsPerPoint_ok env _ _ _ _ _ hnoise hper,
    not_le_zero_cases _ (processSearchRadiusFactor_ok env _ _ _ hfactor),
    defaultAggregator_ok _ _ _ hagg, ?_⟩
  intro hf hs
  rw [hs] at hsize
  rw [hf] at hfitter
  simp only [processSampleSize, Except.ok.injEq] at hsize
  subst hsize
  simp only [processModelFitter, except_map_ok] at hfitter
  obtain ⟨name, hname, rfl⟩ := hfitter
  exact ⟨name, _, rfl, rfl, default_fitter_determined mt (processModelType_ok _ _ _ hmt) a.x _ batch
    name hname⟩

/-! ## C89: the defaults -/

theorem getComponent_builtin_ok (env : PyEnv K O) (s : String)
    (funcs : Dict (PyFun (PyVal K O) R)) (f : PyFun (PyVal K O) R) (hs : funcs.lookup s = some f)
    (defaults : Dict (PyVal K O)) (mandatory : List String)
    (hm : ∀ a ∈ mandatory, a ∈ f.signature) :
    ∃ comp, getComponent env (.str s) funcs defaults none mandatory = .ok comp :=
  (C57_built_iff env (.str s) funcs f (Or.inl ⟨s, rfl, hs⟩) defaults none mandatory).2
    ⟨⟨defaults, rfl⟩, hm⟩

theorem defaultInitialRadius_ok [IsStrictOrderedRing K] (x : List K) (hx : x ≠ []) :
    ∃ r, defaultInitialRadius x = .ok r ∧ (∀ v ∈ x, |v| / 10 ≤ r) ∧ ∃ v ∈ x, r = |v| / 10 := by
  have key : ∀ (rest : List K) (m : K),
      (m ≤ rest.foldl (fun m b => max m |b|) m ∧
        ∀ v ∈ rest, |v| ≤ rest.foldl (fun m b => max m |b|) m) ∧
      (rest.foldl (fun m b => max m |b|) m = m ∨
        ∃ v ∈ rest, rest.foldl (fun m b => max m |b|) m = |v|) := by
    intro rest
    induction rest with
    | nil => intro m; simp
    | cons b rest ih =>
      intro m
      obtain ⟨⟨h1, h2⟩, h3⟩ := ih (max m |b|)
      simp only [List.foldl_cons]
      refine ⟨⟨(le_max_left _ _).trans h1, ?_⟩, ?_⟩
      · intro v hv
        rcases List.mem_cons.1 hv with rfl | hv
        · exact (le_max_right _ _).trans h1
        · exact h2 v hv
      · rcases h3 with h3 | ⟨v, hv, h3⟩
        · rcases max_choice m |b| with h | h
          · left; rw [h3, h]
          · right; exact ⟨b, by simp, by rw [h3, h]⟩
        · right; exact ⟨v, by simp [hv], h3⟩
  cases x with
  | nil => exact absurd rfl hx
  | cons a rest =>
    obtain ⟨⟨h1, h2⟩, h3⟩ := key rest |a|
    refine ⟨_, rfl, ?_, ?_⟩
    · intro v hv
      rcases List.mem_cons.1 hv with rfl | hv
      · linarith
      · linarith [h2 v hv]
    · rcases h3 with h3 | ⟨v, hv, h3⟩
      · exact ⟨a, by simp, by rw [h3]; ring⟩
      · exact ⟨v, by simp [hv], by rw [h3]; ring⟩

theorem defaultModelFitter_int (mt : String) (hmt : mt = "linear" ∨ mt = "quadratic") (size : ℤ)
    (x : List K) : ∃ s, defaultModelFitter (K := K) (O := O) mt (.int size) x = .ok s ∧
      (s = "ols" ∨ s = "tranquilo") := by
  rcases hmt with h | h
  · exact ⟨"ols", by rw [h]; simp [defaultModelFitter, nFreeParams, bind, Except.bind],
      Or.inl rfl⟩
  · rw [h]
    simp only [defaultModelFitter, nFreeParams, bind, Except.bind, pyLt]
    split
    · rename_i he; simp at he
    · rename_i n hn
      rw [if_neg (by decide)]
      by_cases hlt : size < (n : ℤ)
      · exact ⟨"tranquilo", by simp [hlt], Or.inr rfl⟩
      · exact ⟨"ols", by simp [hlt], Or.inl rfl⟩

theorem defaultModelType_cases (ft : String) :
    defaultModelType ft = "linear" ∨ defaultModelType ft = "quadratic" := by
  unfold defaultModelType; split
  · exact Or.inr rfl
  · exact Or.inl rfl

/-- Arguments with no options but noise, cores, search radius factor and an integer sample size. -/
theorem processArguments_run [IsStrictOrderedRing K] (env : PyEnv K O)
    (beh : String → String → Dict (PyVal K O) → Except Err R) (ft : String)
    (hft : ft = "scalar" ∨ ft = "likelihood" ∨ ft = "least_squares") (x : List K) (hx : x ≠ [])
    (noisy : Bool) (cores : ℤ) (factor : PyVal K O) (q : XVal K)
    (hq : processSearchRadiusFactor env factor ft = .ok q) (ss : SampleSizeArg K O) (size : ℤ)
    (hsize : processSampleSize env ss (defaultModelType ft) x noisy cores = .ok (.int size)) :
    ∃ out, processArguments env beh
        { functype := ft, x := x, noisy := .bool noisy, nCores := .int cores,
          searchRadiusFactor := factor, sampleSize := ss } = .ok out ∧
      out.nCores = cores ∧ out.batchSize = cores ∧ out.nEvalsPerPoint = .int 1 ∧
      out.nEvalsAtStart = (if noisy then 5 else 1) ∧ out.modelType = defaultModelType ft ∧
      out.targetSampleSize = .int size ∧ out.searchRadiusFactor = q ∧
      (out.stagnationOptions = stagnationDefaults noisy cores ∧
        ∃ r, out.radiusOptions = radiusDefaults r) ∧
      ∃ r, out.radiusOptions.lookup "initial_radius" = some (.flt (.fin r)) ∧
        (∀ v ∈ x, |v| / 10 ≤ r) ∧ ∃ v ∈ x, r = |v| / 10 := by
  obtain ⟨r, hr, hr'⟩ := defaultInitialRadius_ok x hx
  obtain ⟨c1, h1⟩ := getComponent_builtin_ok env "optimal_hull" (builtinSamplers (beh "sampler")) _
    rfl samplerDefaults ["trustregion", "n_points", "existing_xs", "rng"]
    (by simp [PyFun.signature, param, paramWith])
  obtain ⟨c2, h2⟩ := getComponent_builtin_ok env "gqtpar_fast"
    (builtinSphereSolvers (beh "sphere_solver")) _ rfl subsolverDefaults ["model", "x_candidate"]
    (by simp [PyFun.signature, param, kwParam])
  obtain ⟨c3, h3⟩ := getComponent_builtin_ok env "bntr_fast"
    (builtinCubeSolvers (beh "cube_solver")) _ rfl subsolverDefaults
    ["model", "x_candidate", "lower_bounds", "upper_bounds"]
    (by simp [PyFun.signature, param, kwParam, bntrParams])
  obtain ⟨c4, h4⟩ : ∃ c, getComponent env
      (.str (if 1 < cores then "drop_excess" else "keep_all"))
      (builtinFilters (beh "sample_filter")) filterDefaults none [] = .ok c := by
    split
    · exact getComponent_builtin_ok env _ _ _ rfl _ _ (by simp)
    · exact getComponent_builtin_ok env _ _ _ rfl _ _ (by simp)
  obtain ⟨c6, h6⟩ := getComponent_builtin_ok env "classic"
    (builtinVarianceEstimators (beh "variance estimator")) _ rfl varianceDefaults [] (by simp)
  obtain ⟨c7, h7⟩ : ∃ c, getComponent env (.str (if noisy then "noisy" else "classic"))
      (builtinAcceptanceDeciders (beh "acceptance_decider")) acceptanceDefaults none [] = .ok c := by
    cases noisy
    · exact getComponent_builtin_ok env _ _ _ rfl _ _ (by simp)
    · exact getComponent_builtin_ok env _ _ _ rfl _ _ (by simp)
  have hfit : ∀ s, s = "ols" ∨ s = "tranquilo" → ∃ c, getComponent env (.str s)
      (builtinFitters (beh "fitter")) fitterDefaults none ["x", "y", "model_type"] = .ok c := by
    rintro s (rfl | rfl)
    · exact getComponent_builtin_ok env _ _ _ rfl _ _ (by simp [PyFun.signature, param])
    · exact getComponent_builtin_ok env _ _ _ rfl _ _ (by simp [PyFun.signature, param])
  obtain ⟨fname, hfname, hfname'⟩ := defaultModelFitter_int (K := K) (O := O) (defaultModelType ft)
    (defaultModelType_cases ft) size x
  obtain ⟨c5, h5⟩ := hfit fname hfname'
  obtain ⟨ft', hft'⟩ : ∃ f, Functype.parse ft = .ok f := by
    rcases hft with rfl | rfl | rfl
    · exact ⟨_, rfl⟩
    · exact ⟨_, rfl⟩
    · exact ⟨_, rfl⟩
  obtain ⟨agg, hagg⟩ : ∃ g, defaultAggregator ft (defaultModelType ft) = .ok g := by
    rcases hft with rfl | rfl | rfl
    · exact ⟨"identity", rfl⟩
    · exact ⟨"information_equality_linear", rfl⟩
    · exact ⟨"least_squares_linear", rfl⟩
  have hnoise : processNEvalsPerPoint env .none noisy (noiseAdaptationDefaults : Dict (PyVal K O))
      = .ok (.int 1) := by
    cases noisy <;> rfl
  have hstart : processNEvalsAtStart env (.none : PyVal K O) noisy
      = .ok (if noisy then 5 else 1) := by
    cases noisy <;> rfl
  have hrun : processArguments env beh
      { functype := ft, x := x, noisy := .bool noisy, nCores := .int cores,
        searchRadiusFactor := factor, sampleSize := ss } =
      .ok { noisy := noisy, nCores := cores, disableConvergence := false, ftolAbs := .fin 0, gtolAbs := .fin 0,
            xtolAbs := .fin 0, ftolRel := .fin (2 / 10 ^ 9), gtolRel := .fin (1 / 10 ^ 8),
            xtolRel := .fin (1 / 10 ^ 8), maxIter := 200, maxEval := 2000,
            radiusOptions := radiusDefaults r, batchSize := cores,
            targetSampleSize := .int size,
            stagnationOptions := stagnationDefaults noisy cores,
            noiseAdaptationOptions := noiseAdaptationDefaults, searchRadiusFactor := q,
            nEvalsPerPoint := .int 1, nEvalsAtStart := if noisy then 5 else 1, functype := ft',
            modelType := defaultModelType ft, fitterName := .str fname,
            residualize := decide (fname = "tranquilo"),
            aggregator := agg, samplePoints := c1, sphereSolver := c2, cubeSolver := c3,
            retryWithFallback := true, filterPoints := c4, rawFitter := c5, estimateVariance := c6, acceptCandidate := c7 } := by
    have e1 : ∀ d : Dict (PyVal K O), updateOptionBundle env d none = .ok d := fun _ => rfl
    simp only [processArguments, pyGt, toFloat, toInt, toBool, checkSeed, bind, Except.bind, e1, hnoise,
      hstart, hq, processBatchSize, hr, processModelType, hsize,
      processModelFitter, hfname, Except.map, processResidualize, hft', checkBatchEvaluator,
      getSampler, h1, getSphereSolver, h2, getCubeSolver, h3, getSampleFilter, Option.getD_none, h4,
      getRawFitter, h5, checkInfinityHandler, hagg, getVarianceEstimator, h6, getAcceptanceDecider,
      if_true, true_or]
    rw [if_pos (by norm_num : (0 : ℤ) ≤ 925408)]
    cases noisy
    · simp only [Bool.false_eq_true, if_false] at h7 ⊢
      rw [h7]; rfl
    · simp only [if_true] at h7 ⊢
      rw [h7]; rfl
  exact ⟨_, hrun, rfl, rfl, rfl, rfl, rfl, rfl, rfl, ⟨rfl, r, rfl⟩, r, rfl, hr'⟩

theorem default_factor_ok [IsStrictOrderedRing K] (env : PyEnv K O) (ft : String) :
    ∃ q, processSearchRadiusFactor env (.none : PyVal K O) ft = .ok (.fin q) ∧ 1 < q := by
  have hpos : ∀ q : K, 0 < q → ¬ (XVal.fin q : XVal K) ≤ .fin 0 := fun q hq => not_le.2 hq
  simp only [processSearchRadiusFactor, rawSearchRadiusFactor, bind, Except.bind]
  split
  · exact ⟨17 / 4, if_neg (hpos _ (by norm_num)), by norm_num⟩
  · exact ⟨5, if_neg (hpos _ (by norm_num)), by norm_num⟩

/-- C89: for each of the three function types, each non-empty start vector, with or without noise
and for each number of cores, the arguments without further options are accepted. The resulting
defaults: one evaluation per point, one batch per `n_cores` points, a quadratic model on `2n + 1`
points for scalar functions, and otherwise a linear model on `n + 1` points, or `n + 2` points
without noise and parallelization; points are searched beyond the trust region; the initial radius
is a tenth of the largest start parameter. -/
theorem C89_defaults_are_accepted [IsStrictOrderedRing K] (env : PyEnv K O)
    (beh : String → String → Dict (PyVal K O) → Except Err R) (ft : String)
    (hft : ft = "scalar" ∨ ft = "likelihood" ∨ ft = "least_squares") (x : List K) (hx : x ≠ [])
    (noisy : Bool) (cores : ℤ) :
    ∃ out, processArguments env beh
        { functype := ft, x := x, noisy := .bool noisy, nCores := .int cores } = .ok out ∧
      out.batchSize = cores ∧ out.nEvalsPerPoint = .int 1 ∧
      out.nEvalsAtStart = (if noisy then 5 else 1) ∧
      out.modelType = (if ft = "scalar" then "quadratic" else "linear") ∧
      out.targetSampleSize = .int (if ft = "scalar" then 2 * x.length + 1
        else if noisy = true ∨ 1 < cores then x.length + 1 else x.length + 2) ∧
      (∃ q, out.searchRadiusFactor = .fin q ∧ 1 < q) ∧
      ∃ r, out.radiusOptions.lookup "initial_radius" = some (.flt (.fin r)) ∧
        (∀ v ∈ x, |v| / 10 ≤ r) ∧ ∃ v ∈ x, r = |v| / 10 := by
  obtain ⟨q, hq, hq1⟩ := default_factor_ok (K := K) (O := O) env ft
  obtain ⟨out, h0, -, h1, h2, h3, h4, h5, h6, -, h7⟩ := processArguments_run env beh ft hft x hx noisy
    cores .none _ hq (.value .none) _ rfl
  refine ⟨out, h0, h1, h2, h3, h4, ?_, ⟨q, h6, hq1⟩, h7⟩
  rw [h5]
  unfold defaultModelType defaultSampleSize
  rcases hft with rfl | rfl | rfl
  · simp
  · simp
  · simp

/-- C89, radius and stagnation: by default the radius shrinks after failures, grows after successes and
stays between positive limits; steps are judged as stagnation only without noise, and small steps
are kept only by sequential noise-free runs. -/
theorem C89_default_radius_and_stagnation [IsStrictOrderedRing K] (env : PyEnv K O)
    (beh : String → String → Dict (PyVal K O) → Except Err R) (ft : String)
    (hft : ft = "scalar" ∨ ft = "likelihood" ∨ ft = "least_squares") (x : List K) (hx : x ≠ [])
    (noisy : Bool) (cores : ℤ) (out : ProcessedArguments K O R)
    (h : processArguments env beh
        { functype := ft, x := x, noisy := .bool noisy, nCores := .int cores } = .ok out) :
    (∃ shrink expand lo hi : K,
      out.radiusOptions.lookup "shrinking_factor" = some (.flt (.fin shrink)) ∧
      out.radiusOptions.lookup "expansion_factor" = some (.flt (.fin expand)) ∧
      out.radiusOptions.lookup "min_radius" = some (.flt (.fin lo)) ∧
      out.radiusOptions.lookup "max_radius" = some (.flt (.fin hi)) ∧
      0 < shrink ∧ shrink < 1 ∧ 1 < expand ∧ 0 < lo ∧ lo < hi) ∧
    out.stagnationOptions.lookup "drop" = some (.bool (!noisy)) ∧
    ∃ keep : K, out.stagnationOptions.lookup "min_relative_step_keep" = some (.flt (.fin keep)) ∧
      0 ≤ keep ∧ (0 < keep ↔ noisy = false ∧ cores ≤ 1) := by
  obtain ⟨q, hq, hq1⟩ := default_factor_ok (K := K) (O := O) env ft
  obtain ⟨out', h0, -, -, -, -, -, -, -, ⟨hs, r, hr⟩, -⟩ := processArguments_run env beh ft hft x hx
    noisy cores .none _ hq (.value .none) _ rfl
  rw [h] at h0
  cases h0
  rw [hs, hr]
  refine ⟨⟨5 / 10, 2, 1 / 10 ^ 6, 10 ^ 6, rfl, rfl, rfl, rfl, by norm_num, by norm_num, by norm_num,
    by norm_num, by norm_num⟩, ?_, _, rfl, ?_, ?_⟩
  · cases noisy <;> rfl
  · split
    · exact le_rfl
    · split
      · exact le_rfl
      · norm_num
  · cases noisy
    · by_cases hc : 1 < cores
      · simp [hc]
      · simp [hc, not_lt.1 hc]
    · simp

/-- C59 is violated: a search radius factor of NaN is accepted. -/
theorem C59_violated_nan_factor [IsStrictOrderedRing K] (env : PyEnv K O)
    (beh : String → String → Dict (PyVal K O) → Except Err R) (ft : String)
    (hft : ft = "scalar" ∨ ft = "likelihood" ∨ ft = "least_squares") (x : List K) (hx : x ≠ []) :
    ∃ out, processArguments env beh
        { functype := ft, x := x, searchRadiusFactor := .flt .nan } = .ok out ∧
      out.searchRadiusFactor = .nan := by
  obtain ⟨out, h0, -, -, -, -, -, -, h6, -, -⟩ := processArguments_run env beh ft hft x hx false 1
    (.flt .nan) .nan (by
      simp only [processSearchRadiusFactor, rawSearchRadiusFactor, toFloat, bind, Except.bind]
      exact if_neg (fun h => h)) (.value .none) _ rfl
  exact ⟨out, h0, h6⟩

/-! ## C59, C95: refused values and values that are passed on -/

/-- C59: accepted arguments have a non-negative seed, a known infinity handler and batch evaluator (or
callables), and nothing but a truth value for `residualize`. -/
theorem C59_unknown_values_refused (env : PyEnv K O)
    (beh : String → String → Dict (PyVal K O) → Except Err R) (a : Arguments K O R)
    (out : ProcessedArguments K O R) (h : processArguments env beh a = .ok out) :
    ((∃ i : ℤ, a.seed = .int i ∧ 0 ≤ i) ∨ ∃ b, a.seed = .bool b) ∧
    (a.infinityHandler = .str "relative" ∨ ∃ f, a.infinityHandler = .callable f) ∧
    (a.batchEvaluator = none ∨ a.batchEvaluator = some (.str "joblib") ∨
      a.batchEvaluator = some (.str "pathos") ∨ ∃ f, a.batchEvaluator = some (.callable f)) ∧
    (a.residualize = .none ∨ ∃ b, a.residualize = .bool b) := by
  simp only [processArguments, except_bind_ok] at h
  obtain ⟨-, -, f1, hf1, f2, hf2, f3, hf3, f4, hf4, f5, hf5, f6, hf6, -, -, maxIter, -, maxEval, -, -, -, nCores, -,
    _, hseed, nStart, hstart, noise, hnoise, nPer, hper, factor, hfactor, batch, hbatch, radius, -,
    ropts, -, mt, hmt, stag, -, size, hsize, fitter, hfitter, res, hres, ft, -, _, hbe, sampler, -,
    sphere, -, cube, -, filt, -, raw, -, _, hih, agg, hagg, est, -, acc, -, hout⟩ := h
  refine ⟨?_, ?_, ?_, ?_⟩
  · unfold checkSeed at hseed
    split at hseed
    · rename_i i hi
      split at hseed
      · rename_i h0; exact Or.inl ⟨i, hi, h0⟩
      · cases hseed
    · rename_i b hb; exact Or.inr ⟨b, hb⟩
    · cases hseed
  · unfold checkInfinityHandler at hih
    split at hih
    · rename_i s hs
      split at hih
      · rename_i h0; exact Or.inl (by rw [hs, h0])
      · cases hih
    · rename_i f hf; exact Or.inr ⟨f, hf⟩
    · cases hih
  · unfold checkBatchEvaluator at hbe
    split at hbe
    · rename_i h0; exact Or.inl h0
    · rename_i s hs
      split at hbe
      · rename_i h0
        rcases h0 with h0 | h0
        · exact Or.inr (Or.inl (by rw [hs, h0]))
        · exact Or.inr (Or.inr (Or.inl (by rw [hs, h0])))
      · cases hbe
    · rename_i f hf; exact Or.inr (Or.inr (Or.inr ⟨f, hf⟩))
    · cases hbe
  · unfold processResidualize at hres
    split at hres
    · rename_i s h0; exact Or.inl h0
    · rename_i h0 _; exact Or.inl h0
    · rename_i b h0; exact Or.inr ⟨b, h0⟩
    · cases hres

/-- C95: numbers and names that the user sets are the ones the optimizer works with. -/
theorem C95_user_arguments_used (env : PyEnv K O)
    (beh : String → String → Dict (PyVal K O) → Except Err R) (a : Arguments K O R)
    (out : ProcessedArguments K O R) (h : processArguments env beh a = .ok out) :
    (∀ i, a.maxIter = .int i → out.maxIter = i) ∧
    (∀ i, a.maxEval = .int i → out.maxEval = i) ∧
    (∀ i, a.nCores = .int i → out.nCores = i) ∧
    (∀ i, a.batchSize = .int i → out.batchSize = i) ∧
    (∀ b, a.noisy = .bool b → out.noisy = b) ∧
    (∀ i, a.nEvalsAtStart = .int i → out.nEvalsAtStart = i) ∧
    (∀ i, a.nEvalsPerPoint = .int i → out.nEvalsPerPoint = .int i) ∧
    (∀ i, a.sampleSize = .value (.int i) → out.targetSampleSize = .int i) ∧
    (∀ q, a.searchRadiusFactor = .flt q → out.searchRadiusFactor = q) ∧
    (∀ s, a.modelType = .str s → out.modelType = s) ∧
    (∀ f, a.modelFitter = some f → out.fitterName = f) ∧
    (∀ b, a.residualize = .bool b → out.residualize = b) ∧
    (∀ b, a.disableConvergence = .bool b → out.disableConvergence = b) ∧
    (∀ b, a.retryWithFallback = .bool b → out.retryWithFallback = b) ∧
    (∀ q, a.ftolAbs = .flt q → out.ftolAbs = q) ∧ (∀ q, a.ftolRel = .flt q → out.ftolRel = q) ∧
    (∀ q, a.gtolAbs = .flt q → out.gtolAbs = q) ∧ (∀ q, a.gtolRel = .flt q → out.gtolRel = q) ∧
    (∀ q, a.xtolAbs = .flt q → out.xtolAbs = q) ∧ (∀ q, a.xtolRel = .flt q → out.xtolRel = q) := by
  simp only [processArguments, except_bind_ok] at h
  obtain ⟨-, -, f1, hf1, f2, hf2, f3, hf3, f4, hf4, f5, hf5, f6, hf6, -, -, maxIter, hmi, maxEval, hme, -, -, nCores, hnc,
    -, -, nStart, hstart, noise, hnoise, nPer, hper, factor, hfactor, batch, hbatch, radius, -,
    ropts, -, mt, hmt, stag, -, size, hsize, fitter, hfitter, res, hres, ft, -, -, -, sampler, -,
    sphere, -, cube, -, filt, -, raw, -, -, -, agg, hagg, est, -, acc, -, hout⟩ := h
  cases hout
  refine ⟨fun i hi => ?_, fun i hi => ?_, fun i hi => ?_, fun i hi => ?_, fun b hb => ?_, fun i hi => ?_,
    fun i hi => ?_, fun i hi => ?_, fun q hq => ?_, fun s hs => ?_, fun f hf => ?_, fun b hb => ?_,
    fun b hb => (by simp [hb, toBool]), fun b hb => (by simp [hb, toBool]), fun q hq => ?_, fun q hq => ?_,
    fun q hq => ?_, fun q hq => ?_, fun q hq => ?_, fun q hq => ?_⟩
  · rw [hi] at hmi; cases hmi; rfl
  · rw [hi] at hme; cases hme; rfl
  · rw [hi] at hnc; cases hnc; rfl
  · rw [hi] at hbatch
    simp only [processBatchSize, except_bind_ok] at hbatch
    obtain ⟨c, -, hc⟩ := hbatch
    cases c with
    | true => cases hc
    | false => cases hc; rfl
  · simp [hb, toBool]
  · rw [hi] at hstart
    simp only [processNEvalsAtStart, except_bind_ok] at hstart
    obtain ⟨o, ho, hstart⟩ := hstart
    cases ho
    split at hstart
    · cases hstart
    · cases hstart; rfl
  · rw [hi] at hper
    simp only [processNEvalsPerPoint, except_bind_ok] at hper
    obtain ⟨o, ho, c, -, hper⟩ := hper
    cases ho
    cases c with
    | true => cases hper
    | false => cases hper; rfl
  · rw [hi] at hsize; cases hsize; rfl
  · rw [hq] at hfactor
    simp only [processSearchRadiusFactor, except_bind_ok] at hfactor
    obtain ⟨o, ho, hfactor⟩ := hfactor
    cases ho
    split at hfactor
    · cases hfactor
    · cases hfactor; rfl
  · rw [hs] at hmt
    simp only [processModelType] at hmt
    split at hmt
    · cases hmt; rfl
    · cases hmt
  · rw [hf] at hfitter; cases hfitter; rfl
  · rw [hb] at hres
    cases hres; rfl
  · rw [hq] at hf1; cases hf1; rfl
  · rw [hq] at hf4; cases hf4; rfl
  · rw [hq] at hf2; cases hf2; rfl
  · rw [hq] at hf5; cases hf5; rfl
  · rw [hq] at hf3; cases hf3; rfl
  · rw [hq] at hf6; cases hf6; rfl

/-- C95: options for the radius, the stagnation and the noise are stored under their names; those the user
does not name keep the default. -/
theorem C95_user_options_stored [IsStrictOrderedRing K] (env : PyEnv K O)
    (beh : String → String → Dict (PyVal K O) → Except Err R) (a : Arguments K O R)
    (out : ProcessedArguments K O R) (h : processArguments env beh a = .ok out) :
    (∀ d, a.radiusOptions = some (.dict d) → ∃ r, defaultInitialRadius a.x = .ok r ∧
      ∀ k default, (radiusDefaults r).lookup k = some default →
        (d.lookup k = none → out.radiusOptions.lookup k = some default) ∧
        (∀ v, d.lookup k = some v →
          ∃ w, out.radiusOptions.lookup k = some w ∧ StoredAs env default v w)) ∧
    (∀ d, a.stagnationOptions = some (.dict d) →
      ∀ k default, (stagnationDefaults out.noisy out.batchSize).lookup k = some default →
        (d.lookup k = none → out.stagnationOptions.lookup k = some default) ∧
        (∀ v, d.lookup k = some v →
          ∃ w, out.stagnationOptions.lookup k = some w ∧ StoredAs env default v w)) ∧
    (∀ d, a.noiseAdaptationOptions = some (.dict d) →
      ∀ k default, noiseAdaptationDefaults.lookup k = some default →
        (d.lookup k = none → out.noiseAdaptationOptions.lookup k = some default) ∧
        (∀ v, d.lookup k = some v →
          ∃ w, out.noiseAdaptationOptions.lookup k = some w ∧ StoredAs env default v w)) := by
  simp only [processArguments, except_bind_ok] at h
  obtain ⟨-, -, f1, hf1, f2, hf2, f3, hf3, f4, hf4, f5, hf5, f6, hf6, -, -, maxIter, hmi, maxEval, hme, -, -, nCores, hnc,
    -, -, nStart, hstart, noise, hnoise, nPer, hper, factor, hfactor, batch, hbatch, radius, hradius,
    ropts, hropts, mt, hmt, stag, hstag, size, hsize, fitter, hfitter, res, hres, ft, -, -, -, sampler, -,
    sphere, -, cube, -, filt, -, raw, -, -, -, agg, hagg, est, -, acc, -, hout⟩ := h
  cases hout
  refine ⟨fun d hd => ⟨radius, hradius, ?_⟩, fun d hd => ?_, fun d hd => ?_⟩
  · rw [hd] at hropts
    exact (C58_update_changes_named_fields env _ _ d _ (Or.inl rfl) hropts).2.2
  · rw [hd] at hstag
    exact (C58_update_changes_named_fields env _ _ d _ (Or.inl rfl) hstag).2.2
  · rw [hd] at hnoise
    exact (C58_update_changes_named_fields env _ _ d _ (Or.inl rfl) hnoise).2.2

/-- C95: each component is built from the name or function and the options that the user gave for it; what
this means for calls of the component is C57. -/
theorem C95_components_as_requested (env : PyEnv K O)
    (beh : String → String → Dict (PyVal K O) → Except Err R) (a : Arguments K O R)
    (out : ProcessedArguments K O R) (h : processArguments env beh a = .ok out) :
    getSampler env (beh "sampler") a.sampler a.samplerOptions = .ok out.samplePoints ∧
    getSphereSolver env (beh "sphere_solver") a.sphereSubsolver a.subsolverOptions
      = .ok out.sphereSolver ∧
    getCubeSolver env (beh "cube_solver") a.cubeSubsolver a.subsolverOptions = .ok out.cubeSolver ∧
    (∀ f, a.sampleFilter = some f →
      getSampleFilter env (beh "sample_filter") f a.sampleFilterOptions = .ok out.filterPoints) ∧
    getRawFitter env (beh "fitter") out.fitterName a.modelFitterOptions = .ok out.rawFitter ∧
    getVarianceEstimator env (beh "variance estimator") a.varianceEstimator a.varianceEstimatorOptions
      = .ok out.estimateVariance ∧
    (∀ f, a.acceptanceDecider = some f →
      getAcceptanceDecider env (beh "acceptance_decider") f a.acceptanceDeciderOptions
        = .ok out.acceptCandidate) := by
  simp only [processArguments, except_bind_ok] at h
  obtain ⟨-, -, f1, hf1, f2, hf2, f3, hf3, f4, hf4, f5, hf5, f6, hf6, -, -, maxIter, hmi, maxEval, hme, -, -, nCores, hnc,
    -, -, nStart, hstart, noise, hnoise, nPer, hper, factor, hfactor, batch, hbatch, radius, hradius,
    ropts, hropts, mt, hmt, stag, hstag, size, hsize, fitter, hfitter, res, hres, ft, -, -, -, sampler, h1,
    sphere, h2, cube, h3, filt, h4, raw, h5, -, -, agg, hagg, est, h6, acc, h7, hout⟩ := h
  cases hout
  refine ⟨h1, h2, h3, fun f hf => ?_, h5, h6, fun f hf => ?_⟩
  · rw [hf] at h4; exact h4
  · rw [hf] at h7; exact h7

/-! ## C88: sizes are positive -/

/-- C88, when at least one core is requested and the sample size is the default: the batch size and
the target sample size are positive. Missing: other numbers of cores and sample sizes, see
`C88_violated_sizes`. -/
theorem C88_sizes_positive_partial [IsStrictOrderedRing K] (env : PyEnv K O)
    (beh : String → String → Dict (PyVal K O) → Except Err R) (a : Arguments K O R)
    (out : ProcessedArguments K O R) (h : processArguments env beh a = .ok out)
    (hcores : 1 ≤ out.nCores) (hs : a.sampleSize = .value .none) :
    1 ≤ out.batchSize ∧ ∃ size : ℤ, out.targetSampleSize = .int size ∧ 1 ≤ size := by
  refine ⟨hcores.trans (C59_accepted_arguments_partial env beh a out h).1, ?_⟩
  simp only [processArguments, except_bind_ok] at h
  obtain ⟨-, -, f1, hf1, f2, hf2, f3, hf3, f4, hf4, f5, hf5, f6, hf6, -, -, maxIter, -, maxEval, -, -, -, nCores, -,
    -, -, nStart, hstart, noise, hnoise, nPer, hper, factor, hfactor, batch, hbatch, radius, -,
    ropts, -, mt, hmt, stag, -, size, hsize, fitter, hfitter, res, -, ft, -, -, -, sampler, -,
    sphere, -, cube, -, filt, -, raw, -, -, -, agg, hagg, est, -, acc, -, hout⟩ := h
  cases hout
  rw [hs] at hsize
  simp only [processSampleSize, Except.ok.injEq] at hsize
  refine ⟨_, hsize.symm, ?_⟩
  unfold defaultSampleSize
  split
  · omega
  · split <;> omega

/-- C88 is violated: zero or negative numbers of cores and sample sizes are accepted, and give a
batch size and a target sample size that are not positive. -/
theorem C88_violated_sizes [IsStrictOrderedRing K] (env : PyEnv K O)
    (beh : String → String → Dict (PyVal K O) → Except Err R) (ft : String)
    (hft : ft = "scalar" ∨ ft = "likelihood" ∨ ft = "least_squares") (x : List K) (hx : x ≠ [])
    (cores size : ℤ) :
    ∃ out, processArguments env beh
        { functype := ft, x := x, nCores := .int cores, sampleSize := .value (.int size) } = .ok out ∧
      out.batchSize = cores ∧ out.targetSampleSize = .int size := by
  obtain ⟨q, hq, hq1⟩ := default_factor_ok (K := K) (O := O) env ft
  obtain ⟨out, h0, -, h1, -, -, -, h5, -, -, -⟩ := processArguments_run env beh ft hft x hx false cores
    .none _ hq (.value (.int size)) size rfl
  exact ⟨out, h0, h1, h5⟩

/-! ## Concrete cases -/

/-- The defaults of a least squares problem with two parameters. -/
example : okAnd (fun out => decide (out.batchSize = 1) && decide (out.modelType = "linear") &&
      decide (out.targetSampleSize = .int 4) && decide (out.aggregator = "least_squares_linear"))
    (processArguments plainEnv (fun _ => namesBehaviour)
      { functype := "least_squares", x := [1, -3] }) = true := by
  decide +kernel

/-- Too small batches, unsupported combinations and unknown names are refused. -/
example : okAnd (fun _ => true) (processArguments plainEnv (fun _ => namesBehaviour)
      { functype := "scalar", x := [1, -3], nCores := .int 3, batchSize := .int 2 }) = false := by
  decide +kernel

example : okAnd (fun _ => true) (processArguments plainEnv (fun _ => namesBehaviour)
      { functype := "scalar", x := [1, -3], modelType := .str "linear" }) = false := by
  decide +kernel

example : okAnd (fun _ => true) (processArguments plainEnv (fun _ => namesBehaviour)
      { functype := "scalar", x := [1, -3], sampler := .str "hull" }) = false := by
  decide +kernel

/-- Arguments and options the user sets are used. -/
example : okAnd (fun out => decide (out.nEvalsPerPoint = .int 7) && decide (out.nEvalsAtStart = 3) &&
      decide (out.maxIter = 11) && decide (out.searchRadiusFactor = .fin 2) &&
      decide (out.radiusOptions.lookup "shrinking_factor" = some (.flt (.fin (1 / 4)))))
    (processArguments plainEnv (fun _ => namesBehaviour)
      { functype := "scalar", x := [1, -3], noisy := .bool true, nEvalsPerPoint := .int 7,
        nEvalsAtStart := .int 3, maxIter := .int 11, searchRadiusFactor := .flt (.fin 2),
        radiusOptions := some (.dict [("shrinking_factor", .flt (.fin (1 / 4)))]) }) = true := by
  decide +kernel

end Tranquilo
