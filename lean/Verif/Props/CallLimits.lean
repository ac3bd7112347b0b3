import Verif.Props.CallGuarantees

/-!
# Limits of calls

C63 and C67 for whole calls with arbitrary arguments: the built-in samplers return as many points as numpy draws.
-/

namespace Tranquilo

variable {K O : Type} [Field K] [LinearOrder K] {n m : Nat}

/-- Assumption about numpy: arrays of random numbers have the requested shape. -/
structure RngShapes (rng : SampleRng K n) : Prop where
  normal : ∀ k, (rng.normal k).length = k
  uniform : ∀ k, (rng.uniform01 k).length = k
  normalBlocks : ∀ q k, ∀ b ∈ rng.normalBlocks q k, b.length = k
  uniformBlocks : ∀ q k, ∀ b ∈ rng.uniformBlocks01 q k, b.length = k

theorem allRows_length {rows : List (Row K n)} {ys : List (Vec K n)} (h : allRows rows = some ys) :
    ys.length = rows.length := by
  induction rows generalizing ys with
  | nil => cases h; rfl
  | cons r rest ih =>
    cases r with
    | none => cases h
    | some x =>
      simp only [allRows, Option.map_eq_some_iff] at h
      obtain ⟨zs, hz, rfl⟩ := h
      simp [ih hz]

theorem drawRows_length {d : String} {rng : SampleRng K n} (hrng : RngShapes rng) {k : Nat} {rows : List (Vec K n)}
    (h : drawRows d rng k = .ok rows) : rows.length = k := by
  unfold drawRows at h
  split at h
  · cases h; exact hrng.normal k
  · split at h
    · cases h; simp [hrng.uniform]
    · cases h

theorem drawBlocks_lengths {d : String} {rng : SampleRng K n} (hrng : RngShapes rng) {q k : Nat}
    {blocks : List (List (Vec K n))} (h : drawBlocks d rng q k = .ok blocks) : ∀ b ∈ blocks, b.length = k := by
  unfold drawBlocks at h
  split at h
  · cases h; exact hrng.normalBlocks q k
  · split at h
    · cases h
      intro b hb
      obtain ⟨b', hb', rfl⟩ := List.mem_map.1 hb
      simp [hrng.uniformBlocks q k b' hb']
    · cases h

theorem startSample_length_le {root : K → K} {e : Option (List (Vec K n))} {shape : Shape} {q k : Nat}
    {cands : List (List (Row K n))} {x0 : List (Row K n)} (hc : ∀ b ∈ cands, b.length = k)
    (h : startSample root e shape q cands = .ok x0) : x0.length ≤ k := by
  unfold startSample at h
  split at h
  · cases h
    cases cands with
    | nil => simp
    | cons b _ => exact (hc b (by simp)).le
  · split at h
    · cases h
    · rename_i i _
      cases h
      rw [List.getD_eq_getElem?_getD]
      cases hi : cands[i]? with
      | none => simp
      | some b => exact (hc b (List.mem_of_getElem? hi)).le

theorem optimizeSample_length_le {root cr : K → K} {region : Region K n} {p : Int} {o : OptimalSampler K n}
    {e : Option (List (Vec K n))} {x0 : List (Row K n)} {k : Nat} (h0 : x0.length ≤ k)
    (ho : ∀ f x, (o.minimize f x).length = x.length) : (optimizeSample root cr region p o e x0).1.length ≤ k := by
  simp only [optimizeSample, projectHull, List.length_map]
  split
  · exact h0
  · unfold optimizerResult
    split
    · exact h0
    · rw [ho]; exact h0

/-- Built-in samplers return at most as many points as they are asked for. -/
theorem builtin_samplerObeysR [FloorRing K] (b : BuiltinSettings K n m)
    (hrng : ∀ it round log, RngShapes (b.rng it round log))
    (ho : ∀ o, b.sampler = .optimalHull o → ∀ f x, (o.minimize f x).length = x.length) :
    SamplerObeysR (builtinComponents b) := by
  intro it round log region k xs ys h
  have h' : builtinSampleR b it round log region k xs = .ok ys := h
  unfold builtinSampleR at h'
  have tail : ∀ {rows : List (Row K n)}, rows.length ≤ k → (match allRows rows with
      | some ys => pure ys
      | none => Except.error Err.valueError) = Except.ok ys → ys.length ≤ k := by
    intro rows hlen h
    split at h
    · rename_i zs hz
      cases h
      rw [allRows_length hz]
      exact hlen
    · cases h
  dsimp only at h'
  split at h'
  · obtain ⟨rows, hrows, h'⟩ := except_bind_ok.1 h'
    refine tail ?_ h'
    unfold interiorSampler ballSampler boxSampler at hrows
    split at hrows <;> split at hrows <;> cases hrows <;>
      simp [(hrng it round log).normal, (hrng it round log).uniform]
  · obtain ⟨rows, hrows, h'⟩ := except_bind_ok.1 h'
    refine tail ?_ h'
    unfold hullSampler at hrows
    split at hrows
    · cases hrows
    · split at hrows
      · cases hrows
      · rename_i raw hraw
        cases hrows
        simp [projectHull, drawRows_length (hrng it round log) hraw]
  · rename_i o hsam
    obtain ⟨rows, hrows, h'⟩ := except_bind_ok.1 h'
    refine tail ?_ h'
    obtain ⟨q, hq, rfl⟩ := except_map_ok.1 hrows
    unfold optimalHullSampler at hq
    split at hq
    · cases hq; simp
    · dsimp only at hq
      split at hq
      · cases hq
      · rename_i blocks hblocks
        split at hq
        · cases hq
        · rename_i x0 hx0
          cases hq
          refine optimizeSample_length_le (startSample_length_le ?_ hx0) (ho o hsam)
          intro b' hb'
          obtain ⟨b'', hb'', rfl⟩ := List.mem_map.1 hb'
          simpa [projectHull] using drawBlocks_lengths (hrng it round log) hblocks b'' hb''

section calls

variable [IsStrictOrderedRing K] [FloorRing K] {env : PyEnv K O} {ext : Externals K O n m}
  {a : Arguments K O (Option (Piece K n))} {x : Vec K n} {bounds : Bounds K n}
  {r : Run K n (VectorModel K n m) (ScalarModel K n)}

/-- C67 for calls: the points of every state are accounted for, with the norm and the search radius that are in force. -/
theorem C67_call (hr : tranquiloCall env ext a x bounds = .ok (some r)) (hbatch : PositiveBatch env a) :
    ∃ (c : Config K) (b : BuiltinSettings K n m) (radius : K), CallUses env ext a x c b radius ∧
      ∀ s ∈ r.states, ∀ ne, s.nEvalsPerPoint = some ne →
        ∃ n0 ≤ r.log.xs.length, Accounted ext.nrm c.searchRadiusFactor r.log s ne n0 := by
  obtain ⟨c, b, radius, hrun, hu⟩ := C118_run_uses_the_arguments env ext a x bounds r hr
  have h := C67_points_of_a_run_that_returns (builtin_filterSelectsR b)
    (by exact_mod_cast hbatch _ hu.batchSize) hrun
  have h1 : (builtinComponents b).nrm = ext.nrm := hu.numpy.1
  rw [h1] at h
  exact ⟨c, b, radius, hu, h⟩

/-- Specification: the call is for a criterion without noise, with one evaluation per point, and decides about steps by
comparing two values. -/
structure PlainCall (env : PyEnv K O) (a : Arguments K O (Option (Piece K n))) : Prop where
  noisy : ¬ ReadsBool env a.noisy true
  decider : a.acceptanceDecider = none ∨ a.acceptanceDecider = some (.str "classic") ∨
    a.acceptanceDecider = some (.str "classic_line_search")
  perPoint : ∀ k, ReadsInt env a.nEvalsPerPoint k → k = 1
  atStart : ∀ k, ReadsInt env a.nEvalsAtStart k → k = 1

omit [IsStrictOrderedRing K] in
theorem PlainCall.config (hp : PlainCall env a) {c : Config K} {b : BuiltinSettings K n m} {radius : K}
    (hu : CallUses env ext a x c b radius) :
    c.noisy = false ∧ ((∃ mi, c.decider = .classic mi) ∨ ∃ mi rf, c.decider = .lineSearch mi rf) ∧
    c.nEvalsPerPoint = 1 ∧ c.nEvalsAtStart = 1 := by
  have hn : c.noisy = false := by
    cases hc : c.noisy with
    | false => rfl
    | true => exact absurd (hc ▸ hu.noisy) hp.noisy
  refine ⟨hn, ?_, ?_, ?_⟩
  · obtain ⟨s, hs, hD⟩ : ∃ s, (s = "classic" ∨ s = "classic_line_search") ∧
        DeciderIs env ext a.acceptanceDeciderOptions s c.decider := by
      rcases hp.decider with h | h | h
      · exact ⟨"classic", Or.inl rfl, hu.decider _ (by rw [h, hn]; rfl)⟩
      · exact ⟨_, Or.inl rfl, hu.decider _ (by rw [h]; rfl)⟩
      · exact ⟨_, Or.inr rfl, hu.decider _ (by rw [h]; rfl)⟩
    generalize c.decider = D at hD
    cases hD with
    | classic mi => exact Or.inl ⟨mi, rfl⟩
    | naiveNoisy mi => exact absurd hs (by decide)
    | noisy mi => exact absurd hs (by decide)
    | lineSearch mi f => exact Or.inr ⟨mi, f, rfl⟩
  · rcases hu.perPoint with ⟨-, h⟩ | h
    · rw [h, hn]; rfl
    · exact hp.perPoint _ h
  · rcases hu.atStart with ⟨-, h⟩ | h
    · rw [h, hn]; simp
    · exact_mod_cast hp.atStart _ h

/-- C63 for calls without noise: the number of evaluations exceeds the limit by at most one iteration, computed from the
options that are in force. For all built-in samplers. -/
theorem C63_call_partial (hr : tranquiloCall env ext a x bounds = .ok (some r)) (hbatch : PositiveBatch env a)
    (hp : PlainCall env a) {s : String} (hsam : a.sampler = .str s)
    (hrng : ∀ it round log, RngShapes (ext.rng it round log))
    (hmin : ∀ u v f y, (ext.minimize u v f y).length = y.length) :
    ∃ (c : Config K) (b : BuiltinSettings K n m) (radius : K), CallUses env ext a x c b radius ∧
      r.states.length ≤ c.maxIter + 1 ∧
      r.log.nFun ≤ max 1 (c.maxEval - 1) + ((c.targetSize + c.batchSize - 1) +
        max 1 c.stagnation.maxTrials * c.stagnation.sampleIncrement + c.batchSize) := by
  obtain ⟨c, b, radius, hrun, hu⟩ := C118_run_uses_the_arguments env ext a x bounds r hr
  obtain ⟨hn, hdec, hone, hstart⟩ := hp.config hu
  have hs : SamplerObeysR (builtinComponents b) := by
    refine builtin_samplerObeysR b (fun it round log => ?_) (fun o h => ?_)
    · rw [hu.numpy.2.2.2.2.2.2.2.1]; exact hrng it round log
    · have hS := hu.sampler s hsam
      rw [h] at hS
      cases hS
      exact hmin _ _
  refine ⟨c, b, radius, hu, ?_, C63_run_that_returns_total_evaluations_partial (builtin_filterSelectsR b) hs
    (by exact_mod_cast hbatch _ hu.batchSize) hdec hn hone hstart hrun⟩
  obtain ⟨cp, rfl, -, -, -, -⟩ := tranquiloR_run hrun
  obtain ⟨k, rs, -, -, hk, hle, hlen, -⟩ := C63_limits_partial c cp x radius bounds
  rw [← hk, hlen]
  omega

/-- C63 with the default options: a call for a criterion without noise on one core with the limit `limit` uses at most
`limit - 1` evaluations (or one, if the limit is zero or one) plus the sample size (`n + 2` for linear and `2 n + 1` for
quadratic models) plus two. -/
theorem C63_default_call_partial (hr : tranquiloCall env ext a x bounds = .ok (some r)) (hp : PlainCall env a)
    (hbatch : a.batchSize = .none) (hcores : a.nCores = .int 1) (hsize : a.sampleSize = .value .none)
    (hst : a.stagnationOptions = none) {limit : ℕ} (hlimit : a.maxEval = .int limit)
    {s : String} (hsam : a.sampler = .str s)
    (hrng : ∀ it round log, RngShapes (ext.rng it round log))
    (hmin : ∀ u v f y, (ext.minimize u v f y).length = y.length) :
    ∃ mt, ModelTypeIs a.functype a.modelType mt ∧
      r.log.nFun ≤ max 1 (limit - 1) + ((if mt = .quadratic then 2 * n + 1 else n + 2) + 2) := by
  have one : ∀ k : ℤ, (a.batchSize = .none ∧ ReadsInt env a.nCores k) ∨ ReadsInt env a.batchSize k → k = 1 := by
    intro k hk
    rw [hbatch, hcores] at hk
    rcases hk with ⟨-, hk | hk | hk⟩ | hk | hk | hk
    · cases hk; rfl
    · cases hk.1
    · cases hk.1
    · cases hk
    · cases hk.1
    · cases hk.1
  obtain ⟨c, b, radius, hu, -, h⟩ := C63_call_partial hr (fun k hk => (one k hk).ge) hp hsam hrng hmin
  have h1 : c.batchSize = 1 := by exact_mod_cast one _ hu.batchSize
  obtain ⟨hn, -⟩ := hp.config hu
  have hT := hu.sampleSize.2.2 hsize
  have uses_int : ∀ {name : String} {i j : ℤ}, Uses env none name (.int i) (.int j) → j = i := by
    intro name i j h
    rcases h with h | ⟨q, -, h⟩
    · rcases h with ⟨h, -⟩ | ⟨d, v, hd, -⟩
      · exact PyVal.int.inj h
      · rcases hd with hd | hd <;> cases hd
    · cases h
  have hstag := hu.stagnation
  rw [hst] at hstag
  have hi : c.stagnation.sampleIncrement = 1 := by
    exact_mod_cast uses_int (hstag ("sample_increment", .int 1, .int c.stagnation.sampleIncrement)
      (by simp [stagnationTable]))
  have ht : c.stagnation.maxTrials = 1 := by
    exact_mod_cast uses_int (hstag ("max_trials", .int 1, .int c.stagnation.maxTrials)
      (by simp [stagnationTable]))
  have hE : c.maxEval = limit := by
    obtain ⟨i, hi, hm⟩ := hu.maxEval
    rw [hlimit] at hi
    rcases hi with hi | hi | hi
    · cases hi
      omega
    · cases hi.1
    · cases hi.1
  refine ⟨b.modelType, hu.modelType, ?_⟩
  rw [h1, hi, ht, hE] at h
  rw [h1, hn] at hT
  split_ifs at hT ⊢ <;> simp_all

end calls

/-- The bound applies: with the limit two this call uses four evaluations, and not more than six are possible. -/
example : ∃ r, tranquiloCall plainEnv coresExternals
      { functype := "least_squares", x := [], maxEval := .int 2 } (fun _ => 1)
      ⟨fun _ => none, fun _ => none⟩ = .ok (some r) ∧ r.log.nFun = 4 ∧ r.log.nFun ≤ 6 ∧ r.msg = some .maxEval := by
  have key : (match tranquiloCall plainEnv coresExternals
        { functype := "least_squares", x := [], maxEval := .int 2 } (fun _ => 1)
        ⟨fun _ => none, fun _ => none⟩ with
      | .ok (some r) => decide (r.log.nFun = 4) && decide (r.msg = some .maxEval)
      | _ => false) = true := by
    decide +kernel
  split at key
  · rename_i r hr
    simp only [Bool.and_eq_true, decide_eq_true_eq] at key
    refine ⟨r, hr, key.1, ?_, key.2⟩
    have no : ∀ k, ReadsInt plainEnv (.none : PyVal ℚ Unit) k → k = 1 := by
      intro k hk
      rcases hk with hk | hk | hk
      · cases hk
      · cases hk.1
      · cases hk.1
    obtain ⟨mt, hmt, h⟩ := C63_default_call_partial (limit := 2) hr ⟨(fun h => by cases h), Or.inl rfl, no, no⟩
      rfl rfl rfl rfl rfl rfl (fun _ _ _ => ⟨fun _ => by simp [coresExternals, slopeExternals, slopeRng],
        fun _ => by simp [coresExternals, slopeExternals, slopeRng],
        fun _ _ b hb => by simp_all [coresExternals, slopeExternals, slopeRng],
        fun _ _ b hb => by simp_all [coresExternals, slopeExternals, slopeRng]⟩) (fun _ _ _ _ => rfl)
    cases hmt with
    | scalar h' => exact absurd h' (by decide)
    | vector _ => simpa using h
  · cases key

end Tranquilo
