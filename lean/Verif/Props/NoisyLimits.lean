import Verif.Props.Limits
import Verif.Props.MainLoopRaise
import Verif.Props.MainLoopWitness
import Verif.Props.BuiltinRun

/-!
# C63: the number of evaluations of runs with noise
-/

namespace Tranquilo

variable {K : Type} [Field K] [LinearOrder K] [IsStrictOrderedRing K] [FloorRing K] {n : Nat}
  {VM SM : Type}

/-- Specification: asked for `target` points, the filter never keeps more than `M target` points. -/
def FilterKeepsAtMost (M : Nat → Nat) (comp : Components K n VM SM) : Prop :=
  ∀ state log target nEvals (l : List (Vec K n × Nat)),
    (comp.filter state log target nEvals (l.map Prod.fst) (l.map Prod.snd)).1.length ≤ M target

/-- The same for filters that may raise. -/
def FilterKeepsAtMostR (M : Nat → Nat) (ce : ComponentsR K n VM SM) : Prop :=
  ∀ state log target nEvals (l : List (Vec K n × Nat)) r,
    ce.filter state log target nEvals (l.map Prod.fst) (l.map Prod.snd) = .ok r → r.1.length ≤ M target

/-- Specification: the largest number of evaluations an acceptance decision may ask for: one for the
classic rule, ten for the naive rule, `n_max` for each of the two points for the rule with a power
analysis, one batch for the line search. -/
def DeciderChoice.mostEvaluations (batchSize : Nat) : DeciderChoice K → Nat
  | .classic _ => 1
  | .naiveNoisy _ => 10
  | .noisy _ _ _ _ nMax => 2 * nMax
  | .lineSearch _ _ => batchSize

section build

variable (c : Config K) (comp : Components K n VM SM) (it : Nat)

omit [IsStrictOrderedRing K] [FloorRing K] in
theorem nFun_add_times_le (h : Log K n) (oracle : Oracle K n) (rows : List (Vec K n)) (k : Nat) :
    ((h.addXs rows).1.evaluate oracle ((h.addXs rows).2.map fun i => (i, k))).nFun
      ≤ h.nFun + rows.length * k := by
  refine (Log.evaluate_nFun_le _ _ _).trans ?_
  have : ((h.addXs rows).1).nFun = h.nFun := rfl
  rw [this, List.map_map]
  simp [Function.comp_def, addXs_indices_length]

omit [Field K] [LinearOrder K] [IsStrictOrderedRing K] [FloorRing K] in
theorem additional_sum_le (log : Log K n) (ids : List Nat) (k : Int) :
    ((additionalEvalInfo log ids k).map Prod.snd).sum ≤ ids.length * k.toNat := by
  have h : ∀ l : List Nat, (((l.map fun i => (i, (k - ((log.fvals i).length : Int)).toNat)).filter
      fun p => decide (0 < p.2)).map Prod.snd).sum ≤ l.length * k.toNat := by
    intro l
    induction l with
    | nil => simp
    | cons i l ih =>
      rw [List.map_cons, List.filter_cons]
      have hk : (k - ((log.fvals i).length : Int)).toNat ≤ k.toNat := by omega
      rw [List.length_cons, Nat.succ_mul]
      split
      · rw [List.map_cons, List.sum_cons]
        dsimp only
        omega
      · omega
  refine (h _).trans (Nat.mul_le_mul_right _ ?_)
  exact (List.dedup_sublist ids).length_le

theorem firstLog_nFun (hf : FilterSelects comp) (hs : SamplerObeys comp) (hb : 1 ≤ c.batchSize)
    {M : Nat → Nat} (hM : FilterKeepsAtMost M comp)
    (state : LoopState K n VM SM) (log : Log K n) (hx : log.xs[state.index]? = some state.x) (k : Int) :
    (firstLog c comp it state log k).nFun ≤
      log.nFun + (max (M c.targetSize) c.targetSize + c.batchSize - 1) * k.toNat := by
  obtain ⟨kept, hk, -⟩ := filtered_spec c comp state log k hf hx
  have hkM : kept.length ≤ M c.targetSize := by
    obtain ⟨l, e1, e2, -⟩ := Log.getXs_eq_map log (oldIndices c comp state log)
      (fun i hi => mem_indicesInRegion hi)
    have h := hM state log c.targetSize k l
    rw [← e1, ← e2] at h
    change (filtered c comp state log k).1.length ≤ _ at h
    rw [hk] at h
    simpa using h
  unfold firstLog
  refine (Log.evaluate_nFun_le _ _ _).trans ?_
  have h0 : ((log.addXs (firstSample c comp it state log k)).1).nFun = log.nFun := rfl
  rw [h0, List.map_append, List.sum_append, List.map_map]
  have h1 := additional_sum_le log (filtered c comp state log k).2 k
  have h2 : (firstSample c comp it state log k).length ≤
      c.targetSize - kept.length + c.batchSize - 1 := by
    refine (hs _ _ _ _ _ _).trans ((nextMultiple_lt _ _ hb).trans ?_)
    rw [hk, List.length_map]
  have h3 : (filtered c comp state log k).2.length = kept.length := by rw [hk, List.length_map]
  rw [h3] at h1
  have h4 : (List.map (Prod.snd ∘ fun i => (i, k.toNat))
      (log.addXs (firstSample c comp it state log k)).2).sum
      = (firstSample c comp it state log k).length * k.toNat := by
    simp [Function.comp_def, addXs_indices_length]
  rw [h4]
  have h5 : (firstSample c comp it state log k).length + kept.length ≤
      max (M c.targetSize) c.targetSize + c.batchSize - 1 := by omega
  have h6 := Nat.mul_le_mul_right k.toNat h5
  rw [Nat.add_mul] at h6
  omega

omit [IsStrictOrderedRing K] [FloorRing K] in
theorem round_nFun (hs : SamplerObeys comp) (state : LoopState K n VM SM) (k : Int) (round : Nat)
    (b : Build K n VM SM) :
    (stagnationRound c comp state k it round b).log.nFun ≤
      b.log.nFun + c.stagnation.sampleIncrement * k.toNat :=
  (nFun_add_times_le b.log comp.oracle _ _).trans
    (Nat.add_le_add_left (Nat.mul_le_mul_right _ (hs _ _ _ _ _ _)) _)

theorem build_nFun (hf : FilterSelects comp) (hs : SamplerObeys comp) (hb : 1 ≤ c.batchSize)
    {M : Nat → Nat} (hM : FilterKeepsAtMost M comp)
    (state : LoopState K n VM SM) (log : Log K n) (hx : log.xs[state.index]? = some state.x) (k : Int) :
    (buildPhase c comp it state log k).2.log.nFun ≤ log.nFun +
      ((max (M c.targetSize) c.targetSize + c.batchSize - 1) +
        max 1 c.stagnation.maxTrials * c.stagnation.sampleIncrement) * k.toNat := by
  have f2 := firstLog_nFun c comp it hf hs hb hM state log hx k
  have hsec : (secondBuild c comp it state log k).log = firstLog c comp it state log k := by
    obtain ⟨j, bs, -, h2, -, -, h5⟩ := dropLoop_spec c _ _
      (firstBuild_ok c comp it state log k hf hx) (Nat.sub_le _ c.targetSize)
    have := (h5 j le_rfl).2.1
    rw [h2] at this
    exact this
  obtain ⟨m, bs, h1, h2, h3, h4, -, -⟩ := stagnationLoop_spec c (max 1 c.stagnation.maxTrials) 0 _
    (secondBuild_ok c comp it state log k hf hx) (by omega)
  have hall : ∀ j ≤ m, (bs j).log.nFun ≤ (firstLog c comp it state log k).nFun +
      j * c.stagnation.sampleIncrement * k.toNat := by
    intro j
    induction j with
    | zero => intro _; rw [h1, hsec]; omega
    | succ j ih =>
      intro hj
      have g2 := ih (by omega)
      rw [(h4 j (by omega)).2]
      have r2 := round_nFun c comp it hs state k (0 + j + 2) (bs j)
      refine r2.trans ?_
      rw [Nat.succ_mul, Nat.add_mul]
      omega
  rw [buildPhase_eq]
  have g2 := hall m le_rfl
  rw [h2] at g2
  refine g2.trans ?_
  have : m * c.stagnation.sampleIncrement * k.toNat
      ≤ max 1 c.stagnation.maxTrials * c.stagnation.sampleIncrement * k.toNat :=
    Nat.mul_le_mul_right _ (Nat.mul_le_mul_right _ (by simpa using h3))
  rw [Nat.add_mul]
  omega

theorem acceptance_sizes_at_most (sigma : K) (existing : Nat) (ei zc zp : K) (nMin nMax : Nat) :
    (getAcceptanceSampleSizes sigma existing ei zc zp nMin nMax).1.toNat ≤ nMax ∧
    (getAcceptanceSampleSizes sigma existing ei zc zp nMin nMax).2.toNat ≤ nMax := by
  have h1 : (getAcceptanceSampleSizes sigma existing ei zc zp nMin nMax).1 ≤
      max 0 ((nMax : Int) - existing) := Int.ceil_le.2 (min_le_right _ _)
  have h2 : (getAcceptanceSampleSizes sigma existing ei zc zp nMin nMax).2 ≤ (nMax : Int) :=
    Int.ceil_le.2 (by
      have : npClip (getOptimalSampleSizes sigma sigma existing
        ((computeFactor (max ei (1 / 100000000)) zc zp).getD 0)).2 (nMin : K) (nMax : K) ≤ (nMax : K) :=
        min_le_right _ _
      simpa using this)
  omega

theorem lineSearchPoints_length_le (hs : SamplerObeys comp) (hb : 1 ≤ c.batchSize) (rf : K)
    (sub : SubSolution K n) (cur : Current K n) (h : Log K n) :
    (lineSearchPoints comp.nrm comp.cubeRadius (comp.sample it 0) rf c.batchSize sub cur h).length
      ≤ c.batchSize := by
  have hg : (alphaGrid (K := K) c.batchSize).length = min c.batchSize 4 - 1 := by simp [alphaGrid]
  unfold lineSearchPoints lineSearchXs speculativeSample
  simp only [List.length_cons, List.length_append]
  by_cases hbd : isOnBorder comp.nrm comp.cubeRadius cur.trustregion sub.x (1 / 10) = true
  · simp only [hbd, if_true]
    have h1 : (sampleOnLine cur.x sub.x (alphaGrid c.batchSize)).length = min c.batchSize 4 - 1 := by
      simp [sampleOnLine, hg]
    split
    · rw [h1]
      refine (Nat.add_le_add_right (Nat.add_le_add_left (hs _ _ _ _ _ _) _) _).trans ?_
      omega
    · rw [h1, List.length_nil]; omega
  · simp only [hbd, Bool.false_eq_true, if_false, List.length_nil]
    split
    · refine (Nat.add_le_add_right (Nat.add_le_add_left (hs _ _ _ _ _ _) _) _).trans ?_
      omega
    · simp; omega

theorem decider_nFun (hs : SamplerObeys comp) (hb : 1 ≤ c.batchSize)
    (log : Log K n) (region : Region K n) (sub : SubSolution K n) (cur : Current K n) (h : Log K n) :
    (runDecider c comp it log region sub cur h).1.nFun ≤
      h.nFun + c.decider.mostEvaluations c.batchSize := by
  have hsimple : ∀ (m : K) (k : Nat), (acceptSimple comp.nrm comp.oracle m k sub cur h).1.nFun ≤ h.nFun + k := by
    intro m k
    refine (Log.evaluate_nFun_le _ _ _).trans (le_of_eq ?_)
    simp [Log.addX, Log.nFun]
  unfold runDecider
  cases hd : c.decider with
  | classic m => exact hsimple m 1
  | naiveNoisy m => exact hsimple m 10
  | noisy m zc zp a b =>
    refine (Log.evaluate_nFun_le _ _ _).trans ?_
    have h1 := acceptance_sizes_at_most (comp.noiseSigma log region)
      ((h.addX sub.x).1.fvals cur.index).length sub.expectedImprovement zc zp a b
    generalize hX : getAcceptanceSampleSizes (comp.noiseSigma log region)
      ((h.addX sub.x).1.fvals cur.index).length sub.expectedImprovement zc zp a b = X at h1
    have h2 : h.nFun + (X.1.toNat + (X.2.toNat + 0)) ≤ h.nFun + 2 * b := by omega
    rw [← hX] at h2
    exact h2
  | lineSearch m rf =>
    dsimp only [DeciderChoice.mostEvaluations]
    by_cases hb1 : c.batchSize = 1
    · have he : acceptLineSearch comp.nrm comp.cubeRadius comp.oracle (comp.sample it 0) rf m
          c.batchSize sub cur h = acceptSimple comp.nrm comp.oracle m 1 sub cur h := by
        unfold acceptLineSearch acceptClassic; rw [if_pos hb1]
      rw [he, hb1]
      exact hsimple m 1
    · rw [lineSearch_log _ _ _ _ _ _ _ _ _ _ hb1]
      have hlen := lineSearchPoints_length_le c comp it hs hb rf sub cur h
      simp only [Log.nFun, List.length_append, List.length_mapIdx]
      omega

/-- The number of evaluations of one iteration with up to `N` evaluations per point. -/
theorem iteration_nFun (hf : FilterSelects comp) (hs : SamplerObeys comp) (hb : 1 ≤ c.batchSize)
    {M : Nat → Nat} (hM : FilterKeepsAtMost M comp) (hlim : c.noise.minNEvals ≤ c.noise.maxNEvals) {N : Nat}
    (hN : c.noisy = true → c.noise.maxNEvals ≤ N) (r : Run K n VM SM)
    (hx : r.log.xs[r.state.index]? = some r.state.x) (hn : r.nEvals ≤ N) :
    (iteration c comp it r).nEvals ≤ N ∧
    (iteration c comp it r).log.nFun ≤ r.log.nFun +
      (((max (M c.targetSize) c.targetSize + c.batchSize - 1) +
        max 1 c.stagnation.maxTrials * c.stagnation.sampleIncrement) * N +
        c.decider.mostEvaluations c.batchSize) := by
  have h2 : (theBuild c comp it r).log.nFun ≤ _ := build_nFun c comp it hf hs hb hM r.state r.log hx r.nEvals
  have h4 := decider_nFun c comp it hs hb (theBuild c comp it r).log
    r.state.trustregion (theBuild c comp it r).sub r.state.current (theBuild c comp it r).log
  have h5 := Nat.mul_le_mul_left ((max (M c.targetSize) c.targetSize + c.batchSize - 1) +
        max 1 c.stagnation.maxTrials * c.stagnation.sampleIncrement) (by omega : r.nEvals.toNat ≤ N)
  rw [iteration_eq]
  refine ⟨?_, ?_⟩
  · show (theNEvals c comp it r).1 ≤ _
    unfold theNEvals
    split
    · rename_i hno
      have := hN hno
      unfold adjustNEvals
      dsimp only
      split_ifs <;> omega
    · exact hn
  · show (theDecision c comp it r).1.nFun ≤ _
    unfold theDecision
    omega

end build

/-- C63, the overshoot with noise: let `N` be an upper bound of the evaluations per point (the
initial number and, with noise, the maximum of the options) and `M target` the largest number of
points that the filter keeps if `target` are wanted. The total number of evaluations is at most the larger of `max_eval - 1` and the evaluations
at the start, plus those of one iteration: `N` for every point of the model (kept or new, rounded up to the
batch size) and of the stagnation rounds, and those of one acceptance decision. Holds for all four
deciders, with and without noise. -/
theorem C63_total_evaluations_with_noise_partial (c : Config K) (comp : Components K n VM SM)
    (hf : FilterSelects comp) (hs : SamplerObeys comp) (hb : 1 ≤ c.batchSize)
    {M : Nat → Nat} (hM : FilterKeepsAtMost M comp) (hlim : c.noise.minNEvals ≤ c.noise.maxNEvals) {N : Nat}
    (hN : c.noisy = true → c.noise.maxNEvals ≤ N) (hn : c.nEvalsPerPoint ≤ N)
    (x : Vec K n) (radius : K) (bounds : Bounds K n) :
    (tranquilo c comp x radius bounds).log.nFun ≤
      max (max 1 (c.nEvalsAtStart + c.batchSize - 1)) (c.maxEval - 1) +
      (((max (M c.targetSize) c.targetSize + c.batchSize - 1) +
        max 1 c.stagnation.maxTrials * c.stagnation.sampleIncrement) * N +
        c.decider.mostEvaluations c.batchSize) := by
  obtain ⟨m, h1, h2, h3, h4⟩ := tranquilo_iterates c comp x radius bounds
  set r0 := startRun c comp x radius bounds with hr0
  have hinv : ∀ j, RunOk comp bounds (iterates c comp r0 j) ∧ (iterates c comp r0 j).nEvals ≤ N := by
    intro j
    induction j with
    | zero => exact ⟨startRun_ok c comp x radius bounds, hn⟩
    | succ j ih =>
      exact ⟨iteration_ok c comp hf bounds j _ ih.1,
        (iteration_nFun c comp j hf hs hb hM hlim hN _ ih.1.point ih.2).1⟩
  have hstep := fun j => (iteration_nFun c comp j hf hs hb hM hlim hN _ (hinv j).1.point (hinv j).2).2
  have hstart' : r0.log.nFun ≤ max 1 (c.nEvalsAtStart + c.batchSize - 1) := by
    have hle := Log.evaluate_nFun_le comp.oracle (⟨[x], []⟩ : Log K n)
      [(0, if 1 < c.nEvalsAtStart then
      (nextMultiple (K := K) c.nEvalsAtStart c.batchSize).toNat else 1)]
    refine hle.trans ?_
    have hm := nextMultiple_lt (K := K) c.nEvalsAtStart c.batchSize hb
    simp only [Log.nFun, List.length_nil, List.map_cons, List.map_nil, List.sum_cons, List.sum_nil]
    split_ifs <;> omega
  rw [h2]
  cases m with
  | zero =>
    show r0.log.nFun ≤ _
    omega
  | succ m =>
    have h5 : (iterates c comp r0 m).log.nFun ≤
        max (max 1 (c.nEvalsAtStart + c.batchSize - 1)) (c.maxEval - 1) := by
      cases m with
      | zero =>
        show r0.log.nFun ≤ _
        omega
      | succ m =>
        have hs := h3 (m + 1) (by omega) (by omega)
        rw [iterates, iteration_eq] at hs
        simp only [Bool.or_eq_false_iff, decide_eq_false_iff_not, not_le] at hs
        have h6 : (iterates c comp r0 (m + 1)).log
            = (theDecision c comp m (iterates c comp r0 m)).1 := by
          rw [iterates, iteration_eq]
        rw [h6]
        omega
    exact (hstep m).trans (Nat.add_le_add_right h5 _)

/-- The same for components that may raise: it bounds every run that returns. -/
theorem C63_run_that_returns_with_noise_partial {c : Config K} {ce : ComponentsR K n VM SM} {x : Vec K n}
    {radius : K} {bounds : Bounds K n} {r : Run K n VM SM}
    (hf : FilterSelectsR ce) (hs : SamplerObeysR ce) (hb : 1 ≤ c.batchSize)
    {M : Nat → Nat} (hM : FilterKeepsAtMostR M ce) (hlim : c.noise.minNEvals ≤ c.noise.maxNEvals) {N : Nat}
    (hN : c.noisy = true → c.noise.maxNEvals ≤ N) (hn : c.nEvalsPerPoint ≤ N)
    (hr : tranquiloR c ce x radius bounds = .ok r) :
    r.log.nFun ≤ max (max 1 (c.nEvalsAtStart + c.batchSize - 1)) (c.maxEval - 1) +
      (((max (M c.targetSize) c.targetSize + c.batchSize - 1) +
        max 1 c.stagnation.maxTrials * c.stagnation.sampleIncrement) * N +
        c.decider.mostEvaluations c.batchSize) := by
  let fb : Components K n VM SM :=
    { fallbackComponents ce r.state.model with filter := fun _ _ _ _ _ _ => ([], []) }
  have hrun := tranquiloR_ok (ce.total_realizes fb) hr
  rw [← hrun]
  refine C63_total_evaluations_with_noise_partial c _ ?_ ?_ hb ?_ hlim hN hn x radius bounds
  · intro state log target nEvals l
    show ∃ kept : List (Vec K n × Nat), kept ⊆ (state.x, state.index) :: l ∧
      okOr _ (ce.filter state log target nEvals (l.map Prod.fst) (l.map Prod.snd)) = _
    cases h : ce.filter state log target nEvals (l.map Prod.fst) (l.map Prod.snd) with
    | ok q => exact hf state log target nEvals l q h
    | error e => exact ⟨[], by simp, rfl⟩
  · intro it round log region k xs
    show (okOr _ (ce.sample it round log region k xs)).length ≤ k
    cases h : ce.sample it round log region k xs with
    | ok ys => exact hs _ _ _ _ _ _ _ h
    | error e => simp [okOr, fb, fallbackComponents]
  · intro state log target nEvals l
    show (okOr _ (ce.filter state log target nEvals (l.map Prod.fst) (l.map Prod.snd))).1.length ≤ M target
    cases h : ce.filter state log target nEvals (l.map Prod.fst) (l.map Prod.snd) with
    | ok q => exact hM _ _ _ _ _ _ h
    | error e => simp [okOr, fb]

/-- Two built in filters keep a bounded number of points: `discard_all` one, `drop_excess` the
floor of `target * n_max_factor`. -/
theorem C63_filters_that_keep_few {m : Nat} (b : BuiltinSettings K n m) :
    (b.filter = .discardAll → FilterKeepsAtMostR (fun _ => 1) (builtinComponents b)) ∧
    (∀ f : K, b.filter = .dropExcess f → 0 ≤ f →
      FilterKeepsAtMostR (fun target => ⌊(target : K) * f⌋.toNat) (builtinComponents b)) := by
  refine ⟨fun h state log target nEvals l r hr => ?_, fun f h hf state log target nEvals l r hr => ?_⟩
  · have hr' : builtinFilter b state target (l.map Prod.fst) (l.map Prod.snd) = .ok r := hr
    unfold builtinFilter at hr'
    rw [h] at hr'
    cases hr'
    exact le_rfl
  · have hr' : builtinFilter b state target (l.map Prod.fst) (l.map Prod.snd) = .ok r := hr
    unfold builtinFilter at hr'
    rw [h] at hr'
    obtain ⟨xs', is', h1, -, -, h2, -⟩ := C25_drop_excess b.nrm state.x state.index
      state.trustregion.radius (l.map Prod.fst) (l.map Prod.snd) (by simp) target f
      (Int.floor_nonneg.2 (mul_nonneg (Nat.cast_nonneg _) hf))
    have hr2 := h1.symm.trans hr'
    cases hr2
    dsimp only
    omega

/-- The options of the example with noise. -/
def noisyToyConfig (maxEval : Nat) (decider : DeciderChoice ℚ) : Config ℚ :=
  { toyConfig 9 maxEval 2 decider with
    noisy := true, nEvalsPerPoint := 3, nEvalsAtStart := 5
    noise := { NEvalsOptions.default with minNEvals := 2, maxNEvals := 4 } }

/-- The example of `Props/MainLoopWitness.lean` with the filter that keeps only the current point. -/
def noisyToyComponents : Components ℚ 1 ℚ ℚ :=
  { toyComponents toyStep toySample with
    filter := fun state _ _ _ _ _ => discardAll state.x state.index }

/-- A run with noise: six evaluations at the start, two new points with three evaluations each per iteration, and ten for the
acceptance decision. -/
example : FilterSelects noisyToyComponents ∧ FilterKeepsAtMost (fun _ => 1) noisyToyComponents ∧
    (tranquilo (noisyToyConfig 20 (.naiveNoisy 0)) noisyToyComponents (fun _ => 1) 1 noBounds).log.nFun
      = 22 := by
  refine ⟨fun state log target nEvals l => ⟨[(state.x, state.index)], by simp, rfl⟩,
    fun state log target nEvals l => le_rfl, by decide +kernel⟩

end Tranquilo
