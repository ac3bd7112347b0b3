import Verif.Spec.MainLoopRaise
import Verif.Lemmas.MainLoopRaise
import Verif.Lemmas.MainLoop
import Verif.Lemmas.Budget
import Verif.Props.AcceptanceMore

/-!
# Runs with safe components do not raise
-/

namespace Tranquilo

variable {K : Type} [Field K] [LinearOrder K] [IsStrictOrderedRing K] {n : Nat} {VM SM : Type}
  {c : Config K} {ce : ComponentsR K n VM SM} {bounds : Bounds K n} {Good : VM → Prop}
  {state : LoopState K n VM SM}

/-- Invariant of the construction of the model in a run without exceptions. -/
structure BuildSafe (c : Config K) (ce : ComponentsR K n VM SM) (state : LoopState K n VM SM)
    (bounds : Bounds K n) (b : Build K n VM SM) : Prop where
  pairs : ∃ l : List (Vec K n × Nat), b.modelXs = l.map Prod.fst ∧ b.modelIndices = l.map Prod.snd ∧
    c.targetSize ≤ l.length ∧ ∀ p ∈ l, p.2 < b.log.xs.length
  points : ∀ y ∈ b.log.xs, InBounds bounds y
  sub : InBounds bounds b.sub.x
  fitted : ∃ log is, ce.fit log is state.trustregion state.vectorModel = .ok b.vectorModel

omit [IsStrictOrderedRing K] in
theorem buildModelR_safe (h : SafeComponents c ce bounds Good)
    (hreg : FeasibleRegion bounds state.trustregion) (hgood : Good state.vectorModel) (log : Log K n)
    (hlog : ∀ y ∈ log.xs, InBounds bounds y) (l : List (Vec K n × Nat)) (hl : c.targetSize ≤ l.length)
    (hv : ∀ p ∈ l, p.2 < log.xs.length) :
    ∃ b, buildModelR ce state log (l.map Prod.fst) (l.map Prod.snd) = .ok b ∧ BuildSafe c ce state bounds b := by
  obtain ⟨vm, sm, sub, h1, h2, h3, h4⟩ := h.model log (l.map Prod.snd) state.trustregion
    state.vectorModel hreg hgood (by simpa using hl) (by
      intro i hi
      obtain ⟨p, hp, rfl⟩ := List.mem_map.1 hi
      exact hv p hp)
  refine ⟨{ log := log, modelXs := l.map Prod.fst, modelIndices := l.map Prod.snd, vectorModel := vm
            model := sm, sub := sub, relStep := relStepLengthR ce state sub }, ?_, ?_⟩
  · unfold buildModelR
    rw [h1]
    change (ce.aggregate vm >>= _) = _
    rw [h2]
    change (ce.solve sm state.trustregion >>= _) = _
    rw [h3]
    rfl
  · exact ⟨⟨l, rfl, rfl, hl, hv⟩, hlog, h4, _, _, h1⟩

theorem dropLoopR_safe (h : SafeComponents c ce bounds Good)
    (hreg : FeasibleRegion bounds state.trustregion) (hgood : Good state.vectorModel) (fuel : Nat)
    (b : Build K n VM SM) (hb : BuildSafe c ce state bounds b) :
    ∃ b', dropLoopR c ce state fuel b = .ok b' ∧ BuildSafe c ce state bounds b' := by
  induction fuel generalizing b with
  | zero => exact ⟨b, rfl, hb⟩
  | succ fuel ih =>
    unfold dropLoopR
    split
    · rename_i hc
      obtain ⟨⟨l, hx, hi, hlen, hv⟩, hp, hs, -⟩ := hb
      rw [hx, List.length_map] at hc
      obtain ⟨kept, dropped, h1, h2, h3, h4, -⟩ := dropWorst_spec ce.nrm state.x state.index
        state.trustregion.radius l 1 (by omega)
      have hkl : kept.length + 1 = l.length := by
        have := h3.length_eq
        simp only [List.length_append] at this
        omega
      obtain ⟨b1, hb1, hs1⟩ := buildModelR_safe h hreg hgood b.log hp kept (by omega)
        fun p hp => hv p (h2.subset hp)
      obtain ⟨b2, hb2, hs2⟩ := ih b1 hs1
      refine ⟨b2, ?_, hs2⟩
      rw [hx, hi, h1]
      change (buildModelR ce state b.log (kept.map Prod.fst) (kept.map Prod.snd) >>= _) = _
      rw [hb1]
      exact hb2
    · exact ⟨b, rfl, hb⟩

omit [IsStrictOrderedRing K] in
/-- Sampling new points, evaluating them and fitting a model. -/
theorem addModel_safe (h : SafeComponents c ce bounds Good)
    (hreg : FeasibleRegion bounds state.trustregion) (hgood : Good state.vectorModel)
    (log : Log K n) (hlog : ∀ y ∈ log.xs, InBounds bounds y) (ids : List Nat)
    (hids : ∀ i ∈ ids, i < log.xs.length) (newXs : List (Vec K n))
    (hnew : ∀ y ∈ newXs, InBounds bounds y) (hlen : c.targetSize ≤ ids.length + newXs.length)
    (req : List (Nat × Nat)) :
    let log' := (log.addXs newXs).1.evaluate ce.oracle req
    let ids' := ids ++ (log.addXs newXs).2
    ∃ b, buildModelR ce state log' (log'.getXs ids') ids' = .ok b ∧ BuildSafe c ce state bounds b := by
  intro log' ids'
  have hxs : log'.xs = (log.addXs newXs).1.xs := Log.evaluate_xs _ _ _
  have hlen2 : (log.addXs newXs).1.xs.length = log.xs.length + newXs.length := by
    simp [Log.addXs]
  have hv : ∀ i ∈ ids', i < log'.xs.length := by
    intro i hi
    rw [hxs]
    rcases List.mem_append.1 hi with hi | hi
    · have := hids i hi; omega
    · exact ((mem_addXs_indices _ _ _).1 hi).2
  obtain ⟨l, h1, h2, h3⟩ := Log.getXs_eq_map log' ids' hv
  rw [h1, h2]
  refine buildModelR_safe h hreg hgood log' ?_ l ?_ ?_
  · rw [hxs]
    intro y hy
    rcases List.mem_append.1 hy with hy | hy
    · exact hlog y hy
    · exact hnew y hy
  · have : l.length = ids'.length := by rw [h2, List.length_map]
    rw [this]
    simp only [ids', List.length_append, Log.addXs, List.length_map, List.length_range]
    exact hlen
  · intro p hp
    exact (List.getElem?_eq_some_iff.1 (h3 p hp)).1

theorem stagnationRoundR_safe (h : SafeComponents c ce bounds Good)
    (hreg : FeasibleRegion bounds state.trustregion) (hgood : Good state.vectorModel) (nEvals : Int)
    (it round : Nat) (b : Build K n VM SM) (hb : BuildSafe c ce state bounds b) :
    ∃ b', stagnationRoundR c ce state nEvals it round b = .ok b' ∧ BuildSafe c ce state bounds b' := by
  obtain ⟨⟨l, hx, hi, hlen, hv⟩, hp, hs, -⟩ := hb
  have hkeep : ∃ kept : List (Vec K n × Nat), kept.Sublist l ∧
      l.length ≤ kept.length + c.stagnation.sampleIncrement ∧
      stagnationKeepR c ce state b = .ok (kept.map Prod.fst, kept.map Prod.snd) := by
    unfold stagnationKeepR
    split
    · rename_i hc
      rw [hx, List.length_map] at hc
      obtain ⟨kept, dropped, h1, h2, h3, h4, -⟩ := dropWorst_spec ce.nrm state.x state.index
        state.trustregion.radius l c.stagnation.sampleIncrement (by omega)
      have := h3.length_eq
      simp only [List.length_append] at this
      exact ⟨kept, h2, by omega, by rw [hx, hi, h1]⟩
    · exact ⟨l, List.Sublist.refl _, by omega, by rw [hx, hi]⟩
  obtain ⟨kept, hk1, hk2, hk3⟩ := hkeep
  obtain ⟨ys, hy1, hy2, hy3⟩ := h.sample it round b.log state.trustregion c.stagnation.sampleIncrement
    (kept.map Prod.fst) hreg
  obtain ⟨b', hb', hs'⟩ := addModel_safe h hreg hgood b.log hp (kept.map Prod.snd) (by
      intro i hi
      obtain ⟨p, hp, rfl⟩ := List.mem_map.1 hi
      exact hv p (hk1.subset hp)) ys hy3 (by rw [List.length_map]; omega)
    ((b.log.addXs ys).2.map fun i => (i, nEvals.toNat))
  refine ⟨b', ?_, hs'⟩
  unfold stagnationRoundR
  rw [hk3]
  change (ce.sample it round b.log state.trustregion c.stagnation.sampleIncrement (kept.map Prod.fst)
    >>= _) = _
  rw [hy1]
  exact hb'

theorem stagnationLoopR_safe (h : SafeComponents c ce bounds Good)
    (hreg : FeasibleRegion bounds state.trustregion) (hgood : Good state.vectorModel) (nEvals : Int)
    (it : Nat) (fuel k : Nat) (b : Build K n VM SM) (hb : BuildSafe c ce state bounds b) :
    ∃ b', stagnationLoopR c ce state nEvals it fuel k b = .ok b' ∧ BuildSafe c ce state bounds b' := by
  induction fuel generalizing b k with
  | zero => exact ⟨b, rfl, hb⟩
  | succ fuel ih =>
    unfold stagnationLoopR
    split
    · obtain ⟨b1, hb1, hs1⟩ := stagnationRoundR_safe h hreg hgood nEvals it (k + 2) b hb
      rw [hb1]
      by_cases hm : c.stagnation.maxTrials ≤ k + 1
      · refine ⟨b1, ?_, hs1⟩
        change (if _ then _ else _) = _
        rw [if_pos hm]
        rfl
      · obtain ⟨b2, hb2, hs2⟩ := ih (k + 1) b1 hs1
        refine ⟨b2, ?_, hs2⟩
        change (if _ then _ else _) = _
        rw [if_neg hm]
        exact hb2
    · exact ⟨b, rfl, hb⟩

/-- The current point is among the points of the search region. -/
theorem current_mem_oldPoints (hreg : FeasibleRegion bounds state.trustregion)
    (hc : state.trustregion.center = state.x) (hsf : 0 ≤ c.searchRadiusFactor) (nrm : Vec K n → K)
    (hn : nrm (fun _ => 0) = 0) (log : Log K n) (hne : log.evals ≠ [])
    (hp : log.xs[state.index]? = some state.x) :
    ∃ l : List (Vec K n × Nat),
      log.getXs (log.indicesInRegion nrm state.trustregion.center
        (c.searchRadiusFactor * state.trustregion.radius)) = l.map Prod.fst ∧
      log.indicesInRegion nrm state.trustregion.center
        (c.searchRadiusFactor * state.trustregion.radius) = l.map Prod.snd ∧
      (∀ p ∈ l, log.xs[p.2]? = some p.1) ∧ (state.x, state.index) ∈ l := by
  set is := log.indicesInRegion nrm state.trustregion.center
    (c.searchRadiusFactor * state.trustregion.radius) with his
  obtain ⟨l, h1, h2, h3⟩ := Log.getXs_eq_map log is (fun i hi => mem_indicesInRegion hi)
  refine ⟨l, h1, h2, h3, ?_⟩
  have hmem : state.index ∈ is := by
    rw [his]
    unfold Log.indicesInRegion
    rw [if_neg (by simpa using hne), List.mem_filter, List.mem_range]
    refine ⟨(List.getElem?_eq_some_iff.1 hp).1, ?_⟩
    rw [hp, hc]
    simp only [sub_self, hn, decide_eq_true_eq]
    exact mul_nonneg hsf hreg.radius.le
  rw [h2, List.mem_map] at hmem
  obtain ⟨p, hp1, hp2⟩ := hmem
  have := h3 p hp1
  rw [hp2, hp] at this
  obtain ⟨a, b⟩ := p
  simp only at hp2 this
  cases this
  cases hp2
  exact hp1

theorem nextMultiple_ge [FloorRing K] (k base : Nat) (hb : 1 ≤ base) :
    k ≤ (nextMultiple (K := K) k base).toNat := by
  obtain ⟨⟨q, hq⟩, h2, h3⟩ := C60_next_multiple (K := K) k base hb
  omega

theorem buildPhaseR_safe [FloorRing K] (h : SafeComponents c ce bounds Good)
    (hcfg : SafeConfig c bounds) (hreg : FeasibleRegion bounds state.trustregion)
    (hgood : Good state.vectorModel) (hc : state.trustregion.center = state.x)
    (it : Nat) (log : Log K n) (hne : log.evals ≠ [])
    (hp : log.xs[state.index]? = some state.x) (hlog : ∀ y ∈ log.xs, InBounds bounds y)
    (nEvals : Int) :
    ∃ r, buildPhaseR c ce it state log nEvals = .ok r ∧ BuildSafe c ce state bounds r.2 := by
  obtain ⟨l, h1, h2, h3, h4⟩ := current_mem_oldPoints hreg hc hcfg.search ce.nrm h.zero log hne hp
  obtain ⟨r, hr⟩ := h.filter state log c.targetSize nEvals l hreg h4
  obtain ⟨kept, hk, hrk⟩ := h.selects state log c.targetSize nEvals l r hr
  obtain ⟨ys, hy1, hy2, hy3⟩ := h.sample it 1 log state.trustregion
    (nextMultiple (K := K) (c.targetSize - kept.length) c.batchSize).toNat (kept.map Prod.fst) hreg
  have hge := nextMultiple_ge (K := K) (c.targetSize - kept.length) c.batchSize hcfg.batch
  obtain ⟨b1, hb1, hs1⟩ := addModel_safe h hreg hgood log hlog (kept.map Prod.snd) (by
      intro i hi
      obtain ⟨p, hp', rfl⟩ := List.mem_map.1 hi
      rcases List.mem_cons.1 (hk hp') with rfl | hp'
      · exact (List.getElem?_eq_some_iff.1 hp).1
      · exact (List.getElem?_eq_some_iff.1 (h3 p hp')).1) ys hy3
    (by rw [List.length_map]; omega)
    (((log.addXs ys).2.map fun i => (i, nEvals.toNat)) ++
      additionalEvalInfo log (kept.map Prod.snd) nEvals)
  obtain ⟨b2, hb2, hs2⟩ := dropLoopR_safe h hreg hgood b1.modelXs.length b1 hs1
  obtain ⟨b3, hb3, hs3⟩ := stagnationLoopR_safe h hreg hgood nEvals it (max 1 c.stagnation.maxTrials) 0
    b2 hs2
  refine ⟨(l.map Prod.snd, b3), ?_, hs3⟩
  unfold buildPhaseR
  dsimp only
  rw [h1, h2, hr, hrk]
  simp only [bind, Except.bind, List.length_map, hy1, hb1, hb2, hb3]
  rfl

/-! ## The acceptance decision -/

omit [IsStrictOrderedRing K] in
theorem lineSearchXsR_safe {nrm : Vec K n → K} {cr : K → K} {sr : SamplerR K n} {rf : K} {bs : Nat}
    {x : Vec K n} {old : Current K n}
    (hs : ∀ log k xs, ∃ ys, sr log { old.trustregion with center := x, radius := rf * old.trustregion.radius }
      k xs = .ok ys ∧ ys.length = k) (log : Log K n) :
    ∃ ys, lineSearchXsR nrm cr sr rf bs x old log = .ok ys ∧ ys.length = bs - 1 := by
  unfold lineSearchXsR
  dsimp only
  have hl : (if isOnBorder nrm cr old.trustregion x (1 / 10) = true then
      sampleOnLine old.x x (alphaGrid bs) else []).length ≤ bs - 1 := by
    split
    · unfold sampleOnLine alphaGrid
      simp only [List.length_map, List.length_range]
      omega
    · simp
  generalize (if isOnBorder nrm cr old.trustregion x (1 / 10) = true then
    sampleOnLine old.x x (alphaGrid bs) else []) = lineXs at hl ⊢
  split
  · obtain ⟨ys, h1, h2⟩ := hs log (bs - 1 - lineXs.length)
      (log.getXs (log.indicesInRegion nrm x (rf * old.trustregion.radius)) ++ lineXs)
    refine ⟨lineXs ++ ys, ?_, by rw [List.length_append]; omega⟩
    unfold speculativeSampleR
    dsimp only
    rw [h1]
    rfl
  · exact ⟨lineXs ++ [], rfl, by simp; omega⟩

/-- The line search does not raise if there is a point besides the candidate with a value. -/
theorem acceptLineSearchR_safe {nrm : Vec K n → K} {cr : K → K} {oracle : Oracle K n} {sr : SamplerR K n}
    {rf m : K} {bs : Nat} {sub : SubSolution K n} {old : Current K n} (hbs : 1 ≤ bs)
    (hs : ∀ log k xs, ∃ ys, sr log
      { old.trustregion with center := sub.x, radius := rf * old.trustregion.radius } k xs = .ok ys ∧
        ys.length = k)
    (hnan : ∀ k y, oracle k y ≠ .nan) (log : Log K n) (hw : log.WF) :
    ∃ r, acceptLineSearchR nrm cr oracle sr rf m bs sub old log = .ok r := by
  unfold acceptLineSearchR
  split
  · exact ⟨_, rfl⟩
  · rename_i hb
    obtain ⟨ys, h1, h2⟩ := lineSearchXsR_safe (nrm := nrm) (cr := cr) (bs := bs) hs (log.addX sub.x).1
    rw [h1]
    set sp : Sampler K n := fun log region k xs => okOr [] (sr log region k xs) with hsp
    have hpure : lineSearchXs nrm cr sp rf bs sub.x old (log.addX sub.x).1 = ys :=
      lineSearchXsR_ok (fun log region k xs r hr => by simp only [hsp, hr, okOr]) h1
    have hlog := lineSearch_log nrm cr oracle sp rf m bs sub old log hb
    have hlog2 : (acceptLineSearch nrm cr oracle sp rf m bs sub old log).1
        = ((log.addX sub.x).1.addXs ys).1.evaluate oracle
          (((log.addX sub.x).2, 1) :: ((log.addX sub.x).1.addXs ys).2.map fun i => (i, 1)) := by
      unfold acceptLineSearch
      rw [if_neg hb]
      dsimp only
      rw [hpure]
    have hpts : lineSearchPoints nrm cr sp rf bs sub old log = sub.x :: ys := by
      unfold lineSearchPoints
      rw [hpure]
    rw [hlog2, hpts] at hlog
    change ∃ r, finishLineSearchR nrm m sub old _ _ _ = .ok r
    rw [hlog]
    unfold finishLineSearchR
    dsimp only
    set L : Log K n := ⟨log.xs ++ (sub.x :: ys), log.evals ++ (sub.x :: ys).mapIdx
      fun j x => (log.xs.length + j, oracle (log.evals.length + j) x)⟩ with hL
    have hval := lineSearch_value oracle log (sub.x :: ys) hw 1 (by simp; omega)
    rw [← hL] at hval
    set fv := ((log.addX sub.x).1.addXs ys).2.map fun i => (i, XVal.mean (L.fvals i)) with hfv
    have hmem : (log.xs.length + 1, XVal.mean (L.fvals (log.xs.length + 1))) ∈ fv := by
      rw [hfv, List.mem_map]
      refine ⟨log.xs.length + 1, ?_, rfl⟩
      rw [mem_addXs_indices]
      simp [Log.addX, Log.addXs]
      omega
    cases hm : idxMin fv with
    | none =>
      exact absurd ((idxMin_spec fv).1 hm _ hmem) (by rw [hval]; exact hnan _ _)
    | some q =>
      unfold idxMinR
      rw [hm]
      exact ⟨_, rfl⟩

omit [IsStrictOrderedRing K] in
theorem noiseR_safe (h : SafeComponents c ce bounds Good) (log : Log K n) (region : Region K n)
    (hreg : FeasibleRegion bounds region) (hdata : NoiseData c ce.oracle log region) :
    ∃ s, noiseR c ce log region = .ok s ∧
      (c.noisy = true → ∀ m zc zp a b, c.decider = .noisy m zc zp a b → ∃ t, s = some (some t)) := by
  unfold noiseR
  split
  · rename_i hn
    obtain ⟨s, hs, hs'⟩ := h.sigma hn log region hreg hdata
    rw [hs]
    refine ⟨some s, rfl, fun _ m zc zp a b hd => ?_⟩
    cases s with
    | none => exact absurd rfl (hs' _ _ _ _ _ hd)
    | some t => exact ⟨t, rfl⟩
  · rename_i hn
    exact ⟨none, rfl, fun h => absurd h hn⟩

theorem runDeciderR_safe [FloorRing K] (h : SafeComponents c ce bounds Good) (hcfg : SafeConfig c bounds)
    {cur : Current K n} (hreg : FeasibleRegion bounds cur.trustregion) (it : Nat)
    {sigma : Option (Option K)}
    (hsig : c.noisy = true → ∀ m zc zp a b, c.decider = .noisy m zc zp a b → ∃ t, sigma = some (some t))
    {sub : SubSolution K n} (hsub : InBounds bounds sub.x)
    (log : Log K n) (hw : log.WF) : ∃ r, runDeciderR c ce it sigma sub cur log = .ok r := by
  unfold runDeciderR
  split
  · exact ⟨_, rfl⟩
  · exact ⟨_, rfl⟩
  · rename_i hd
    obtain ⟨t, rfl⟩ := hsig (hcfg.noise _ _ _ _ _ hd) _ _ _ _ _ hd
    exact ⟨_, rfl⟩
  · rename_i m rf hd
    by_cases hb : c.batchSize = 1
    · unfold acceptLineSearchR
      rw [if_pos hb]
      exact ⟨_, rfl⟩
    · refine acceptLineSearchR_safe hcfg.batch (fun log k xs => ?_)
        ((h.values m rf hd).resolve_left hb) log hw
      obtain ⟨ys, h1, h2, -⟩ := h.sample it 0 log { cur.trustregion with
        center := sub.x, radius := rf * cur.trustregion.radius } k xs
        ⟨hreg.box, mul_pos ((hcfg.line m rf hd).resolve_left hb).1 hreg.radius, hsub⟩
      exact ⟨ys, h1, h2⟩

omit [IsStrictOrderedRing K] in
theorem nextNEvalsR_safe (h : SafeComponents c ce bounds Good) (it : Nat)
    (hreg : FeasibleRegion bounds state.trustregion) (hgood : Good state.vectorModel)
    (nEvals : Int) (b : Build K n VM SM) (hdata : NoiseData c ce.oracle b.log state.trustregion)
    (hb : BuildSafe c ce state bounds b) (rho : XVal K) :
    ∃ p, nextNEvalsR c ce it nEvals b state rho = .ok p := by
  unfold nextNEvalsR
  split
  · rename_i hn
    obtain ⟨l, hl⟩ := h.rhos hn it b.log b.modelXs b.vectorModel state.vectorModel state.trustregion hreg
      hgood hdata hb.fitted
    rw [hl]
    exact ⟨_, rfl⟩
  · exact ⟨_, rfl⟩

/-! ## Whole runs -/

/-- Components that jump in where others raise: they keep all points, sample copies of the center and
propose the center. -/
def fallbackComponents (ce : ComponentsR K n VM SM) (sm : SM) : Components K n VM SM where
  nrm := ce.nrm
  cubeRadius := ce.cubeRadius
  oracle := ce.oracle
  initModel := ce.initModel
  gradNorm := ce.gradNorm
  filter _ _ _ _ xs is := (xs, is)
  sample _ _ _ region k _ := List.replicate k region.center
  fit _ _ _ vm := vm
  aggregate _ := sm
  solve _ region := { x := region.center, expectedImprovement := 0 }
  noiseSigma _ _ := 0
  rhoNoise _ _ _ _ _ _ := []

omit [IsStrictOrderedRing K] in
theorem total_filterSelects (sm : SM)
    (hsel : ∀ state log target nEvals (l : List (Vec K n × Nat)) r,
      ce.filter state log target nEvals (l.map Prod.fst) (l.map Prod.snd) = .ok r →
      ∃ kept : List (Vec K n × Nat), kept ⊆ (state.x, state.index) :: l ∧
        r = (kept.map Prod.fst, kept.map Prod.snd)) :
    FilterSelects (ce.total (fallbackComponents ce sm)) := by
  intro state log target nEvals l
  simp only [ComponentsR.total, fallbackComponents]
  cases hr : ce.filter state log target nEvals (l.map Prod.fst) (l.map Prod.snd) with
  | ok r =>
    obtain ⟨kept, h1, h2⟩ := hsel state log target nEvals l r hr
    exact ⟨kept, h1, h2⟩
  | error e => exact ⟨l, List.subset_cons_self _ _, rfl⟩

/-- Invariant of a run with safe components. -/
structure RunSafe (c : Config K) (cp : Components K n VM SM) (bounds : Bounds K n) (Good : VM → Prop)
    (r : Run K n VM SM) : Prop where
  ok : RunOk cp bounds r
  radius : 0 < r.state.trustregion.radius
  points : ∀ y ∈ r.log.xs, InBounds bounds y
  good : Good r.state.vectorModel
  evals : r.log.evals ≠ []
  twice : RepeatsEvaluations c → 2 ≤ (r.log.fvals r.state.index).length

/-- After a decision of one of the noisy deciders the current point has two evaluations. -/
theorem runDecider_twice [FloorRing K] (cp : Components K n VM SM) (hrep : RepeatsEvaluations c) (it : Nat)
    (log0 : Log K n) (region : Region K n) (sub : SubSolution K n) (cur : Current K n) (log : Log K n)
    (hw : log.WF) (hi : cur.index < log.xs.length) (h2 : 2 ≤ (log.fvals cur.index).length) :
    2 ≤ ((runDecider c cp it log0 region sub cur log).1.fvals
      (runDecider c cp it log0 region sub cur log).2.index).length := by
  have hmono := Log.fvals_length_mono
    (runDecider_grows c cp it log0 region sub cur log hi).evals_prefix cur.index
  have hfin : ∀ (x : Vec K n) fv (k : Nat) rho acc ne,
      (finishDecision cp.nrm x fv k rho acc cur ne).index = cur.index ∨
      (finishDecision cp.nrm x fv k rho acc cur ne).index = k := by
    intro x fv k rho acc ne
    unfold finishDecision getAcceptanceResult
    split
    · dsimp only; split
      · exact Or.inr rfl
      · exact Or.inl rfl
    · exact Or.inl rfl
  have hnew : (log.addX sub.x).2 < (log.addX sub.x).1.xs.length := by simp [Log.addX, Log.addXs]
  unfold runDecider at hmono ⊢
  rcases hrep.2 with ⟨m, hd⟩ | ⟨m, zc, zp, a, b, hd, ha, hab⟩
  · rw [hd] at hmono ⊢
    simp only [acceptNaiveNoisy, acceptSimple] at hmono ⊢
    rcases hfin sub.x _ (log.addX sub.x).2 _ _ _ with e | e
    · rw [e]; omega
    · rw [e]
      rw [Log.fvals_length_evaluate _ _ _ _ hnew]
      have := count_flatMap_ge [((log.addX sub.x).2, 10)] (log.addX sub.x).2 10 (by simp)
      exact (by omega : 2 ≤ 10).trans (this.trans (Nat.le_add_left _ _))
  · rw [hd] at hmono ⊢
    simp only at hmono ⊢
    have h4 : a ≤ ((acceptNoisy cp.nrm cp.oracle m (cp.noiseSigma log0 region) zc zp a b sub cur log).1.fvals
        log.xs.length).length :=
      (C82_noisy_evaluations cp.nrm cp.oracle m (cp.noiseSigma log0 region) zc zp a b hab
        sub cur log _ hw hi _ rfl).2.1
    have hidx : (acceptNoisy cp.nrm cp.oracle m (cp.noiseSigma log0 region) zc zp a b sub cur log).2.index
          = cur.index ∨
        (acceptNoisy cp.nrm cp.oracle m (cp.noiseSigma log0 region) zc zp a b sub cur log).2.index
          = log.xs.length := hfin _ _ _ _ _ _
    rcases hidx with e | e <;> rw [e] <;> omega

theorem adjustRadius_pos {o : RadiusOptions K} (h1 : 0 < o.minRadius) (h2 : 0 < o.maxRadius)
    (h3 : o.maxRadiusToStepRatio = .pinf) (radius : K) (rho : XVal K) (step : K) (inc : Bool) :
    0 < adjustRadius radius rho step o inc := by
  unfold adjustRadius npClip
  rw [h3]
  exact lt_min (lt_max_of_lt_right h1) h2

theorem iterationR_safe [FloorRing K] (h : SafeComponents c ce bounds Good) (hcfg : SafeConfig c bounds)
    (sm : SM) (it : Nat) (r : Run K n VM SM)
    (hr : RunSafe c (ce.total (fallbackComponents ce sm)) bounds Good r) :
    ∃ r', iterationR c ce it r = .ok r' ∧
      RunSafe c (ce.total (fallbackComponents ce sm)) bounds Good r' := by
  set cp := ce.total (fallbackComponents ce sm) with hcp
  have hreal : Realizes ce cp := ce.total_realizes _
  have hf : FilterSelects cp := total_filterSelects sm h.selects
  have hcin : InBounds bounds r.state.x := by
    obtain ⟨hi, he⟩ := List.getElem?_eq_some_iff.1 hr.ok.point
    rw [← he]
    exact hr.points _ (List.getElem_mem hi)
  have hreg : FeasibleRegion bounds r.state.trustregion :=
    ⟨hr.ok.bounds, hr.radius, by rw [hr.ok.center]; exact hcin⟩
  obtain ⟨p, hp, hps⟩ := buildPhaseR_safe h hcfg hreg hr.good hr.ok.center it r.log hr.evals
    hr.ok.point hr.points r.nEvals
  have hpp := buildPhaseR_ok hreal hp
  have hbo := buildPhase_ok c cp it r.state r.log r.nEvals hf hr.ok.point
  rw [hpp] at hbo
  have hcons : p.2.log.Consistent cp.oracle := hbo.grows.consistent hr.ok.consistent
  have hidx : r.state.index < p.2.log.xs.length :=
    (List.getElem?_eq_some_iff.1 hr.ok.point).1.trans_le hbo.grows.xs_prefix.length_le
  have htwice : RepeatsEvaluations c → 2 ≤ (p.2.log.fvals r.state.index).length := fun hrep =>
    (hr.twice hrep).trans (Log.fvals_length_mono hbo.grows.evals_prefix _)
  have hdata : NoiseData c ce.oracle p.2.log r.state.trustregion := by
    refine ⟨?_, fun e he => ?_, r.state.index, ?_, htwice⟩
    · obtain ⟨t, ht⟩ := hbo.grows.evals_prefix
      rw [← ht]
      simp [hr.evals]
    · obtain ⟨k, x, -, hv⟩ := hcons e he
      exact ⟨k, x, hv⟩
    · rw [hr.ok.center]
      exact getElem?_of_prefix hbo.grows.xs_prefix hr.ok.point
  obtain ⟨s, hs, hsn⟩ := noiseR_safe h p.2.log r.state.trustregion hreg hdata
  obtain ⟨d, hd⟩ := runDeciderR_safe h hcfg (cur := r.state.current) hreg it hsn hps.sub p.2.log
    hcons.wf
  have hdp := runDeciderR_ok hreal hs hd
  obtain ⟨q, hq⟩ := nextNEvalsR_safe (state := stateR r.state r.nEvals p.1 p.2 d.2) h it hreg hr.good
    r.nEvals p.2 hdata ⟨hps.pairs, hps.points, hps.sub, hps.fitted⟩ d.2.rho
  have hit : iterationR c ce it r = .ok (endIterationR c ce r.state (stateR r.state r.nEvals p.1 p.2 d.2)
      (r.states ++ [stateR r.state r.nEvals p.1 p.2 d.2]) d.1 d.2 q) := by
    unfold iterationR
    simp only [bind, Except.bind, hp, hs, hd, hq]
    rfl
  refine ⟨_, hit, ?_⟩
  have hok := iteration_ok c cp hf bounds it r hr.ok
  have hgr := iteration_grows c cp hf it r hr.ok.point
  rw [iterationR_ok hreal hit] at hok hgr
  have hend : (endIterationR c ce r.state (stateR r.state r.nEvals p.1 p.2 d.2)
      (r.states ++ [stateR r.state r.nEvals p.1 p.2 d.2]) d.1 d.2 q).log = d.1 ∧
    (endIterationR c ce r.state (stateR r.state r.nEvals p.1 p.2 d.2)
      (r.states ++ [stateR r.state r.nEvals p.1 p.2 d.2]) d.1 d.2 q).state.trustregion.radius
      = adjustRadius r.state.trustregion.radius d.2.rho d.2.stepLength c.radius q.2 ∧
    (endIterationR c ce r.state (stateR r.state r.nEvals p.1 p.2 d.2)
      (r.states ++ [stateR r.state r.nEvals p.1 p.2 d.2]) d.1 d.2 q).state.index = d.2.index ∧
    (endIterationR c ce r.state (stateR r.state r.nEvals p.1 p.2 d.2)
      (r.states ++ [stateR r.state r.nEvals p.1 p.2 d.2]) d.1 d.2 q).state.vectorModel
      = r.state.vectorModel := by
    unfold endIterationR
    dsimp only
    split
    · exact ⟨rfl, rfl, rfl, rfl⟩
    · split <;> exact ⟨rfl, rfl, rfl, rfl⟩
  refine ⟨hok, ?_, ?_, ?_, ?_, ?_⟩
  · rw [hend.2.1]
    exact adjustRadius_pos hcfg.minRadius hcfg.maxRadius hcfg.ratio _ _ _ _
  · rw [hend.1]
    have hg := runDecider_grows c cp it p.2.log r.state.trustregion p.2.sub r.state.current p.2.log
      hidx
    rw [hdp] at hg
    refine (hg.mono ?_).points hps.points
    rintro y (rfl | ⟨m, rf, hdec, hb1, -⟩)
    · exact hps.sub
    · exact ((hcfg.line m rf hdec).resolve_left hb1).2 y
  · rw [hend.2.2.2]; exact hr.good
  · obtain ⟨t, ht⟩ := hgr.evals_prefix
    rw [← ht]
    simp [hr.evals]
  · intro hrep
    rw [hend.1, hend.2.2.1]
    have := runDecider_twice cp hrep it p.2.log r.state.trustregion p.2.sub r.state.current p.2.log
      hcons.wf hidx (htwice hrep)
    rw [hdp] at this
    exact this

theorem runLoopR_safe [FloorRing K] (h : SafeComponents c ce bounds Good) (hcfg : SafeConfig c bounds)
    (sm : SM) (k it : Nat) (r : Run K n VM SM)
    (hr : RunSafe c (ce.total (fallbackComponents ce sm)) bounds Good r) :
    ∃ r', runLoopR c ce k it r = .ok r' ∧
      RunSafe c (ce.total (fallbackComponents ce sm)) bounds Good r' := by
  induction k generalizing it r with
  | zero => exact ⟨r, rfl, hr⟩
  | succ k ih =>
    obtain ⟨r1, h1, hr1⟩ := iterationR_safe h hcfg sm it r hr
    unfold runLoopR
    rw [h1]
    by_cases hs : r1.stop = true
    · refine ⟨r1, ?_, hr1⟩
      change (if _ then _ else _) = _
      rw [if_pos hs]
      rfl
    · obtain ⟨r2, h2, hr2⟩ := ih (it + 1) r1 hr1
      refine ⟨r2, ?_, hr2⟩
      change (if _ then _ else _) = _
      rw [if_neg hs]
      exact h2

theorem startLogR_evals [FloorRing K] (hb : 1 ≤ c.batchSize) (oracle : Oracle K n) (x : Vec K n) :
    (startLogR c oracle x).evals ≠ [] := by
  have hpos : ∃ k, (if 1 < c.nEvalsAtStart then
      (nextMultiple (K := K) c.nEvalsAtStart c.batchSize).toNat else 1) = k + 1 := by
    split
    · have := nextMultiple_ge (K := K) c.nEvalsAtStart c.batchSize hb
      exact ⟨(nextMultiple (K := K) c.nEvalsAtStart c.batchSize).toNat - 1, by omega⟩
    · exact ⟨0, rfl⟩
  obtain ⟨k, hk⟩ := hpos
  unfold startLogR
  rw [hk, Log.evaluate_eq]
  simp [List.replicate_succ, Log.newEvals]

/-- The evaluations of the start point. -/
theorem startLogR_fvals_length [FloorRing K] (hb : 1 ≤ c.batchSize) (oracle : Oracle K n) (x : Vec K n) :
    c.nEvalsAtStart ≤ ((startLogR c oracle x).fvals 0).length := by
  unfold startLogR
  rw [Log.fvals_length_evaluate _ _ _ _ (by simp)]
  refine le_trans ?_ (Nat.le_add_left _ _)
  refine le_trans ?_ (count_flatMap_ge _ 0 _ (List.mem_singleton.2 rfl))
  split
  · exact nextMultiple_ge _ _ hb
  · omega

theorem startLogR_twice [FloorRing K] (hb : 1 ≤ c.batchSize) (h : 2 ≤ c.nEvalsAtStart) (oracle : Oracle K n)
    (x : Vec K n) : 2 ≤ ((startLogR c oracle x).fvals 0).length :=
  h.trans (startLogR_fvals_length hb oracle x)

theorem startRunR_safe [FloorRing K] (h : SafeComponents c ce bounds Good) (hcfg : SafeConfig c bounds)
    (x : Vec K n) (hx : InBounds bounds x) (radius : K) (hrad : 0 < radius) :
    ∃ r sm, startRunR c ce x radius bounds = .ok r ∧
      RunSafe c (ce.total (fallbackComponents ce sm)) bounds Good r := by
  obtain ⟨hgood, sm, hsm⟩ := h.init (startLogR c ce.oracle x)
    { center := x, radius := radius, bounds := bounds } ⟨rfl, hrad, hx⟩
  have hstart : ∃ r, startRunR c ce x radius bounds = .ok r ∧
      r.state.trustregion.radius = radius ∧ r.log = startLogR c ce.oracle x ∧
      r.state.vectorModel = ce.initModel (startLogR c ce.oracle x)
        { center := x, radius := radius, bounds := bounds } ∧ r.state.index = 0 := by
    unfold startRunR
    dsimp only
    rw [hsm]
    exact ⟨_, rfl, rfl, rfl, rfl, rfl⟩
  obtain ⟨r0, h0, h1, h2, h3, h4⟩ := hstart
  set cp := ce.total (fallbackComponents ce sm) with hcp
  have hr0 := startRunR_ok (ce.total_realizes (fallbackComponents ce sm)) h0
  refine ⟨r0, sm, h0, ?_⟩
  · refine ⟨?_, by rw [h1]; exact hrad, ?_, by rw [h3]; exact hgood, ?_, ?_⟩
    · rw [← hr0]
      exact startRun_ok c cp x radius bounds
    · intro y hy
      rw [← hr0] at hy
      have : y = x := by simpa [startRun] using hy
      rw [this]; exact hx
    · rw [h2]
      exact startLogR_evals hcfg.batch ce.oracle x
    · intro hrep
      rw [h2, h4]
      exact startLogR_twice hcfg.batch hrep.1 ce.oracle x

theorem tranquiloR_safe [FloorRing K] (h : SafeComponents c ce bounds Good) (hcfg : SafeConfig c bounds)
    (x : Vec K n) (hx : InBounds bounds x) (radius : K) (hrad : 0 < radius) :
    ∃ r sm, tranquiloR c ce x radius bounds = .ok r ∧
      RunSafe c (ce.total (fallbackComponents ce sm)) bounds Good r := by
  obtain ⟨r0, sm, h0, hsafe⟩ := startRunR_safe h hcfg x hx radius hrad
  obtain ⟨r, hr, hrs⟩ := runLoopR_safe h hcfg sm c.maxIter 0 r0 hsafe
  refine ⟨r, sm, ?_, hrs⟩
  unfold tranquiloR
  rw [h0]
  exact hr

end Tranquilo
