import Verif.Lemmas.Rescale

/-!
# Two runs of the optimizer with the criterion in different units
-/

namespace Tranquilo

variable {K : Type} [Field K] [LinearOrder K] [IsStrictOrderedRing K] {n : Nat} {VM VM' SM : Type}
variable {c d : K}

/-- Two results of a decider: the same in everything but the units of the value. -/
structure SameAccept (c d : K) (a a' : Log K n × AcceptanceResult K n) : Prop where
  log : a'.1 = a.1.rescale c d
  x : a'.2.x = a.2.x
  fval : a'.2.fval = a.2.fval.rescale c d
  index : a'.2.index = a.2.index
  rho : a'.2.rho = a.2.rho
  accepted : a'.2.accepted = a.2.accepted
  stepLength : a'.2.stepLength = a.2.stepLength
  relativeStepLength : a'.2.relativeStepLength = a.2.relativeStepLength
  candidateIndex : a'.2.candidateIndex = a.2.candidateIndex
  candidateX : a'.2.candidateX = a.2.candidateX
  nEvalsAcceptance : a'.2.nEvalsAcceptance = a.2.nEvalsAcceptance

/-- The current point in the new units. -/
def Current.rescale (c d : K) (o : Current K n) : Current K n := { o with fval := o.fval.rescale c d }

theorem finish_rescale (nrm : Vec K n → K) (x : Vec K n) (v : XVal K) (i : Nat) (rho : XVal K)
    (acc : Bool) (o : Current K n) (k : Int) (h : Log K n) :
    SameAccept c d (h, finishDecision nrm x v i rho acc o k)
      (h.rescale c d, finishDecision nrm x (v.rescale c d) i rho acc (o.rescale c d) k) := by
  simp only [finishDecision, rescale_isFinite]
  cases v.isFinite <;> cases acc <;> constructor <;> rfl

theorem acceptSimple_rescale (hc : 0 < c) {o o' : Oracle K n}
    (ho : ∀ k x, o' k x = (o k x).rescale c d) (nrm : Vec K n → K) (m : K) (k : Nat)
    {sub sub' : SubSolution K n} (hs : SameSub c sub sub') (cur : Current K n) (h : Log K n) :
    SameAccept c d (acceptSimple nrm o m k sub cur h)
      (acceptSimple nrm o' (c * m) k sub' (cur.rescale c d) (h.rescale c d)) := by
  simp only [acceptSimple, hs.1, Log.rescale_addX, Log.rescale_evaluate ho, Log.rescale_mean]
  rw [show (cur.rescale c d).fval = cur.fval.rescale c d from rfl, rescale_sub, rescale_neg, hs.2,
    rescale_rho hc]
  simp only [rescale_fin_le hc]
  exact finish_rescale ..

theorem sampleSizes_rescale [FloorRing K] (hc : 0 < c) (s e : K) (k : Nat) (zc zp : K)
    (nMin nMax : Nat) (h1 : 1 / 100000000 ≤ e) (h2 : 1 / 100000000 ≤ c * e) :
    getAcceptanceSampleSizes (c * s) k (c * e) zc zp nMin nMax =
      getAcceptanceSampleSizes s k e zc zp nMin nMax := by
  have he : e ≠ 0 := by
    rintro rfl
    norm_num at h1
  have hc' := hc.ne'
  have hfac : ∀ z : K, (z / (c * e)) ^ 2 = (z / e) ^ 2 / c ^ 2 := by
    intro z
    field_simp
  have hopt : ∀ f : K, getOptimalSampleSizes (c * s) (c * s) k (f / c ^ 2) =
      getOptimalSampleSizes s s k f := by
    intro f
    have e1 : c * s * (c * s + c * s) * (f / c ^ 2) = s * (s + s) * f := by field_simp
    have e2 : (c * s) ^ 2 * ((f / c ^ 2)⁻¹ - (c * s) ^ 2 / (k : K))⁻¹ =
        s ^ 2 * (f⁻¹ - s ^ 2 / (k : K))⁻¹ := by
      have : (f / c ^ 2)⁻¹ - (c * s) ^ 2 / (k : K) = c ^ 2 * (f⁻¹ - s ^ 2 / (k : K)) := by
        rw [inv_div]
        ring
      rw [this, mul_inv]
      field_simp
    simp only [getOptimalSampleSizes, e1, e2]
  simp only [getAcceptanceSampleSizes, max_eq_left h1, max_eq_left h2, computeFactor, he, mul_eq_zero,
    hc', or_self, if_false, Option.getD_some, hfac, hopt]

theorem acceptNoisy_rescale [FloorRing K] (hc : 0 < c) {o o' : Oracle K n}
    (ho : ∀ k x, o' k x = (o k x).rescale c d) (nrm : Vec K n → K) (m s zc zp : K) (nMin nMax : Nat)
    {sub sub' : SubSolution K n} (hs : SameSub c sub sub') (cur : Current K n) (h : Log K n)
    (h1 : 1 / 100000000 ≤ sub.expectedImprovement) (h2 : 1 / 100000000 ≤ c * sub.expectedImprovement) :
    SameAccept c d (acceptNoisy nrm o m s zc zp nMin nMax sub cur h)
      (acceptNoisy nrm o' (c * m) (c * s) zc zp nMin nMax sub' (cur.rescale c d) (h.rescale c d)) := by
  simp only [acceptNoisy, hs.1, hs.2, Log.rescale_addX, show (cur.rescale c d).index = cur.index from rfl,
    Log.rescale_fvals, List.length_map, sampleSizes_rescale hc _ _ _ _ _ _ _ h1 h2,
    Log.rescale_evaluate ho, rescale_mean]
  rw [rescale_sub, rescale_neg, rescale_rho hc]
  simp only [rescale_fin_le hc]
  exact finish_rescale ..

theorem idxMin_rescale (hc : 0 < c) (l : List (Nat × XVal K)) :
    idxMin (l.map fun p => (p.1, p.2.rescale c d)) =
      (idxMin l).map fun p => (p.1, p.2.rescale c d) := by
  induction l with
  | nil => rfl
  | cons p l ih =>
    simp only [List.map_cons, idxMin, ih]
    cases idxMin l with
    | none =>
      simp only [Option.map_none, rescale_isNan]
      cases p.2.isNan <;> rfl
    | some q =>
      simp only [Option.map_some, rescale_isNan, rescale_lt hc]
      cases p.2.isNan
      · by_cases h : q.2 < p.2 <;> simp [h]
      · rfl

theorem idxMinR_rescale (hc : 0 < c) (l : List (Nat × XVal K)) :
    SameOutcome (fun p p' => p' = (p.1, p.2.rescale c d)) (idxMinR l)
      (idxMinR (l.map fun p => (p.1, p.2.rescale c d))) := by
  simp only [idxMinR, idxMin_rescale hc]
  cases idxMin l with
  | some q => exact rfl
  | none =>
    simp only [Option.map_none, List.map_eq_nil_iff]
    split_ifs <;> exact rfl

theorem lineSearchXs_rescale {sample sample' : SamplerR K n}
    (hs : ∀ h r k xs, sample' (h.rescale c d) r k xs = sample h r k xs) (nrm : Vec K n → K) (cr : K → K)
    (rf : K) (b : Nat) (x : Vec K n) (cur : Current K n) (h : Log K n) :
    lineSearchXsR nrm cr sample' rf b x (cur.rescale c d) (h.rescale c d) =
      lineSearchXsR nrm cr sample rf b x cur h := by
  have h1 : (cur.rescale c d).trustregion = cur.trustregion := rfl
  have h2 : (cur.rescale c d).x = cur.x := rfl
  simp only [lineSearchXsR, h1, h2, speculativeSampleR, Log.rescale_indicesInRegion, Log.rescale_getXs,
    hs]

theorem acceptLineSearch_rescale (hc : 0 < c) {o o' : Oracle K n} {sample sample' : SamplerR K n}
    (ho : ∀ k x, o' k x = (o k x).rescale c d)
    (hs : ∀ h r k xs, sample' (h.rescale c d) r k xs = sample h r k xs) (nrm : Vec K n → K) (cr : K → K)
    (rf m : K) (b : Nat) {sub sub' : SubSolution K n} (hsub : SameSub c sub sub') (cur : Current K n)
    (h : Log K n) :
    SameOutcome (SameAccept c d) (acceptLineSearchR nrm cr o sample rf m b sub cur h)
      (acceptLineSearchR nrm cr o' sample' rf (c * m) b sub' (cur.rescale c d) (h.rescale c d)) := by
  simp only [acceptLineSearchR]
  split_ifs with hb
  · exact acceptSimple_rescale hc ho nrm m 1 hsub cur h
  · simp only [hsub.1, Log.rescale_addX, lineSearchXs_rescale hs]
    refine SameOutcome.bind (SameOutcome.refl_eq rfl) fun xs xs' _ hx => ?_
    subst hx
    simp only [Log.rescale_addXs, Log.rescale_evaluate ho, finishLineSearchR, Log.rescale_mean]
    rw [show (cur.rescale c d).fval = cur.fval.rescale c d from rfl, rescale_sub, rescale_neg, hsub.2,
      rescale_rho hc]
    have hmap : ∀ (h : Log K n) (l : List Nat),
        (l.map fun i => (i, (XVal.mean (h.fvals i)).rescale c d)) =
          (l.map fun i => (i, XVal.mean (h.fvals i))).map fun p => (p.1, p.2.rescale c d) := by
      intro h l
      rw [List.map_map]
      rfl
    rw [hmap]
    refine SameOutcome.bind (idxMinR_rescale hc _) fun p p' _ hp => ?_
    subst hp
    simp only [rescale_lt hc, Log.rescale_xs, hsub.1]
    rw [show ∀ (P : Prop) [Decidable P] (a : Nat × XVal K) (i : Nat) (v : XVal K),
      (if P then (a.1, a.2.rescale c d) else (i, v.rescale c d)) =
        ((if P then a else (i, v)).1, (if P then a else (i, v)).2.rescale c d) from
      fun P _ a i v => by split_ifs <;> rfl]
    simp only [rescale_sub, rescale_neg, rescale_fin_le hc]
    exact finish_rescale ..

/-- Two builds: the same points and candidate, related models. -/
structure SameBuild (c d : K) (RV : VM → VM' → Prop) (RS : SM → SM → Prop)
    (comp : ComponentsR K n VM SM) (b : Build K n VM SM) (b' : Build K n VM' SM) :
    Prop where
  log : b'.log = b.log.rescale c d
  modelXs : b'.modelXs = b.modelXs
  modelIndices : b'.modelIndices = b.modelIndices
  vectorModel : RV b.vectorModel b'.vectorModel
  model : RS b.model b'.model
  sub : SameSub c b.sub b'.sub
  solved : ∃ sm r, comp.solve sm r = .ok b.sub
  relStep : b'.relStep = b.relStep

variable {RV : VM → VM' → Prop} {RS : SM → SM → Prop} {comp : ComponentsR K n VM SM} {comp' : ComponentsR K n VM' SM} {noisy : Bool}

theorem SameState.current_eq {s : LoopState K n VM SM} {s' : LoopState K n VM' SM} (h : SameState c d RV RS s s') :
    s'.current = s.current.rescale c d := by
  simp only [LoopState.current, Current.rescale, h.trustregion, h.x, h.fval, h.index]

theorem buildModel_rescale (hu : UnitsRespected c d noisy RV RS comp comp') {s : LoopState K n VM SM} {s' : LoopState K n VM' SM}
    (hs : SameState c d RV RS s s') (h : Log K n) (xs : List (Vec K n)) (is : List Nat) :
    SameOutcome (SameBuild c d RV RS comp) (buildModelR comp s h xs is)
      (buildModelR comp' s' (h.rescale c d) xs is) := by
  simp only [buildModelR, hs.trustregion]
  refine SameOutcome.bind (hu.fit _ _ _ _ _ hs.vectorModel) fun vm vm' _ hvm => ?_
  refine SameOutcome.bind (hu.aggregate _ _ hvm) fun sm sm' _ hsm => ?_
  refine SameOutcome.bind (hu.solve _ _ _ hsm) fun sub sub' hsol hsub => ?_
  exact ⟨rfl, rfl, rfl, hvm, hsm, hsub, ⟨_, _, hsol⟩, by
    simp only [relStepLengthR, hu.nrm, hsub.1, hs.x, hs.trustregion]⟩

theorem dropLoop_rescale (hu : UnitsRespected c d noisy RV RS comp comp') (g : Config K)
    {s : LoopState K n VM SM} {s' : LoopState K n VM' SM} (hs : SameState c d RV RS s s') (fuel : Nat) :
    ∀ {b : Build K n VM SM} {b' : Build K n VM' SM}, SameBuild c d RV RS comp b b' →
      SameOutcome (SameBuild c d RV RS comp) (dropLoopR g comp s fuel b)
        (dropLoopR (g.rescale c) comp' s' fuel b') := by
  induction fuel with
  | zero => exact fun hb => hb
  | succ fuel ih =>
    intro b b' hb
    simp only [dropLoopR, Config.rescale, hb.relStep, hb.modelXs, hb.modelIndices, hb.log, hu.nrm, hs.x,
      hs.index, hs.trustregion]
    split_ifs with hcond
    · refine SameOutcome.bind (SameOutcome.refl_eq rfl) fun r r' _ hr => ?_
      subst hr
      refine SameOutcome.bind (buildModel_rescale hu hs _ _ _) fun b1 b1' _ hb1 => ?_
      exact ih hb1
    · exact hb

theorem stagnationRound_rescale (hu : UnitsRespected c d noisy RV RS comp comp') (g : Config K)
    {s : LoopState K n VM SM} {s' : LoopState K n VM' SM} (hs : SameState c d RV RS s s') (k : Int) (it round : Nat)
    {b : Build K n VM SM} {b' : Build K n VM' SM} (hb : SameBuild c d RV RS comp b b') :
    SameOutcome (SameBuild c d RV RS comp) (stagnationRoundR g comp s k it round b)
      (stagnationRoundR (g.rescale c) comp' s' k it round b') := by
  have hkeep : stagnationKeepR (g.rescale c) comp' s' b' = stagnationKeepR g comp s b := by
    simp only [stagnationKeepR, Config.rescale, hb.modelXs, hb.modelIndices, hu.nrm, hs.x, hs.index,
      hs.trustregion]
  simp only [stagnationRoundR, hkeep]
  refine SameOutcome.bind (SameOutcome.refl_eq rfl) fun r r' _ hr => ?_
  subst hr
  simp only [Config.rescale, hb.log, hs.trustregion, hu.sample]
  refine SameOutcome.bind (SameOutcome.refl_eq rfl) fun xs xs' _ hx => ?_
  subst hx
  simp only [Log.rescale_addXs, Log.rescale_evaluate hu.oracle, Log.rescale_getXs]
  exact buildModel_rescale hu hs _ _ _

theorem stagnationLoop_rescale (hu : UnitsRespected c d noisy RV RS comp comp') (g : Config K)
    {s : LoopState K n VM SM} {s' : LoopState K n VM' SM} (hs : SameState c d RV RS s s') (k : Int) (it fuel : Nat) :
    ∀ (j : Nat) {b : Build K n VM SM} {b' : Build K n VM' SM}, SameBuild c d RV RS comp b b' →
      SameOutcome (SameBuild c d RV RS comp) (stagnationLoopR g comp s k it fuel j b)
        (stagnationLoopR (g.rescale c) comp' s' k it fuel j b') := by
  induction fuel with
  | zero => exact fun _ _ _ hb => hb
  | succ fuel ih =>
    intro j b b' hb
    have hst : (g.rescale c).stagnation = g.stagnation := rfl
    simp only [stagnationLoopR, hb.relStep, hst]
    split_ifs with hcond hm
    · refine SameOutcome.bind (stagnationRound_rescale hu g hs k it _ hb) fun b1 b1' _ hb1 => ?_
      exact hb1
    · refine SameOutcome.bind (stagnationRound_rescale hu g hs k it _ hb) fun b1 b1' _ hb1 => ?_
      exact ih _ hb1
    · exact hb

theorem buildPhase_rescale [FloorRing K] (hu : UnitsRespected c d noisy RV RS comp comp') (g : Config K)
    {s : LoopState K n VM SM} {s' : LoopState K n VM' SM} (hs : SameState c d RV RS s s') (it : Nat) (h : Log K n) (k : Int) :
    SameOutcome (fun p p' => p'.1 = p.1 ∧ SameBuild c d RV RS comp p.2 p'.2) (buildPhaseR g comp it s h k)
      (buildPhaseR (g.rescale c) comp' it s' (h.rescale c d) k) := by
  have e1 : (g.rescale c).stagnation = g.stagnation := rfl
  have e2 : (g.rescale c).searchRadiusFactor = g.searchRadiusFactor := rfl
  have e3 : (g.rescale c).targetSize = g.targetSize := rfl
  have e4 : (g.rescale c).batchSize = g.batchSize := rfl
  simp only [buildPhaseR, e1, e2, e3, e4, hu.nrm, hs.trustregion, Log.rescale_indicesInRegion,
    Log.rescale_getXs, hu.filter _ _ _ _ _ _ _ hs, rescale_additional]
  refine SameOutcome.bind (SameOutcome.refl_eq rfl) fun r r' _ hr => ?_
  subst hr
  simp only [hu.sample]
  refine SameOutcome.bind (SameOutcome.refl_eq rfl) fun xs xs' _ hx => ?_
  subst hx
  simp only [Log.rescale_addXs, Log.rescale_evaluate hu.oracle, Log.rescale_getXs]
  refine SameOutcome.bind (buildModel_rescale hu hs _ _ _) fun b b' _ hb => ?_
  rw [hb.modelXs]
  refine SameOutcome.bind (dropLoop_rescale hu g hs _ hb) fun b1 b1' _ hb1 => ?_
  refine SameOutcome.bind (stagnationLoop_rescale hu g hs k it _ 0 hb1) fun b2 b2' _ hb2 => ?_
  exact ⟨rfl, hb2⟩

theorem runDecider_rescale [FloorRing K] (hc : 0 < c) (hu : UnitsRespected c d noisy RV RS comp comp')
    (g : Config K) (hf : UnitFree c d g comp) (it : Nat) {sigma sigma' : Option (Option K)}
    (hsig : sigma' = sigma.map fun s => s.map fun v => c * v) (hno : g.noisy = false → sigma = none) {sub sub' : SubSolution K n}
    (hsub : SameSub c sub sub') (hsol : ∃ sm r, comp.solve sm r = .ok sub) (cur : Current K n)
    (h : Log K n) :
    SameOutcome (SameAccept c d) (runDeciderR g comp it sigma sub cur h)
      (runDeciderR (g.rescale c) comp' it sigma' sub' (cur.rescale c d) (h.rescale c d)) := by
  have hb : (g.rescale c).batchSize = g.batchSize := rfl
  have hd : (g.rescale c).decider = g.decider.rescale c := rfl
  have hfd := hf.decider
  simp only [runDeciderR, hd, hu.nrm, hu.cubeRadius, hb]
  cases hgd : g.decider with
  | classic m => exact acceptSimple_rescale hc hu.oracle _ m 1 hsub cur h
  | naiveNoisy m => exact acceptSimple_rescale hc hu.oracle _ m 10 hsub cur h
  | noisy m zc zp nMin nMax =>
    subst hsig
    obtain ⟨sm, r, hr⟩ := hsol
    rcases sigma with _ | _ | s
    · exact rfl
    · exact rfl
    · have hn : g.noisy = true := by
        by_contra h
        exact absurd (hno (by simpa using h)) (by simp)
      have := hfd hn m zc zp nMin nMax hgd sm r sub hr
      exact acceptNoisy_rescale hc hu.oracle _ m s zc zp nMin nMax hsub cur h this.1 this.2
  | lineSearch m rf =>
    exact acceptLineSearch_rescale hc hu.oracle (fun h r k xs => hu.sample it 0 h r k xs) _ _ rf m _
      hsub cur h

theorem noise_rescale (g : Config K) (hu : UnitsRespected c d g.noisy RV RS comp comp') (h : Log K n)
    (r : Region K n) :
    SameOutcome (fun a b => b = a.map fun s => s.map fun v => c * v) (noiseR g comp h r)
      (noiseR (g.rescale c) comp' (h.rescale c d) r) := by
  have hn : (g.rescale c).noisy = g.noisy := rfl
  simp only [noiseR, hn]
  by_cases hg : g.noisy = true
  · simp only [hg, if_true]
    have := hu.noiseSigma hg h r
    revert this
    cases comp.noiseSigma h r <;> cases comp'.noiseSigma (h.rescale c d) r
    · exact id
    · exact id
    · exact id
    · intro h
      simp only [SameOutcome] at h
      simp [SameOutcome, Except.map, h]
  · simp only [hg, Bool.false_eq_true, if_false]
    exact rfl

theorem relChange_le_zero (v w : XVal K) : v.abs.divX w.abs.maxOne ≤ .fin 0 ↔
    (v.abs ≤ .fin 0 ∧ w ≠ .nan) ∨ (v.isFinite = true ∧ (w = .pinf ∨ w = .ninf)) := by
  cases w with
  | fin b =>
    have hm : ∃ q : K, 0 < q ∧ (XVal.fin b : XVal K).abs.maxOne = .fin q := by
      simp only [XVal.abs, XVal.maxOne]
      by_cases h : XVal.fin |b| < XVal.fin 1
      · exact ⟨1, one_pos, if_pos h⟩
      · exact ⟨|b|, by
          simp only [XVal.fin_lt_fin, not_lt] at h
          exact one_pos.trans_le h, if_neg h⟩
    obtain ⟨q, hq, he⟩ := hm
    rw [he]
    cases v <;> simp [XVal.abs, XVal.divX, XVal.divBy, hq]
    rw [div_le_iff₀ hq, zero_mul]
    simp
  | pinf => cases v <;> simp [XVal.abs, XVal.divX, XVal.divBy, XVal.maxOne]
  | ninf => cases v <;> simp [XVal.abs, XVal.divX, XVal.divBy, XVal.maxOne]
  | nan => cases v <;> simp [XVal.abs, XVal.divX, XVal.divBy, XVal.maxOne]

theorem isConverged_rescale (hc : 0 < c) (nrm : Vec K n → K) {gn gn' : SM → K}
    (hg : ∀ sm sm', RS sm sm' → gn' sm' = c * gn sm) (o : ConvOptions K)
    (h0 : o.gtolRel = 0) (h1 : o.ftolRel = 0)
    {s t : LoopState K n VM SM} {s' t' : LoopState K n VM' SM} (hs : SameState c d RV RS s s') (ht : SameState c d RV RS t t') :
    isConverged nrm gn' { o with ftolAbs := c * o.ftolAbs, gtolAbs := c * o.gtolAbs } s' t' =
      isConverged nrm gn o s t := by
  have hmax : ∀ a : K, (0 : K) < max a 1 := fun a => one_pos.trans_le (le_max_right _ _)
  have hrel : ∀ a : K, a / max a 1 ≤ 0 ↔ a ≤ 0 := by
    intro a
    rw [div_le_iff₀ (hmax a), zero_mul]
  have hneg : ∀ a : K, c * a ≤ 0 ↔ a ≤ 0 := by
    intro a
    simp only [← not_lt, mul_pos_iff_of_pos_left hc]
  have hz : ∀ v : XVal K, (v.rescale c 0).abs ≤ .fin 0 ↔ v.abs ≤ .fin 0 := by
    intro v
    rw [rescale_abs hc]
    simpa using rescale_le_fin hc (0 : K) v.abs
  have hr : ∀ v w : XVal K, ((v.abs.rescale c 0).divX (w.rescale c d).abs.maxOne ≤ .fin 0 ↔
      v.abs.divX w.abs.maxOne ≤ .fin 0) := by
    intro v w
    rw [← rescale_abs hc, relChange_le_zero, relChange_le_zero, hz, rescale_isFinite]
    cases w <;> simp [XVal.rescale]
  simp only [isConverged, hs.x, ht.x, hs.fval, ht.fval, rescale_sub, hg _ _ ht.model, h0, h1, hrel, hneg,
    mul_le_mul_iff_right₀ hc, hr, rescale_abs hc, rescale_le_fin hc]

theorem XVal.rescale_one_zero (v : XVal K) : v.rescale 1 0 = v := by
  cases v <;> simp [XVal.rescale]

theorem isConverged_same (nrm : Vec K n → K) {gn gn' : SM → K}
    (hg : ∀ sm sm', RS sm sm' → gn' sm' = 1 * gn sm) (o : ConvOptions K)
    {s t : LoopState K n VM SM} {s' t' : LoopState K n VM' SM} (hs : SameState 1 0 RV RS s s') (ht : SameState 1 0 RV RS t t') :
    isConverged nrm gn' { o with ftolAbs := 1 * o.ftolAbs, gtolAbs := 1 * o.gtolAbs } s' t' =
      isConverged nrm gn o s t := by
  simp only [isConverged, hs.x, ht.x, hs.fval, ht.fval, XVal.rescale_one_zero, hg _ _ ht.model, one_mul]

theorem endIteration_rescale (hc : 0 < c) (g : Config K) (hf : UnitFree c d g comp)
    (hu : UnitsRespected c d noisy RV RS comp comp') {s t : LoopState K n VM SM} {s' t' : LoopState K n VM' SM}
    (hs : SameState c d RV RS s s') (ht : SameState c d RV RS t t')
    {l : List (LoopState K n VM SM)} {l' : List (LoopState K n VM' SM)} (hl : List.Forall₂ (SameState c d RV RS) l l')
    {a a' : Log K n × AcceptanceResult K n} (ha : SameAccept c d a a') (next : Int × Bool) :
    SameCourse c d RV RS (endIterationR g comp s t l a.1 a.2 next)
      (endIterationR (g.rescale c) comp' s' t' l' a'.1 a'.2 next) := by
  have e1 : (g.rescale c).radius = g.radius := rfl
  have e2 : (g.rescale c).maxEval = g.maxEval := rfl
  have e3 : (g.rescale c).conv.disable = g.conv.disable := rfl
  have hfin : ∀ (q : K), SameState c d RV RS
      { t with trustregion := { t.trustregion with center := a.2.x, radius := q } }
      { t' with trustregion := { t'.trustregion with center := a'.2.x, radius := q } } := by
    intro q
    exact { ht with trustregion := by simp only [ht.trustregion, ha.x] }
  have hconv : (if a'.2.accepted && !(g.rescale c).conv.disable then
      isConverged comp'.nrm comp'.gradNorm (g.rescale c).conv s' t' else none) =
      if a.2.accepted && !g.conv.disable then isConverged comp.nrm comp.gradNorm g.conv s t
      else none := by
    rw [e3, ha.accepted, hu.nrm]
    rcases hf.conv with ⟨rfl, rfl⟩ | h | ⟨h0, h1⟩
    · rw [show (g.rescale 1).conv =
        { g.conv with ftolAbs := 1 * g.conv.ftolAbs, gtolAbs := 1 * g.conv.gtolAbs } from rfl,
        isConverged_same comp.nrm hu.gradNorm g.conv hs ht]
    · simp [h]
    · rw [show (g.rescale c).conv =
        { g.conv with ftolAbs := c * g.conv.ftolAbs, gtolAbs := c * g.conv.gtolAbs } from rfl,
        isConverged_rescale hc comp.nrm hu.gradNorm g.conv h0 h1 hs ht]
  simp only [endIterationR, hconv, e1, e2, ha.rho, ha.stepLength, ha.log, Log.rescale_nFun]
  rw [show t'.trustregion.radius = t.trustregion.radius from by rw [ht.trustregion]]
  generalize (if a.2.accepted && !g.conv.disable then
    isConverged comp.nrm comp.gradNorm g.conv s t else none) = cv
  cases cv with
  | some m => exact ⟨rfl, hfin _, hl, rfl, rfl, rfl, rfl⟩
  | none =>
    simp only
    split_ifs
    · exact ⟨rfl, hfin _, hl, rfl, rfl, rfl, rfl⟩
    · exact ⟨rfl, hfin _, hl, rfl, rfl, rfl, rfl⟩

theorem iteration_rescale [FloorRing K] (hc : 0 < c) (g : Config K) (hf : UnitFree c d g comp)
    (hu : UnitsRespected c d g.noisy RV RS comp comp') (it : Nat) {r : Run K n VM SM} {r' : Run K n VM' SM}
    (hr : SameCourse c d RV RS r r') :
    SameOutcome (SameCourse c d RV RS) (iterationR g comp it r) (iterationR (g.rescale c) comp' it r') := by
  simp only [iterationR, hr.log, hr.nEvals]
  refine SameOutcome.bind (buildPhase_rescale hu g hr.state it _ _) fun p p' _ hp => ?_
  obtain ⟨hp1, hb⟩ := hp
  rw [hr.state.trustregion, hb.log]
  refine SameOutcome.bind (noise_rescale g hu _ _) fun sg sg' hsig hsg => ?_
  have hno : g.noisy = false → sg = none := by
    intro hn
    simp only [noiseR, hn, Bool.false_eq_true, if_false] at hsig
    exact (Except.ok.inj hsig).symm
  rw [hr.state.current_eq]
  refine SameOutcome.bind (runDecider_rescale hc hu g hf it hsg hno hb.sub hb.solved _ _)
    fun a a' _ ha => ?_
  have hst : SameState c d RV RS (stateR r.state r.nEvals p.1 p.2 a.2)
      (stateR r'.state r.nEvals p'.1 p'.2 a'.2) := by
    have h := hr.state
    constructor <;> simp only [stateR, h.trustregion, h.vectorModel, hb.modelIndices, hb.model, hp1,
      ha.x, ha.fval, ha.index, ha.rho, ha.accepted, ha.stepLength, ha.relativeStepLength,
      ha.candidateIndex, ha.candidateX, ha.nEvalsAcceptance]
  have hnext : nextNEvalsR (g.rescale c) comp' it r.nEvals p'.2 (stateR r'.state r.nEvals p'.1 p'.2 a'.2)
      a'.2.rho = nextNEvalsR g comp it r.nEvals p.2 (stateR r.state r.nEvals p.1 p.2 a.2) a.2.rho := by
    simp only [nextNEvalsR, show (g.rescale c).noisy = g.noisy from rfl,
      show (g.rescale c).noise = g.noise from rfl, ha.rho]
    by_cases hg : g.noisy = true
    · simp only [hg, if_true]
      rw [hb.log, hb.modelXs, hst.trustregion,
        hu.rhoNoise hg _ _ _ _ _ _ _ _ hb.vectorModel hst.vectorModel]
    · simp only [hg]
      rfl
  rw [hnext]
  refine SameOutcome.bind (SameOutcome.refl_eq rfl) fun nx nx' _ hnx => ?_
  subst hnx
  exact endIteration_rescale hc g hf hu hr.state hst
    (List.rel_append hr.states (.cons hst .nil)) ha nx'

theorem runLoop_rescale [FloorRing K] (hc : 0 < c) (g : Config K) (hf : UnitFree c d g comp)
    (hu : UnitsRespected c d g.noisy RV RS comp comp') (k : Nat) :
    ∀ (it : Nat) {r : Run K n VM SM} {r' : Run K n VM' SM}, SameCourse c d RV RS r r' →
      SameOutcome (SameCourse c d RV RS) (runLoopR g comp k it r) (runLoopR (g.rescale c) comp' k it r') := by
  induction k with
  | zero => exact fun _ _ _ hr => hr
  | succ k ih =>
    intro it r r' hr
    simp only [runLoopR]
    refine SameOutcome.bind (iteration_rescale hc g hf hu it hr) fun r1 r1' _ h1 => ?_
    rw [h1.stop]
    split_ifs
    · exact h1
    · exact ih _ h1

theorem start_rescale [FloorRing K] (g : Config K) (hu : UnitsRespected c d noisy RV RS comp comp')
    (x : Vec K n) (radius : K) (bounds : Bounds K n) :
    SameOutcome (SameCourse c d RV RS) (startRunR g comp x radius bounds)
      (startRunR (g.rescale c) comp' x radius bounds) := by
  have hlog : startLogR (g.rescale c) comp'.oracle x = (startLogR g comp.oracle x).rescale c d := by
    simp only [startLogR]
    rw [← Log.rescale_evaluate hu.oracle]
    rfl
  simp only [startRunR, hlog]
  refine SameOutcome.bind (hu.aggregate _ _ (hu.initModel _ _)) fun sm sm' _ hsm => ?_
  have hst : ∀ {s : LoopState K n VM SM} {s' : LoopState K n VM' SM}, SameState c d RV RS s s' →
      List.Forall₂ (SameState c d RV RS) [s] [s'] := fun h => .cons h .nil
  have key := Log.rescale_mean (c := c) (d := d) (startLogR g comp.oracle x) 0
  refine ⟨rfl, ?_, hst ?_, rfl, rfl, rfl, rfl⟩
  all_goals
    exact ⟨rfl, rfl, hsm, hu.initModel _ _, rfl, rfl, rfl, rfl, key, rfl, rfl, rfl, rfl, rfl, rfl, rfl,
      rfl, rfl⟩

end Tranquilo
