import Verif.Lemmas.Mirror

/-!
# Two runs of the optimizer with mirrored parameters
-/

namespace Tranquilo

variable {K : Type} [Field K] [LinearOrder K] [IsStrictOrderedRing K] {n : Nat} {VM SM : Type}
variable {σ : Fin n → Bool}

/-- Two results of a decider: the same, but mirrored. -/
structure MirroredAccept (σ : Fin n → Bool) (q q' : Log K n × AcceptanceResult K n) : Prop where
  log : q'.1 = q.1.mirror σ
  x : q'.2.x = mirror σ q.2.x
  fval : q'.2.fval = q.2.fval
  index : q'.2.index = q.2.index
  rho : q'.2.rho = q.2.rho
  accepted : q'.2.accepted = q.2.accepted
  stepLength : q'.2.stepLength = q.2.stepLength
  relativeStepLength : q'.2.relativeStepLength = q.2.relativeStepLength
  candidateIndex : q'.2.candidateIndex = q.2.candidateIndex
  candidateX : q'.2.candidateX = mirror σ q.2.candidateX
  nEvalsAcceptance : q'.2.nEvalsAcceptance = q.2.nEvalsAcceptance

/-- The mirrored current point. -/
def Current.mirror (σ : Fin n → Bool) (o : Current K n) : Current K n :=
  { trustregion := o.trustregion.mirror σ, x := Tranquilo.mirror σ o.x, fval := o.fval
    index := o.index }

section Deciders

variable {nrm nrm' : Vec K n → K} (hn : ∀ v : Vec K n, nrm' (mirror σ v) = nrm v)
include hn

theorem getAcceptance_mirror (x : Vec K n) (v : XVal K) (i : Nat) (rho : XVal K)
    (acc : Bool) (o : Current K n) (k : Int) (h : Log K n) :
    MirroredAccept σ (h, getAcceptanceResult nrm x v i rho acc o k)
      (h.mirror σ, getAcceptanceResult nrm' (mirror σ x) v i rho acc (o.mirror σ) k) := by
  have hx : (if acc then mirror σ x else (o.mirror σ).x) =
      mirror σ (if acc then x else o.x) := by cases acc <;> rfl
  have hstep : (nrm' fun i => (if acc then mirror σ x else (o.mirror σ).x) i -
      (o.mirror σ).x i) = nrm fun i => (if acc then x else o.x) i - o.x i := by
    rw [hx, ← hn, ← mirror_sub]
    rfl
  refine ⟨rfl, hx, rfl, rfl, rfl, rfl, hstep, ?_, rfl, rfl, rfl⟩
  simp only [getAcceptanceResult, hstep]
  rfl

theorem finish_mirror (x : Vec K n) (v : XVal K) (i : Nat) (rho : XVal K)
    (acc : Bool) (o : Current K n) (k : Int) (h : Log K n) :
    MirroredAccept σ (h, finishDecision nrm x v i rho acc o k)
      (h.mirror σ, finishDecision nrm' (mirror σ x) v i rho acc (o.mirror σ) k) := by
  simp only [finishDecision]
  split_ifs
  · exact getAcceptance_mirror hn ..
  · exact getAcceptance_mirror hn ..

theorem acceptSimple_mirror {o o' : Oracle K n}
    (ho : ∀ k x, o' k (mirror σ x) = o k x) (m : K) (k : Nat)
    {sub sub' : SubSolution K n} (hsub : MirroredSub σ sub sub') (cur : Current K n) (h : Log K n) :
    MirroredAccept σ (acceptSimple nrm o m k sub cur h)
      (acceptSimple nrm' o' m k sub' (cur.mirror σ) (h.mirror σ)) := by
  simp only [acceptSimple, hsub.1, hsub.2, Log.mirror_addX, Log.mirror_evaluate ho,
    Log.mirror_fvals]
  exact finish_mirror hn ..

theorem acceptNoisy_mirror [FloorRing K] {o o' : Oracle K n}
    (ho : ∀ k x, o' k (mirror σ x) = o k x) (m sg zc zp : K) (nMin nMax : Nat)
    {sub sub' : SubSolution K n} (hsub : MirroredSub σ sub sub') (cur : Current K n) (h : Log K n) :
    MirroredAccept σ (acceptNoisy nrm o m sg zc zp nMin nMax sub cur h)
      (acceptNoisy nrm' o' m sg zc zp nMin nMax sub' (cur.mirror σ) (h.mirror σ)) := by
  simp only [acceptNoisy, hsub.1, hsub.2, Log.mirror_addX, Log.mirror_evaluate ho,
    Log.mirror_fvals, show (cur.mirror σ).index = cur.index from rfl]
  exact finish_mirror hn ..

theorem sampleOnLine_mirror (x y : Vec K n) (grid : List K) :
    sampleOnLine (mirror σ x) (mirror σ y) grid =
      (sampleOnLine x y grid).map (mirror σ) := by
  simp only [sampleOnLine, List.map_map]
  refine List.map_congr_left fun a _ => funext fun i => ?_
  simp only [Function.comp_def, mirror_apply]
  ring

theorem speculative_mirror {sample sample' : SamplerR K n}
    (r : Region K n)
    (hsam : ∀ h c f k xs, SameOutcome (fun ys ys' => ys' = ys.map (mirror σ))
      (sample h { r with center := c, radius := f } k xs)
      (sample' (h.mirror σ) (({ r with center := c, radius := f } : Region K n).mirror σ) k (xs.map (mirror σ))))
    (c : Vec K n) (k : Nat) (h : Log K n) (xs : List (Vec K n)) (f : K) :
    SameOutcome (fun ys ys' => ys' = ys.map (mirror σ)) (speculativeSampleR nrm sample c r k h xs f)
      (speculativeSampleR nrm' sample' (mirror σ c) (r.mirror σ) k (h.mirror σ)
        (xs.map (mirror σ)) f) := by
  have hreg : ({ r.mirror σ with center := mirror σ c, radius := f * (r.mirror σ).radius } :
      Region K n) = ({ r with center := c, radius := f * r.radius } : Region K n).mirror σ := by
    simp only [Region.mirror]
  simp only [speculativeSampleR, hreg]
  rw [show f * (r.mirror σ).radius = f * r.radius from rfl,
    Log.mirror_indicesInRegion hn, Log.mirror_getXs, ← List.map_append]
  exact hsam _ _ _ _ _

theorem lineSearchXs_mirror {cr cr' : K → K} (hcr : ∀ r, cr' r = cr r) {sample sample' : SamplerR K n}
    (cur : Current K n)
    (hsam : ∀ h c f k xs, SameOutcome (fun ys ys' => ys' = ys.map (mirror σ))
      (sample h { cur.trustregion with center := c, radius := f } k xs)
      (sample' (h.mirror σ) (({ cur.trustregion with center := c, radius := f } : Region K n).mirror σ) k
        (xs.map (mirror σ))))
    (rf : K) (b : Nat) (x : Vec K n) (h : Log K n) :
    SameOutcome (fun ys ys' => ys' = ys.map (mirror σ)) (lineSearchXsR nrm cr sample rf b x cur h)
      (lineSearchXsR nrm' cr' sample' rf b (mirror σ x) (cur.mirror σ) (h.mirror σ)) := by
  have e1 : (cur.mirror σ).trustregion = cur.trustregion.mirror σ := rfl
  have e2 : (cur.mirror σ).x = mirror σ cur.x := rfl
  have hline : (if isOnBorder nrm cr cur.trustregion x (1 / 10) then
      sampleOnLine (mirror σ cur.x) (mirror σ x) (alphaGrid b) else []) =
      (if isOnBorder nrm cr cur.trustregion x (1 / 10) then
        sampleOnLine cur.x x (alphaGrid b) else []).map (mirror σ) := by
    split_ifs
    · exact sampleOnLine_mirror hn ..
    · rfl
  simp only [lineSearchXsR, e1, e2, isOnBorder_mirror hn hcr, hline, List.length_map]
  generalize (if isOnBorder nrm cr cur.trustregion x (1 / 10) then
    sampleOnLine cur.x x (alphaGrid b) else []) = line
  by_cases hpos : 0 < b - 1 - line.length
  · simp only [if_pos hpos]
    refine SameOutcome.bind (speculative_mirror hn _ hsam _ _ _ _ _) fun ys ys' _ hy => ?_
    subst hy
    simp [SameOutcome, pure, Except.pure]
  · simp only [if_neg hpos]
    simp [SameOutcome]

theorem acceptLineSearch_mirror {cr cr' : K → K} (hcr : ∀ r, cr' r = cr r) {o o' : Oracle K n}
    {sample sample' : SamplerR K n} (ho : ∀ k x, o' k (mirror σ x) = o k x)
    (cur : Current K n)
    (hsam : ∀ h c f k xs, SameOutcome (fun ys ys' => ys' = ys.map (mirror σ))
      (sample h { cur.trustregion with center := c, radius := f } k xs)
      (sample' (h.mirror σ) (({ cur.trustregion with center := c, radius := f } : Region K n).mirror σ) k
        (xs.map (mirror σ))))
    (rf m : K) (b : Nat) {sub sub' : SubSolution K n} (hsub : MirroredSub σ sub sub') (h : Log K n) :
    SameOutcome (MirroredAccept σ) (acceptLineSearchR nrm cr o sample rf m b sub cur h)
      (acceptLineSearchR nrm' cr' o' sample' rf m b sub' (cur.mirror σ) (h.mirror σ)) := by
  simp only [acceptLineSearchR]
  split_ifs
  · exact acceptSimple_mirror hn ho m 1 hsub cur h
  · simp only [hsub.1, Log.mirror_addX]
    refine SameOutcome.bind (lineSearchXs_mirror hn hcr cur hsam _ _ _ _)
      fun xs xs' _ hx => ?_
    subst hx
    simp only [Log.mirror_addXs, Log.mirror_evaluate ho, finishLineSearchR, Log.mirror_fvals,
      hsub.2]
    refine SameOutcome.bind (SameOutcome.refl_eq rfl) fun p p' _ hp => ?_
    subst hp
    simp only [Log.mirror_xs, List.getElem?_map, hsub.1]
    rw [Option.getD_map (mirror σ)]
    exact finish_mirror hn ..

end Deciders

/-- Two builds: the same points and candidate, related models. -/
structure MirroredBuild (σ : Fin n → Bool) (RV : VM → VM → Prop) (RS : SM → SM → Prop)
    (b b' : Build K n VM SM) : Prop where
  log : b'.log = b.log.mirror σ
  modelXs : b'.modelXs = b.modelXs.map (mirror σ)
  modelIndices : b'.modelIndices = b.modelIndices
  vectorModel : RV b.vectorModel b'.vectorModel
  model : RS b.model b'.model
  sub : MirroredSub σ b.sub b'.sub
  relStep : b'.relStep = b.relStep

variable {RV : VM → VM → Prop} {RS : SM → SM → Prop} {comp comp' : ComponentsR K n VM SM} {noisy : Bool}

theorem MirroredState.current_eq {t t' : LoopState K n VM SM} (h : MirroredState σ RV RS t t') :
    t'.current = t.current.mirror σ := by
  simp only [LoopState.current, Current.mirror, h.trustregion, h.x, h.fval, h.index]

theorem buildModel_mirror (hu : MirrorRespected σ noisy RV RS comp comp')
    {t t' : LoopState K n VM SM} (ht : MirroredState σ RV RS t t')
    (hp : t.trustregion.Proper comp.cubeRadius) (h : Log K n) (xs : List (Vec K n))
    (is : List Nat) :
    SameOutcome (MirroredBuild σ RV RS) (buildModelR comp t h xs is)
      (buildModelR comp' t' (h.mirror σ) (xs.map (mirror σ)) is) := by
  simp only [buildModelR, ht.trustregion]
  refine SameOutcome.bind (hu.fit _ _ _ _ _ hp ht.vectorModel) fun vm vm' _ hvm => ?_
  refine SameOutcome.bind (hu.aggregate _ _ hvm) fun sm sm' _ hsm => ?_
  refine SameOutcome.bind (hu.solve _ _ _ hp hsm) fun sub sub' _ hsub => ?_
  refine ⟨rfl, rfl, rfl, hvm, hsm, hsub, ?_⟩
  simp only [relStepLengthR, hsub.1, ht.x, ht.trustregion, mirror_sub, hu.nrm]
  rfl

theorem dropLoop_mirror (hu : MirrorRespected σ noisy RV RS comp comp') (g : Config K)
    {t t' : LoopState K n VM SM} (ht : MirroredState σ RV RS t t')
    (hp : t.trustregion.Proper comp.cubeRadius) (fuel : Nat) :
    ∀ {b b' : Build K n VM SM}, MirroredBuild σ RV RS b b' →
      SameOutcome (MirroredBuild σ RV RS) (dropLoopR g comp t fuel b)
        (dropLoopR g comp' t' fuel b') := by
  induction fuel with
  | zero => exact fun hb => hb
  | succ fuel ih =>
    intro b b' hb
    simp only [dropLoopR, hb.relStep, hb.modelXs, hb.modelIndices, hb.log, ht.x,
      ht.index, ht.trustregion, List.length_map, Region.mirror]
    split_ifs with hcond
    · refine SameOutcome.bind (dropWorst_mirror hu.nrm _ _ _ _ _ _) fun r r' _ hr => ?_
      subst hr
      refine SameOutcome.bind (buildModel_mirror hu ht hp _ _ _) fun b1 b1' _ hb1 => ?_
      exact ih hb1
    · exact hb

theorem stagnationRound_mirror (hu : MirrorRespected σ noisy RV RS comp comp')
    (g : Config K) {t t' : LoopState K n VM SM} (ht : MirroredState σ RV RS t t')
    (hp : t.trustregion.Proper comp.cubeRadius) (k : Int)
    (it round : Nat) {b b' : Build K n VM SM} (hb : MirroredBuild σ RV RS b b') :
    SameOutcome (MirroredBuild σ RV RS) (stagnationRoundR g comp t k it round b)
      (stagnationRoundR g comp' t' k it round b') := by
  have hkeep : SameOutcome (fun p p' => p' = (p.1.map (mirror σ), p.2))
      (stagnationKeepR g comp t b) (stagnationKeepR g comp' t' b') := by
    simp only [stagnationKeepR, hb.modelXs, hb.modelIndices, ht.x, ht.index,
      ht.trustregion, List.length_map, Region.mirror]
    split_ifs
    · exact dropWorst_mirror hu.nrm _ _ _ _ _ _
    · exact rfl
  simp only [stagnationRoundR]
  refine SameOutcome.bind hkeep fun r r' _ hr => ?_
  subst hr
  simp only [hb.log, ht.trustregion]
  refine SameOutcome.bind (hu.sample _ _ _ _ _ _ hp) fun xs xs' _ hx => ?_
  subst hx
  simp only [Log.mirror_addXs, Log.mirror_evaluate hu.oracle, Log.mirror_getXs]
  exact buildModel_mirror hu ht hp _ _ _

theorem stagnationLoop_mirror (hu : MirrorRespected σ noisy RV RS comp comp')
    (g : Config K) {t t' : LoopState K n VM SM} (ht : MirroredState σ RV RS t t')
    (hp : t.trustregion.Proper comp.cubeRadius) (k : Int)
    (it fuel : Nat) :
    ∀ (j : Nat) {b b' : Build K n VM SM}, MirroredBuild σ RV RS b b' →
      SameOutcome (MirroredBuild σ RV RS) (stagnationLoopR g comp t k it fuel j b)
        (stagnationLoopR g comp' t' k it fuel j b') := by
  induction fuel with
  | zero => exact fun _ _ _ hb => hb
  | succ fuel ih =>
    intro j b b' hb
    simp only [stagnationLoopR, hb.relStep]
    split_ifs with hcond hm
    · refine SameOutcome.bind (stagnationRound_mirror hu g ht hp k it _ hb) fun b1 b1' _ hb1 => ?_
      exact hb1
    · refine SameOutcome.bind (stagnationRound_mirror hu g ht hp k it _ hb) fun b1 b1' _ hb1 => ?_
      exact ih _ hb1
    · exact hb

theorem buildPhase_mirror [FloorRing K] (hu : MirrorRespected σ noisy RV RS comp comp')
    (g : Config K) {t t' : LoopState K n VM SM} (ht : MirroredState σ RV RS t t')
    (hp : t.trustregion.Proper comp.cubeRadius) (it : Nat)
    (h : Log K n) (k : Int) :
    SameOutcome (fun p p' => p'.1 = p.1 ∧ MirroredBuild σ RV RS p.2 p'.2) (buildPhaseR g comp it t h k)
      (buildPhaseR g comp' it t' (h.mirror σ) k) := by
  simp only [buildPhaseR, ht.trustregion,
    show (t.trustregion.mirror σ).radius = t.trustregion.radius from rfl,
    show (t.trustregion.mirror σ).center = mirror σ t.trustregion.center from rfl,
    Log.mirror_indicesInRegion hu.nrm, Log.mirror_getXs, mirror_additional]
  refine SameOutcome.bind (hu.filter _ _ _ _ _ _ _ ht hp) fun r r' _ hr => ?_
  subst hr
  simp only [List.length_map]
  refine SameOutcome.bind (hu.sample _ _ _ _ _ _ hp) fun xs xs' _ hx => ?_
  subst hx
  simp only [Log.mirror_addXs, Log.mirror_evaluate hu.oracle, Log.mirror_getXs]
  refine SameOutcome.bind (buildModel_mirror hu ht hp _ _ _) fun b b' _ hb => ?_
  rw [hb.modelXs, List.length_map]
  refine SameOutcome.bind (dropLoop_mirror hu g ht hp _ hb) fun b1 b1' _ hb1 => ?_
  refine SameOutcome.bind (stagnationLoop_mirror hu g ht hp k it _ 0 hb1) fun b2 b2' _ hb2 => ?_
  exact ⟨rfl, hb2⟩

theorem runDecider_mirror [FloorRing K] (hu : MirrorRespected σ noisy RV RS comp comp')
    (g : Config K) (it : Nat)
    (sigma : Option (Option K)) {sub sub' : SubSolution K n} (hsub : MirroredSub σ sub sub')
    (cur : Current K n)
    (hline : (∃ m rf, g.decider = .lineSearch m rf) → ∀ c f,
      ({ cur.trustregion with center := c, radius := f } : Region K n).Proper comp.cubeRadius) (h : Log K n) :
    SameOutcome (MirroredAccept σ) (runDeciderR g comp it sigma sub cur h)
      (runDeciderR g comp' it sigma sub' (cur.mirror σ) (h.mirror σ)) := by
  simp only [runDeciderR]
  cases hd : g.decider with
  | classic m => exact acceptSimple_mirror hu.nrm hu.oracle m 1 hsub cur h
  | naiveNoisy m => exact acceptSimple_mirror hu.nrm hu.oracle m 10 hsub cur h
  | noisy m zc zp nMin nMax =>
    rcases sigma with _ | _ | sg
    · exact rfl
    · exact rfl
    · exact acceptNoisy_mirror hu.nrm hu.oracle m sg zc zp nMin nMax hsub cur h
  | lineSearch m rf =>
    exact acceptLineSearch_mirror hu.nrm hu.cubeRadius hu.oracle cur
      (fun h c f k xs => hu.sample it 0 h _ k xs (hline ⟨m, rf, hd⟩ c f)) rf m _ hsub h

theorem isConverged_mirror {nrm nrm' : Vec K n → K}
    (hn : ∀ v : Vec K n, nrm' (mirror σ v) = nrm v) {gn gn' : SM → K}
    (hg : ∀ sm sm', RS sm sm' → gn' sm' = gn sm) (o : ConvOptions K)
    {t t' u u' : LoopState K n VM SM} (ht : MirroredState σ RV RS t t')
    (hu : MirroredState σ RV RS u u') : isConverged nrm' gn' o t' u' = isConverged nrm gn o t u := by
  have hrel : (nrm' fun i => (t'.x i - u'.x i) / max |t'.x i| 1) =
      nrm fun i => (t.x i - u.x i) / max |t.x i| 1 := by
    rw [← hn, ht.x, hu.x]
    congr 1
    funext i
    rw [mirror_abs]
    simp only [mirror_apply]
    ring
  have habs : (nrm' fun i => t'.x i - u'.x i) = nrm fun i => t.x i - u.x i := by
    rw [← hn, ht.x, hu.x, mirror_sub]
  simp only [isConverged, hrel, habs, ht.fval, hu.fval, hg _ _ hu.model]

theorem endIteration_mirror (g : Config K)
    (hu : MirrorRespected σ noisy RV RS comp comp') {t t' u u' : LoopState K n VM SM}
    (ht : MirroredState σ RV RS t t') (hw : MirroredState σ RV RS u u')
    {l l' : List (LoopState K n VM SM)} (hl : List.Forall₂ (MirroredState σ RV RS) l l')
    {q q' : Log K n × AcceptanceResult K n} (ha : MirroredAccept σ q q') (next : Int × Bool) :
    MirroredCourse σ RV RS (endIterationR g comp t u l q.1 q.2 next)
      (endIterationR g comp' t' u' l' q'.1 q'.2 next) := by
  have hrad : adjustRadius u'.trustregion.radius q'.2.rho q'.2.stepLength g.radius next.2 =
      adjustRadius u.trustregion.radius q.2.rho q.2.stepLength g.radius next.2 := by
    rw [hw.trustregion, ha.rho, ha.stepLength]
    rfl
  have hfin : ∀ (z : K), MirroredState σ RV RS
      { u with trustregion := { u.trustregion with center := q.2.x, radius := z } }
      { u' with trustregion := { u'.trustregion with center := q'.2.x, radius := z } } := by
    intro z
    exact { hw with trustregion := by simp only [hw.trustregion, ha.x, Region.mirror] }
  have hconv : (if q'.2.accepted && !g.conv.disable then
      isConverged comp'.nrm comp'.gradNorm g.conv t' u' else none) =
      if q.2.accepted && !g.conv.disable then isConverged comp.nrm comp.gradNorm g.conv t u
      else none := by
    rw [ha.accepted, isConverged_mirror hu.nrm hu.gradNorm g.conv ht hw]
  simp only [endIterationR, hconv, hrad, ha.log, Log.mirror_nFun]
  generalize (if q.2.accepted && !g.conv.disable then
    isConverged comp.nrm comp.gradNorm g.conv t u else none) = cv
  cases cv with
  | some m => exact ⟨rfl, hfin _, hl, rfl, rfl, rfl, rfl⟩
  | none =>
    simp only
    split_ifs
    · exact ⟨rfl, hfin _, hl, rfl, rfl, rfl, rfl⟩
    · exact ⟨rfl, hfin _, hl, rfl, rfl, rfl, rfl⟩

theorem iteration_mirror [FloorRing K] (g : Config K)
    (hu : MirrorRespected σ g.noisy RV RS comp comp')
    (it : Nat) {r r' : Run K n VM SM} (hr : MirroredCourse σ RV RS r r')
    (hp : r.state.trustregion.Proper comp.cubeRadius)
    (hline : (∃ m rf, g.decider = .lineSearch m rf) → ∀ c f,
      ({ r.state.trustregion with center := c, radius := f } : Region K n).Proper comp.cubeRadius) :
    SameOutcome (MirroredCourse σ RV RS)
      (iterationR g comp it r) (iterationR g comp' it r') := by
  simp only [iterationR, hr.log, hr.nEvals]
  refine SameOutcome.bind (buildPhase_mirror hu g hr.state hp it _ _) fun p p' _ hpp => ?_
  obtain ⟨hp1, hb⟩ := hpp
  rw [hr.state.trustregion, hb.log]
  have hnoise : noiseR g comp' (p.2.log.mirror σ) (r.state.trustregion.mirror σ) =
      noiseR g comp p.2.log r.state.trustregion := by
    simp only [noiseR]
    by_cases hg : g.noisy = true
    · simp only [hg, if_true, hu.noiseSigma hg _ _ hp]
    · simp only [hg, Bool.false_eq_true, if_false]
  refine SameOutcome.bind (SameOutcome.refl_eq hnoise) fun sg sg' _ hsg => ?_
  subst hsg
  rw [hr.state.current_eq]
  refine SameOutcome.bind (runDecider_mirror hu g it _ hb.sub _ hline _) fun q q' _ ha => ?_
  have hst : MirroredState σ RV RS (stateR r.state r.nEvals p.1 p.2 q.2)
      (stateR r'.state r.nEvals p'.1 p'.2 q'.2) := by
    have h := hr.state
    constructor <;> simp only [stateR, h.trustregion, h.vectorModel, hb.modelIndices, hb.model, hp1,
      ha.x, ha.fval, ha.index, ha.rho, ha.accepted, ha.stepLength, ha.relativeStepLength,
      ha.candidateIndex, ha.candidateX, ha.nEvalsAcceptance, Option.map_some]
  have hnext : nextNEvalsR g comp' it r.nEvals p'.2 (stateR r'.state r.nEvals p'.1 p'.2 q'.2)
      q'.2.rho = nextNEvalsR g comp it r.nEvals p.2 (stateR r.state r.nEvals p.1 p.2 q.2) q.2.rho := by
    simp only [nextNEvalsR, ha.rho]
    by_cases hg : g.noisy = true
    · simp only [hg, if_true]
      rw [hb.log, hb.modelXs, hst.trustregion,
        hu.rhoNoise hg _ _ _ _ _ _ _ _
        (show (stateR r.state r.nEvals p.1 p.2 q.2).trustregion.Proper comp.cubeRadius from hp) hb.vectorModel hst.vectorModel]
    · simp only [hg]
      rfl
  rw [hnext]
  refine SameOutcome.bind (SameOutcome.refl_eq rfl) fun nx nx' _ hnx => ?_
  subst hnx
  exact endIteration_mirror g hu hr.state hst (List.rel_append hr.states (.cons hst .nil)) ha nx'

theorem runLoop_mirror [FloorRing K] (g : Config K)
    (hu : MirrorRespected σ g.noisy RV RS comp comp') (Inv : Run K n VM SM → Prop)
    (hproper : ∀ r, Inv r → r.state.trustregion.Proper comp.cubeRadius)
    (hline : (∃ m rf, g.decider = .lineSearch m rf) → ∀ r, Inv r → ∀ c f,
      ({ r.state.trustregion with center := c, radius := f } : Region K n).Proper comp.cubeRadius)
    (hstep : ∀ it r r', Inv r → iterationR g comp it r = .ok r' → Inv r') (k : Nat) :
    ∀ (it : Nat) {r r' : Run K n VM SM}, Inv r → MirroredCourse σ RV RS r r' →
      SameOutcome (MirroredCourse σ RV RS) (runLoopR g comp k it r)
        (runLoopR g comp' k it r') := by
  induction k with
  | zero => exact fun _ _ _ _ hr => hr
  | succ k ih =>
    intro it r r' hi hr
    simp only [runLoopR]
    refine SameOutcome.bind (iteration_mirror g hu it hr (hproper r hi) fun hl => hline hl r hi)
      fun r1 r1' hr1 h1 => ?_
    rw [h1.stop]
    split_ifs
    · exact h1
    · exact ih _ (hstep it r r1 hi hr1) h1

theorem start_mirror [FloorRing K] (g : Config K) (hu : MirrorRespected σ noisy RV RS comp comp')
    (x : Vec K n) (radius : K) (bounds : Bounds K n)
    (hp : (⟨x, radius, bounds⟩ : Region K n).Proper comp.cubeRadius) :
    SameOutcome (MirroredCourse σ RV RS)
      (startRunR g comp x radius bounds)
      (startRunR g comp' (mirror σ x) radius (bounds.mirror σ)) := by
  have hlog : startLogR g comp'.oracle (mirror σ x) =
      (startLogR g comp.oracle x).mirror σ := by
    simp only [startLogR]
    rw [← Log.mirror_evaluate hu.oracle]
    rfl
  have hreg : (⟨mirror σ x, radius, bounds.mirror σ⟩ : Region K n) =
      (⟨x, radius, bounds⟩ : Region K n).mirror σ := rfl
  simp only [startRunR, hlog, hreg]
  have hinit := hu.initModel (startLogR g comp.oracle x) ⟨x, radius, bounds⟩ hp
  refine SameOutcome.bind (hu.aggregate _ _ hinit) fun sm sm' _ hsm => ?_
  have hst : ∀ {t t' : LoopState K n VM SM}, MirroredState σ RV RS t t' →
      List.Forall₂ (MirroredState σ RV RS) [t] [t'] := fun h => .cons h .nil
  refine ⟨rfl, ?_, hst ?_, rfl, rfl, rfl, rfl⟩
  all_goals
    exact ⟨rfl, rfl, hsm, hinit, rfl, rfl, rfl, rfl, rfl, rfl, rfl, rfl, rfl, rfl, rfl, rfl,
      rfl, rfl⟩

end Tranquilo
