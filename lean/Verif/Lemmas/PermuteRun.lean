import Verif.Lemmas.Permute

/-!
# Two runs of the optimizer with the parameters in different order
-/

namespace Tranquilo

variable {K : Type} [Field K] [LinearOrder K] [IsStrictOrderedRing K] {n : Nat} {VM SM : Type}
variable {σ : Equiv.Perm (Fin n)}

/-- Two results of a decider: the same in everything but the order. -/
structure PermutedAccept (σ : Equiv.Perm (Fin n)) (q q' : Log K n × AcceptanceResult K n) : Prop where
  log : q'.1 = q.1.permute σ
  x : q'.2.x = permute σ q.2.x
  fval : q'.2.fval = q.2.fval
  index : q'.2.index = q.2.index
  rho : q'.2.rho = q.2.rho
  accepted : q'.2.accepted = q.2.accepted
  stepLength : q'.2.stepLength = q.2.stepLength
  relativeStepLength : q'.2.relativeStepLength = q.2.relativeStepLength
  candidateIndex : q'.2.candidateIndex = q.2.candidateIndex
  candidateX : q'.2.candidateX = permute σ q.2.candidateX
  nEvalsAcceptance : q'.2.nEvalsAcceptance = q.2.nEvalsAcceptance

/-- The current point in the new order. -/
def Current.permute (σ : Equiv.Perm (Fin n)) (o : Current K n) : Current K n :=
  { trustregion := o.trustregion.permute σ, x := Tranquilo.permute σ o.x, fval := o.fval
    index := o.index }

section Deciders

variable {nrm nrm' : Vec K n → K} (hn : ∀ v : Vec K n, nrm' (permute σ v) = nrm v)
include hn

theorem getAcceptance_permute (x : Vec K n) (v : XVal K) (i : Nat) (rho : XVal K)
    (acc : Bool) (o : Current K n) (k : Int) (h : Log K n) :
    PermutedAccept σ (h, getAcceptanceResult nrm x v i rho acc o k)
      (h.permute σ, getAcceptanceResult nrm' (permute σ x) v i rho acc (o.permute σ) k) := by
  have hx : (if acc then permute σ x else (o.permute σ).x) =
      permute σ (if acc then x else o.x) := by cases acc <;> rfl
  have hstep : (nrm' fun i => (if acc then permute σ x else (o.permute σ).x) i -
      (o.permute σ).x i) = nrm fun i => (if acc then x else o.x) i - o.x i := by
    rw [hx, ← hn]
    rfl
  refine ⟨rfl, hx, rfl, rfl, rfl, rfl, hstep, ?_, rfl, rfl, rfl⟩
  simp only [getAcceptanceResult, hstep]
  rfl

theorem finish_permute (x : Vec K n) (v : XVal K) (i : Nat) (rho : XVal K)
    (acc : Bool) (o : Current K n) (k : Int) (h : Log K n) :
    PermutedAccept σ (h, finishDecision nrm x v i rho acc o k)
      (h.permute σ, finishDecision nrm' (permute σ x) v i rho acc (o.permute σ) k) := by
  simp only [finishDecision]
  split_ifs
  · exact getAcceptance_permute hn ..
  · exact getAcceptance_permute hn ..

theorem acceptSimple_permute {o o' : Oracle K n}
    (ho : ∀ k x, o' k (permute σ x) = o k x) (m : K) (k : Nat)
    {sub sub' : SubSolution K n} (hsub : PermutedSub σ sub sub') (cur : Current K n) (h : Log K n) :
    PermutedAccept σ (acceptSimple nrm o m k sub cur h)
      (acceptSimple nrm' o' m k sub' (cur.permute σ) (h.permute σ)) := by
  simp only [acceptSimple, hsub.1, hsub.2, Log.permute_addX, Log.permute_evaluate ho,
    Log.permute_fvals]
  exact finish_permute hn ..

theorem acceptNoisy_permute [FloorRing K] {o o' : Oracle K n}
    (ho : ∀ k x, o' k (permute σ x) = o k x) (m sg zc zp : K) (nMin nMax : Nat)
    {sub sub' : SubSolution K n} (hsub : PermutedSub σ sub sub') (cur : Current K n) (h : Log K n) :
    PermutedAccept σ (acceptNoisy nrm o m sg zc zp nMin nMax sub cur h)
      (acceptNoisy nrm' o' m sg zc zp nMin nMax sub' (cur.permute σ) (h.permute σ)) := by
  simp only [acceptNoisy, hsub.1, hsub.2, Log.permute_addX, Log.permute_evaluate ho,
    Log.permute_fvals, show (cur.permute σ).index = cur.index from rfl]
  exact finish_permute hn ..

theorem sampleOnLine_permute (x y : Vec K n) (grid : List K) :
    sampleOnLine (permute σ x) (permute σ y) grid =
      (sampleOnLine x y grid).map (permute σ) := by
  simp only [sampleOnLine, List.map_map]
  rfl

theorem speculative_permute {sample sample' : SamplerR K n}
    (hsam : ∀ h r k xs, SameOutcome (fun ys ys' => ys' = ys.map (permute σ)) (sample h r k xs)
      (sample' (h.permute σ) (r.permute σ) k (xs.map (permute σ))))
    (c : Vec K n) (r : Region K n) (k : Nat) (h : Log K n) (xs : List (Vec K n)) (f : K) :
    SameOutcome (fun ys ys' => ys' = ys.map (permute σ)) (speculativeSampleR nrm sample c r k h xs f)
      (speculativeSampleR nrm' sample' (permute σ c) (r.permute σ) k (h.permute σ)
        (xs.map (permute σ)) f) := by
  have hreg : ({ r.permute σ with center := permute σ c, radius := f * (r.permute σ).radius } :
      Region K n) = ({ r with center := c, radius := f * r.radius } : Region K n).permute σ := by
    simp only [Region.permute]
  simp only [speculativeSampleR, hreg]
  rw [show f * (r.permute σ).radius = f * r.radius from rfl,
    Log.permute_indicesInRegion hn, Log.permute_getXs, ← List.map_append]
  exact hsam _ _ _ _

theorem lineSearchXs_permute {cr cr' : K → K} (hcr : ∀ r, cr' r = cr r) {sample sample' : SamplerR K n}
    (hsam : ∀ h r k xs, SameOutcome (fun ys ys' => ys' = ys.map (permute σ)) (sample h r k xs)
      (sample' (h.permute σ) (r.permute σ) k (xs.map (permute σ))))
    (rf : K) (b : Nat) (x : Vec K n) (cur : Current K n) (h : Log K n) :
    SameOutcome (fun ys ys' => ys' = ys.map (permute σ)) (lineSearchXsR nrm cr sample rf b x cur h)
      (lineSearchXsR nrm' cr' sample' rf b (permute σ x) (cur.permute σ) (h.permute σ)) := by
  have e1 : (cur.permute σ).trustregion = cur.trustregion.permute σ := rfl
  have e2 : (cur.permute σ).x = permute σ cur.x := rfl
  have hline : (if isOnBorder nrm cr cur.trustregion x (1 / 10) then
      sampleOnLine (permute σ cur.x) (permute σ x) (alphaGrid b) else []) =
      (if isOnBorder nrm cr cur.trustregion x (1 / 10) then
        sampleOnLine cur.x x (alphaGrid b) else []).map (permute σ) := by
    split_ifs
    · exact sampleOnLine_permute hn ..
    · rfl
  simp only [lineSearchXsR, e1, e2, isOnBorder_permute hn hcr, hline, List.length_map]
  generalize (if isOnBorder nrm cr cur.trustregion x (1 / 10) then
    sampleOnLine cur.x x (alphaGrid b) else []) = line
  by_cases hpos : 0 < b - 1 - line.length
  · simp only [if_pos hpos]
    refine SameOutcome.bind (speculative_permute hn hsam _ _ _ _ _ _) fun ys ys' _ hy => ?_
    subst hy
    simp [SameOutcome, pure, Except.pure]
  · simp only [if_neg hpos]
    simp [SameOutcome]

theorem acceptLineSearch_permute {cr cr' : K → K} (hcr : ∀ r, cr' r = cr r) {o o' : Oracle K n}
    {sample sample' : SamplerR K n} (ho : ∀ k x, o' k (permute σ x) = o k x)
    (hsam : ∀ h r k xs, SameOutcome (fun ys ys' => ys' = ys.map (permute σ)) (sample h r k xs)
      (sample' (h.permute σ) (r.permute σ) k (xs.map (permute σ))))
    (rf m : K) (b : Nat) {sub sub' : SubSolution K n} (hsub : PermutedSub σ sub sub')
    (cur : Current K n) (h : Log K n) :
    SameOutcome (PermutedAccept σ) (acceptLineSearchR nrm cr o sample rf m b sub cur h)
      (acceptLineSearchR nrm' cr' o' sample' rf m b sub' (cur.permute σ) (h.permute σ)) := by
  simp only [acceptLineSearchR]
  split_ifs
  · exact acceptSimple_permute hn ho m 1 hsub cur h
  · simp only [hsub.1, Log.permute_addX]
    refine SameOutcome.bind (lineSearchXs_permute hn hcr hsam _ _ _ _ _)
      fun xs xs' _ hx => ?_
    subst hx
    simp only [Log.permute_addXs, Log.permute_evaluate ho, finishLineSearchR, Log.permute_fvals,
      hsub.2]
    refine SameOutcome.bind (SameOutcome.refl_eq rfl) fun p p' _ hp => ?_
    subst hp
    simp only [Log.permute_xs, List.getElem?_map, hsub.1]
    rw [Option.getD_map (permute σ)]
    exact finish_permute hn ..

end Deciders

/-- Two builds: the same points and candidate, related models. -/
structure PermutedBuild (σ : Equiv.Perm (Fin n)) (RV : VM → VM → Prop) (RS : SM → SM → Prop)
    (b b' : Build K n VM SM) : Prop where
  log : b'.log = b.log.permute σ
  modelXs : b'.modelXs = b.modelXs.map (permute σ)
  modelIndices : b'.modelIndices = b.modelIndices
  vectorModel : RV b.vectorModel b'.vectorModel
  model : RS b.model b'.model
  sub : PermutedSub σ b.sub b'.sub
  relStep : b'.relStep = b.relStep

variable {RV : VM → VM → Prop} {RS : SM → SM → Prop} {comp comp' : ComponentsR K n VM SM} {noisy : Bool}

theorem PermutedState.current_eq {t t' : LoopState K n VM SM} (h : PermutedState σ RV RS t t') :
    t'.current = t.current.permute σ := by
  simp only [LoopState.current, Current.permute, h.trustregion, h.x, h.fval, h.index]

theorem buildModel_permute (hu : OrderRespected σ noisy RV RS comp comp')
    {t t' : LoopState K n VM SM} (ht : PermutedState σ RV RS t t') (h : Log K n) (xs : List (Vec K n))
    (is : List Nat) :
    SameOutcome (PermutedBuild σ RV RS) (buildModelR comp t h xs is)
      (buildModelR comp' t' (h.permute σ) (xs.map (permute σ)) is) := by
  simp only [buildModelR, ht.trustregion]
  refine SameOutcome.bind (hu.fit _ _ _ _ _ ht.vectorModel) fun vm vm' _ hvm => ?_
  refine SameOutcome.bind (hu.aggregate _ _ hvm) fun sm sm' _ hsm => ?_
  refine SameOutcome.bind (hu.solve _ _ _ hsm) fun sub sub' _ hsub => ?_
  refine ⟨rfl, rfl, rfl, hvm, hsm, hsub, ?_⟩
  simp only [relStepLengthR, hsub.1, ht.x, ht.trustregion, permute_sub, hu.nrm]
  rfl

theorem dropLoop_permute (hu : OrderRespected σ noisy RV RS comp comp') (g : Config K)
    {t t' : LoopState K n VM SM} (ht : PermutedState σ RV RS t t') (fuel : Nat) :
    ∀ {b b' : Build K n VM SM}, PermutedBuild σ RV RS b b' →
      SameOutcome (PermutedBuild σ RV RS) (dropLoopR g comp t fuel b)
        (dropLoopR g comp' t' fuel b') := by
  induction fuel with
  | zero => exact fun hb => hb
  | succ fuel ih =>
    intro b b' hb
    simp only [dropLoopR, hb.relStep, hb.modelXs, hb.modelIndices, hb.log, ht.x,
      ht.index, ht.trustregion, List.length_map, Region.permute]
    split_ifs with hcond
    · refine SameOutcome.bind (dropWorst_permute hu.nrm _ _ _ _ _ _) fun r r' _ hr => ?_
      subst hr
      refine SameOutcome.bind (buildModel_permute hu ht _ _ _) fun b1 b1' _ hb1 => ?_
      exact ih hb1
    · exact hb

theorem stagnationRound_permute (hu : OrderRespected σ noisy RV RS comp comp')
    (g : Config K) {t t' : LoopState K n VM SM} (ht : PermutedState σ RV RS t t') (k : Int)
    (it round : Nat) {b b' : Build K n VM SM} (hb : PermutedBuild σ RV RS b b') :
    SameOutcome (PermutedBuild σ RV RS) (stagnationRoundR g comp t k it round b)
      (stagnationRoundR g comp' t' k it round b') := by
  have hkeep : SameOutcome (fun p p' => p' = (p.1.map (permute σ), p.2))
      (stagnationKeepR g comp t b) (stagnationKeepR g comp' t' b') := by
    simp only [stagnationKeepR, hb.modelXs, hb.modelIndices, ht.x, ht.index,
      ht.trustregion, List.length_map, Region.permute]
    split_ifs
    · exact dropWorst_permute hu.nrm _ _ _ _ _ _
    · exact rfl
  simp only [stagnationRoundR]
  refine SameOutcome.bind hkeep fun r r' _ hr => ?_
  subst hr
  simp only [hb.log, ht.trustregion]
  refine SameOutcome.bind (hu.sample _ _ _ _ _ _) fun xs xs' _ hx => ?_
  subst hx
  simp only [Log.permute_addXs, Log.permute_evaluate hu.oracle, Log.permute_getXs]
  exact buildModel_permute hu ht _ _ _

theorem stagnationLoop_permute (hu : OrderRespected σ noisy RV RS comp comp')
    (g : Config K) {t t' : LoopState K n VM SM} (ht : PermutedState σ RV RS t t') (k : Int)
    (it fuel : Nat) :
    ∀ (j : Nat) {b b' : Build K n VM SM}, PermutedBuild σ RV RS b b' →
      SameOutcome (PermutedBuild σ RV RS) (stagnationLoopR g comp t k it fuel j b)
        (stagnationLoopR g comp' t' k it fuel j b') := by
  induction fuel with
  | zero => exact fun _ _ _ hb => hb
  | succ fuel ih =>
    intro j b b' hb
    simp only [stagnationLoopR, hb.relStep]
    split_ifs with hcond hm
    · refine SameOutcome.bind (stagnationRound_permute hu g ht k it _ hb) fun b1 b1' _ hb1 => ?_
      exact hb1
    · refine SameOutcome.bind (stagnationRound_permute hu g ht k it _ hb) fun b1 b1' _ hb1 => ?_
      exact ih _ hb1
    · exact hb

theorem buildPhase_permute [FloorRing K] (hu : OrderRespected σ noisy RV RS comp comp')
    (g : Config K) {t t' : LoopState K n VM SM} (ht : PermutedState σ RV RS t t') (it : Nat)
    (h : Log K n) (k : Int) :
    SameOutcome (fun p p' => p'.1 = p.1 ∧ PermutedBuild σ RV RS p.2 p'.2) (buildPhaseR g comp it t h k)
      (buildPhaseR g comp' it t' (h.permute σ) k) := by
  simp only [buildPhaseR, ht.trustregion,
    show (t.trustregion.permute σ).radius = t.trustregion.radius from rfl,
    show (t.trustregion.permute σ).center = permute σ t.trustregion.center from rfl,
    Log.permute_indicesInRegion hu.nrm, Log.permute_getXs, permute_additional]
  refine SameOutcome.bind (hu.filter _ _ _ _ _ _ _ ht) fun r r' _ hr => ?_
  subst hr
  simp only [List.length_map]
  refine SameOutcome.bind (hu.sample _ _ _ _ _ _) fun xs xs' _ hx => ?_
  subst hx
  simp only [Log.permute_addXs, Log.permute_evaluate hu.oracle, Log.permute_getXs]
  refine SameOutcome.bind (buildModel_permute hu ht _ _ _) fun b b' _ hb => ?_
  rw [hb.modelXs, List.length_map]
  refine SameOutcome.bind (dropLoop_permute hu g ht _ hb) fun b1 b1' _ hb1 => ?_
  refine SameOutcome.bind (stagnationLoop_permute hu g ht k it _ 0 hb1) fun b2 b2' _ hb2 => ?_
  exact ⟨rfl, hb2⟩

theorem runDecider_permute [FloorRing K] (hu : OrderRespected σ noisy RV RS comp comp')
    (g : Config K) (it : Nat)
    (sigma : Option (Option K)) {sub sub' : SubSolution K n} (hsub : PermutedSub σ sub sub')
    (cur : Current K n) (h : Log K n) :
    SameOutcome (PermutedAccept σ) (runDeciderR g comp it sigma sub cur h)
      (runDeciderR g comp' it sigma sub' (cur.permute σ) (h.permute σ)) := by
  simp only [runDeciderR]
  cases g.decider with
  | classic m => exact acceptSimple_permute hu.nrm hu.oracle m 1 hsub cur h
  | naiveNoisy m => exact acceptSimple_permute hu.nrm hu.oracle m 10 hsub cur h
  | noisy m zc zp nMin nMax =>
    rcases sigma with _ | _ | sg
    · exact rfl
    · exact rfl
    · exact acceptNoisy_permute hu.nrm hu.oracle m sg zc zp nMin nMax hsub cur h
  | lineSearch m rf =>
    exact acceptLineSearch_permute hu.nrm hu.cubeRadius hu.oracle
      (fun h r k xs => hu.sample it 0 h r k xs) rf m _ hsub cur h

theorem isConverged_permute {nrm nrm' : Vec K n → K}
    (hn : ∀ v : Vec K n, nrm' (permute σ v) = nrm v) {gn gn' : SM → K}
    (hg : ∀ sm sm', RS sm sm' → gn' sm' = gn sm) (o : ConvOptions K)
    {t t' u u' : LoopState K n VM SM} (ht : PermutedState σ RV RS t t')
    (hu : PermutedState σ RV RS u u') : isConverged nrm' gn' o t' u' = isConverged nrm gn o t u := by
  have hrel : (nrm' fun i => (t'.x i - u'.x i) / max |t'.x i| 1) =
      nrm fun i => (t.x i - u.x i) / max |t.x i| 1 := by
    rw [← hn, ht.x, hu.x]
    rfl
  have habs : (nrm' fun i => t'.x i - u'.x i) = nrm fun i => t.x i - u.x i := by
    rw [← hn, ht.x, hu.x, permute_sub]
  simp only [isConverged, hrel, habs, ht.fval, hu.fval, hg _ _ hu.model]

theorem endIteration_permute (g : Config K)
    (hu : OrderRespected σ noisy RV RS comp comp') {t t' u u' : LoopState K n VM SM}
    (ht : PermutedState σ RV RS t t') (hw : PermutedState σ RV RS u u')
    {l l' : List (LoopState K n VM SM)} (hl : List.Forall₂ (PermutedState σ RV RS) l l')
    {q q' : Log K n × AcceptanceResult K n} (ha : PermutedAccept σ q q') (next : Int × Bool) :
    PermutedCourse σ RV RS (endIterationR g comp t u l q.1 q.2 next)
      (endIterationR g comp' t' u' l' q'.1 q'.2 next) := by
  have hrad : adjustRadius u'.trustregion.radius q'.2.rho q'.2.stepLength g.radius next.2 =
      adjustRadius u.trustregion.radius q.2.rho q.2.stepLength g.radius next.2 := by
    rw [hw.trustregion, ha.rho, ha.stepLength]
    rfl
  have hfin : ∀ (z : K), PermutedState σ RV RS
      { u with trustregion := { u.trustregion with center := q.2.x, radius := z } }
      { u' with trustregion := { u'.trustregion with center := q'.2.x, radius := z } } := by
    intro z
    exact { hw with trustregion := by simp only [hw.trustregion, ha.x, Region.permute] }
  have hconv : (if q'.2.accepted && !g.conv.disable then
      isConverged comp'.nrm comp'.gradNorm g.conv t' u' else none) =
      if q.2.accepted && !g.conv.disable then isConverged comp.nrm comp.gradNorm g.conv t u
      else none := by
    rw [ha.accepted, isConverged_permute hu.nrm hu.gradNorm g.conv ht hw]
  simp only [endIterationR, hconv, hrad, ha.log, Log.permute_nFun]
  generalize (if q.2.accepted && !g.conv.disable then
    isConverged comp.nrm comp.gradNorm g.conv t u else none) = cv
  cases cv with
  | some m => exact ⟨rfl, hfin _, hl, rfl, rfl, rfl, rfl⟩
  | none =>
    simp only
    split_ifs
    · exact ⟨rfl, hfin _, hl, rfl, rfl, rfl, rfl⟩
    · exact ⟨rfl, hfin _, hl, rfl, rfl, rfl, rfl⟩

theorem iteration_permute [FloorRing K] (g : Config K)
    (hu : OrderRespected σ g.noisy RV RS comp comp')
    (it : Nat) {r r' : Run K n VM SM} (hr : PermutedCourse σ RV RS r r') :
    SameOutcome (PermutedCourse σ RV RS)
      (iterationR g comp it r) (iterationR g comp' it r') := by
  simp only [iterationR, hr.log, hr.nEvals]
  refine SameOutcome.bind (buildPhase_permute hu g hr.state it _ _) fun p p' _ hp => ?_
  obtain ⟨hp1, hb⟩ := hp
  rw [hr.state.trustregion, hb.log]
  have hnoise : noiseR g comp' (p.2.log.permute σ) (r.state.trustregion.permute σ) =
      noiseR g comp p.2.log r.state.trustregion := by
    simp only [noiseR]
    by_cases hg : g.noisy = true
    · simp only [hg, if_true, hu.noiseSigma hg]
    · simp only [hg, Bool.false_eq_true, if_false]
  refine SameOutcome.bind (SameOutcome.refl_eq hnoise) fun sg sg' _ hsg => ?_
  subst hsg
  rw [hr.state.current_eq]
  refine SameOutcome.bind (runDecider_permute hu g it _ hb.sub _ _) fun q q' _ ha => ?_
  have hst : PermutedState σ RV RS (stateR r.state r.nEvals p.1 p.2 q.2)
      (stateR r'.state r.nEvals p'.1 p'.2 q'.2) := by
    have h := hr.state
    constructor <;> simp only [stateR, h.trustregion, h.vectorModel, hb.modelIndices, hb.model, hp1,
      ha.x, ha.fval, ha.index, ha.rho, ha.accepted, ha.stepLength, ha.relativeStepLength,
      ha.candidateIndex, ha.candidateX, ha.nEvalsAcceptance, Option.map_some]
  have hnext : nextNEvalsR g comp' it r.nEvals p'.2 (stateR r'.state r.nEvals p'.1 p'.2 q'.2)
      q'.2.rho = nextNEvalsR g comp it r.nEvals p.2 (stateR r.state r.nEvals p.1 p.2 q.2) q.2.rho := by
    simp only [nextNEvalsR, ha.rho]
    by_cases hg : g.noisy = true
    · simp only [hg, if_true]
      rw [hb.log, hb.modelXs, hst.trustregion,
        hu.rhoNoise hg _ _ _ _ _ _ _ _ hb.vectorModel hst.vectorModel]
    · simp only [hg]
      rfl
  rw [hnext]
  refine SameOutcome.bind (SameOutcome.refl_eq rfl) fun nx nx' _ hnx => ?_
  subst hnx
  exact endIteration_permute g hu hr.state hst (List.rel_append hr.states (.cons hst .nil)) ha nx'

theorem runLoop_permute [FloorRing K] (g : Config K)
    (hu : OrderRespected σ g.noisy RV RS comp comp')
    (k : Nat) :
    ∀ (it : Nat) {r r' : Run K n VM SM}, PermutedCourse σ RV RS r r' →
      SameOutcome (PermutedCourse σ RV RS) (runLoopR g comp k it r)
        (runLoopR g comp' k it r') := by
  induction k with
  | zero => exact fun _ _ _ hr => hr
  | succ k ih =>
    intro it r r' hr
    simp only [runLoopR]
    refine SameOutcome.bind (iteration_permute g hu it hr) fun r1 r1' _ h1 => ?_
    rw [h1.stop]
    split_ifs
    · exact h1
    · exact ih _ h1

theorem start_permute [FloorRing K] (g : Config K) (hu : OrderRespected σ noisy RV RS comp comp')
    (x : Vec K n) (radius : K) (bounds : Bounds K n) :
    SameOutcome (PermutedCourse σ RV RS)
      (startRunR g comp x radius bounds)
      (startRunR g comp' (permute σ x) radius (bounds.permute σ)) := by
  have hlog : startLogR g comp'.oracle (permute σ x) =
      (startLogR g comp.oracle x).permute σ := by
    simp only [startLogR]
    rw [← Log.permute_evaluate hu.oracle]
    rfl
  have hreg : (⟨permute σ x, radius, bounds.permute σ⟩ : Region K n) =
      (⟨x, radius, bounds⟩ : Region K n).permute σ := rfl
  simp only [startRunR, hlog, hreg]
  have hinit := hu.initModel (startLogR g comp.oracle x) ⟨x, radius, bounds⟩
  refine SameOutcome.bind (hu.aggregate _ _ hinit) fun sm sm' _ hsm => ?_
  have hst : ∀ {t t' : LoopState K n VM SM}, PermutedState σ RV RS t t' →
      List.Forall₂ (PermutedState σ RV RS) [t] [t'] := fun h => .cons h .nil
  refine ⟨rfl, ?_, hst ?_, rfl, rfl, rfl, rfl⟩
  all_goals
    exact ⟨rfl, rfl, hsm, hinit, rfl, rfl, rfl, rfl, rfl, rfl, rfl, rfl, rfl, rfl, rfl, rfl,
      rfl, rfl⟩

end Tranquilo
