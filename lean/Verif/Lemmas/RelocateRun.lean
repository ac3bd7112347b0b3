import Verif.Lemmas.Relocate

/-!
# Two runs of the optimizer with different coordinates of the parameters
-/

namespace Tranquilo

variable {K : Type} [Field K] [LinearOrder K] [IsStrictOrderedRing K] {n : Nat} {VM SM : Type}
variable {s : K} {a : Vec K n}

/-- Two results of a decider: the same in everything but the coordinates. -/
structure MovedAccept (s : K) (a : Vec K n) (q q' : Log K n × AcceptanceResult K n) : Prop where
  log : q'.1 = q.1.relocate s a
  x : q'.2.x = relocate s a q.2.x
  fval : q'.2.fval = q.2.fval
  index : q'.2.index = q.2.index
  rho : q'.2.rho = q.2.rho
  accepted : q'.2.accepted = q.2.accepted
  stepLength : q'.2.stepLength = s * q.2.stepLength
  relativeStepLength : q'.2.relativeStepLength = q.2.relativeStepLength
  candidateIndex : q'.2.candidateIndex = q.2.candidateIndex
  candidateX : q'.2.candidateX = relocate s a q.2.candidateX
  nEvalsAcceptance : q'.2.nEvalsAcceptance = q.2.nEvalsAcceptance

/-- The current point in the new coordinates. -/
def Current.relocate (s : K) (a : Vec K n) (o : Current K n) : Current K n :=
  { trustregion := o.trustregion.relocate s a, x := Tranquilo.relocate s a o.x, fval := o.fval
    index := o.index }

section Deciders

variable {nrm nrm' : Vec K n → K} (hn : ∀ v : Vec K n, nrm' (fun i => s * v i) = s * nrm v)
include hn

theorem getAcceptance_relocate (hs : 0 < s) (x : Vec K n) (v : XVal K) (i : Nat) (rho : XVal K)
    (acc : Bool) (o : Current K n) (k : Int) (h : Log K n) :
    MovedAccept s a (h, getAcceptanceResult nrm x v i rho acc o k)
      (h.relocate s a, getAcceptanceResult nrm' (relocate s a x) v i rho acc (o.relocate s a) k) := by
  have hx : (if acc then relocate s a x else (o.relocate s a).x) =
      relocate s a (if acc then x else o.x) := by cases acc <;> rfl
  have hstep : (nrm' fun i => (if acc then relocate s a x else (o.relocate s a).x) i -
      (o.relocate s a).x i) = s * nrm fun i => (if acc then x else o.x) i - o.x i := by
    rw [hx, ← hn]
    congr 1
    exact relocate_sub _ _
  refine ⟨rfl, hx, rfl, rfl, rfl, rfl, hstep, ?_, rfl, rfl, rfl⟩
  simp only [getAcceptanceResult, hstep]
  exact divFin_mul hs _ _

theorem finish_relocate (hs : 0 < s) (x : Vec K n) (v : XVal K) (i : Nat) (rho : XVal K)
    (acc : Bool) (o : Current K n) (k : Int) (h : Log K n) :
    MovedAccept s a (h, finishDecision nrm x v i rho acc o k)
      (h.relocate s a, finishDecision nrm' (relocate s a x) v i rho acc (o.relocate s a) k) := by
  simp only [finishDecision]
  split_ifs
  · exact getAcceptance_relocate hn hs ..
  · exact getAcceptance_relocate hn hs ..

theorem acceptSimple_relocate (hs : 0 < s) {o o' : Oracle K n}
    (ho : ∀ k x, o' k (relocate s a x) = o k x) (m : K) (k : Nat)
    {sub sub' : SubSolution K n} (hsub : MovedSub s a sub sub') (cur : Current K n) (h : Log K n) :
    MovedAccept s a (acceptSimple nrm o m k sub cur h)
      (acceptSimple nrm' o' m k sub' (cur.relocate s a) (h.relocate s a)) := by
  simp only [acceptSimple, hsub.1, hsub.2, Log.relocate_addX, Log.relocate_evaluate ho,
    Log.relocate_fvals]
  exact finish_relocate hn hs ..

theorem acceptNoisy_relocate [FloorRing K] (hs : 0 < s) {o o' : Oracle K n}
    (ho : ∀ k x, o' k (relocate s a x) = o k x) (m sg zc zp : K) (nMin nMax : Nat)
    {sub sub' : SubSolution K n} (hsub : MovedSub s a sub sub') (cur : Current K n) (h : Log K n) :
    MovedAccept s a (acceptNoisy nrm o m sg zc zp nMin nMax sub cur h)
      (acceptNoisy nrm' o' m sg zc zp nMin nMax sub' (cur.relocate s a) (h.relocate s a)) := by
  simp only [acceptNoisy, hsub.1, hsub.2, Log.relocate_addX, Log.relocate_evaluate ho,
    Log.relocate_fvals, show (cur.relocate s a).index = cur.index from rfl]
  exact finish_relocate hn hs ..

theorem sampleOnLine_relocate (x y : Vec K n) (grid : List K) :
    sampleOnLine (relocate s a x) (relocate s a y) grid =
      (sampleOnLine x y grid).map (relocate s a) := by
  simp only [sampleOnLine, List.map_map]
  refine List.map_congr_left fun t _ => ?_
  funext i
  simp only [relocate, Function.comp]
  ring

theorem speculative_relocate (hs : 0 < s) {sample sample' : SamplerR K n}
    (hsam : ∀ h r k xs, SameOutcome (fun ys ys' => ys' = ys.map (relocate s a)) (sample h r k xs)
      (sample' (h.relocate s a) (r.relocate s a) k (xs.map (relocate s a))))
    (c : Vec K n) (r : Region K n) (k : Nat) (h : Log K n) (xs : List (Vec K n)) (f : K) :
    SameOutcome (fun ys ys' => ys' = ys.map (relocate s a)) (speculativeSampleR nrm sample c r k h xs f)
      (speculativeSampleR nrm' sample' (relocate s a c) (r.relocate s a) k (h.relocate s a)
        (xs.map (relocate s a)) f) := by
  have hreg : ({ r.relocate s a with center := relocate s a c, radius := f * (r.relocate s a).radius } :
      Region K n) = ({ r with center := c, radius := f * r.radius } : Region K n).relocate s a := by
    simp only [Region.relocate, Region.mk.injEq, true_and, and_true]
    ring
  simp only [speculativeSampleR, hreg]
  rw [show f * (r.relocate s a).radius = s * (f * r.radius) by simp only [Region.relocate]; ring,
    Log.relocate_indicesInRegion hs hn, Log.relocate_getXs, ← List.map_append]
  exact hsam _ _ _ _

theorem lineSearchXs_relocate (hs : 0 < s) {cr cr' : K → K} {sample sample' : SamplerR K n}
    (hsam : ∀ h r k xs, SameOutcome (fun ys ys' => ys' = ys.map (relocate s a)) (sample h r k xs)
      (sample' (h.relocate s a) (r.relocate s a) k (xs.map (relocate s a))))
    (rf : K) (b : Nat) (x : Vec K n) (cur : Current K n) (h : Log K n)
    (hborder : isOnBorder nrm' cr' (cur.trustregion.relocate s a) (relocate s a x) (1 / 10) =
      isOnBorder nrm cr cur.trustregion x (1 / 10)) :
    SameOutcome (fun ys ys' => ys' = ys.map (relocate s a)) (lineSearchXsR nrm cr sample rf b x cur h)
      (lineSearchXsR nrm' cr' sample' rf b (relocate s a x) (cur.relocate s a) (h.relocate s a)) := by
  have e1 : (cur.relocate s a).trustregion = cur.trustregion.relocate s a := rfl
  have e2 : (cur.relocate s a).x = relocate s a cur.x := rfl
  have hline : (if isOnBorder nrm cr cur.trustregion x (1 / 10) then
      sampleOnLine (relocate s a cur.x) (relocate s a x) (alphaGrid b) else []) =
      (if isOnBorder nrm cr cur.trustregion x (1 / 10) then
        sampleOnLine cur.x x (alphaGrid b) else []).map (relocate s a) := by
    split_ifs
    · exact sampleOnLine_relocate hn ..
    · rfl
  simp only [lineSearchXsR, e1, e2, hborder, hline, List.length_map]
  generalize (if isOnBorder nrm cr cur.trustregion x (1 / 10) then
    sampleOnLine cur.x x (alphaGrid b) else []) = line
  by_cases hpos : 0 < b - 1 - line.length
  · simp only [if_pos hpos]
    refine SameOutcome.bind (speculative_relocate hn hs hsam _ _ _ _ _ _) fun ys ys' _ hy => ?_
    subst hy
    simp [SameOutcome, pure, Except.pure]
  · simp only [if_neg hpos]
    simp [SameOutcome]

theorem acceptLineSearch_relocate (hs : 0 < s) {cr cr' : K → K} {o o' : Oracle K n}
    {sample sample' : SamplerR K n} (ho : ∀ k x, o' k (relocate s a x) = o k x)
    (hsam : ∀ h r k xs, SameOutcome (fun ys ys' => ys' = ys.map (relocate s a)) (sample h r k xs)
      (sample' (h.relocate s a) (r.relocate s a) k (xs.map (relocate s a))))
    (rf m : K) (b : Nat) {sub sub' : SubSolution K n} (hsub : MovedSub s a sub sub')
    (cur : Current K n) (h : Log K n)
    (hborder : b = 1 ∨ isOnBorder nrm' cr' (cur.trustregion.relocate s a) (relocate s a sub.x) (1 / 10) =
      isOnBorder nrm cr cur.trustregion sub.x (1 / 10)) :
    SameOutcome (MovedAccept s a) (acceptLineSearchR nrm cr o sample rf m b sub cur h)
      (acceptLineSearchR nrm' cr' o' sample' rf m b sub' (cur.relocate s a) (h.relocate s a)) := by
  simp only [acceptLineSearchR]
  split_ifs with hb
  · exact acceptSimple_relocate hn hs ho m 1 hsub cur h
  · simp only [hsub.1, Log.relocate_addX]
    refine SameOutcome.bind (lineSearchXs_relocate hn hs hsam _ _ _ _ _ (hborder.resolve_left hb))
      fun xs xs' _ hx => ?_
    subst hx
    simp only [Log.relocate_addXs, Log.relocate_evaluate ho, finishLineSearchR, Log.relocate_fvals,
      hsub.2]
    refine SameOutcome.bind (SameOutcome.refl_eq rfl) fun p p' _ hp => ?_
    subst hp
    simp only [Log.relocate_xs, List.getElem?_map, hsub.1]
    rw [Option.getD_map (relocate s a)]
    exact finish_relocate hn hs ..

end Deciders

/-- Two builds: the same points and candidate, related models. -/
structure MovedBuild (s : K) (a : Vec K n) (RV : VM → VM → Prop) (RS : SM → SM → Prop)
    (b b' : Build K n VM SM) : Prop where
  log : b'.log = b.log.relocate s a
  modelXs : b'.modelXs = b.modelXs.map (relocate s a)
  modelIndices : b'.modelIndices = b.modelIndices
  vectorModel : RV b.vectorModel b'.vectorModel
  model : RS b.model b'.model
  sub : MovedSub s a b.sub b'.sub
  relStep : b'.relStep = b.relStep

variable {RV : VM → VM → Prop} {RS : SM → SM → Prop} {comp comp' : ComponentsR K n VM SM} {noisy : Bool}

theorem MovedState.current_eq {t t' : LoopState K n VM SM} (h : MovedState s a RV RS t t') :
    t'.current = t.current.relocate s a := by
  simp only [LoopState.current, Current.relocate, h.trustregion, h.x, h.fval, h.index]

theorem buildModel_relocate (hs : 0 < s) (hu : PlaceRespected s a noisy RV RS comp comp')
    {t t' : LoopState K n VM SM} (ht : MovedState s a RV RS t t') (h : Log K n) (xs : List (Vec K n))
    (is : List Nat) :
    SameOutcome (MovedBuild s a RV RS) (buildModelR comp t h xs is)
      (buildModelR comp' t' (h.relocate s a) (xs.map (relocate s a)) is) := by
  simp only [buildModelR, ht.trustregion]
  refine SameOutcome.bind (hu.fit _ _ _ _ _ ht.vectorModel) fun vm vm' _ hvm => ?_
  refine SameOutcome.bind (hu.aggregate _ _ hvm) fun sm sm' _ hsm => ?_
  refine SameOutcome.bind (hu.solve _ _ _ hsm) fun sub sub' _ hsub => ?_
  refine ⟨rfl, rfl, rfl, hvm, hsm, hsub, ?_⟩
  simp only [relStepLengthR, hsub.1, ht.x, ht.trustregion, relocate_sub, hu.nrm]
  exact divFin_mul hs _ _

theorem dropLoop_relocate (hs : 0 < s) (hu : PlaceRespected s a noisy RV RS comp comp') (g : Config K)
    {t t' : LoopState K n VM SM} (ht : MovedState s a RV RS t t') (fuel : Nat) :
    ∀ {b b' : Build K n VM SM}, MovedBuild s a RV RS b b' →
      SameOutcome (MovedBuild s a RV RS) (dropLoopR g comp t fuel b)
        (dropLoopR (g.relocate s) comp' t' fuel b') := by
  induction fuel with
  | zero => exact fun hb => hb
  | succ fuel ih =>
    intro b b' hb
    simp only [dropLoopR, Config.relocate, hb.relStep, hb.modelXs, hb.modelIndices, hb.log, ht.x,
      ht.index, ht.trustregion, List.length_map, Region.relocate]
    split_ifs with hcond
    · refine SameOutcome.bind (dropWorst_relocate hs hu.nrm _ _ _ _ _ _) fun r r' _ hr => ?_
      subst hr
      refine SameOutcome.bind (buildModel_relocate hs hu ht _ _ _) fun b1 b1' _ hb1 => ?_
      exact ih hb1
    · exact hb

theorem stagnationRound_relocate (hs : 0 < s) (hu : PlaceRespected s a noisy RV RS comp comp')
    (g : Config K) {t t' : LoopState K n VM SM} (ht : MovedState s a RV RS t t') (k : Int)
    (it round : Nat) {b b' : Build K n VM SM} (hb : MovedBuild s a RV RS b b') :
    SameOutcome (MovedBuild s a RV RS) (stagnationRoundR g comp t k it round b)
      (stagnationRoundR (g.relocate s) comp' t' k it round b') := by
  have hkeep : SameOutcome (fun p p' => p' = (p.1.map (relocate s a), p.2))
      (stagnationKeepR g comp t b) (stagnationKeepR (g.relocate s) comp' t' b') := by
    simp only [stagnationKeepR, Config.relocate, hb.modelXs, hb.modelIndices, ht.x, ht.index,
      ht.trustregion, List.length_map, Region.relocate]
    split_ifs
    · exact dropWorst_relocate hs hu.nrm _ _ _ _ _ _
    · exact rfl
  simp only [stagnationRoundR]
  refine SameOutcome.bind hkeep fun r r' _ hr => ?_
  subst hr
  simp only [Config.relocate, hb.log, ht.trustregion]
  refine SameOutcome.bind (hu.sample _ _ _ _ _ _) fun xs xs' _ hx => ?_
  subst hx
  simp only [Log.relocate_addXs, Log.relocate_evaluate hu.oracle, Log.relocate_getXs]
  exact buildModel_relocate hs hu ht _ _ _

theorem stagnationLoop_relocate (hs : 0 < s) (hu : PlaceRespected s a noisy RV RS comp comp')
    (g : Config K) {t t' : LoopState K n VM SM} (ht : MovedState s a RV RS t t') (k : Int)
    (it fuel : Nat) :
    ∀ (j : Nat) {b b' : Build K n VM SM}, MovedBuild s a RV RS b b' →
      SameOutcome (MovedBuild s a RV RS) (stagnationLoopR g comp t k it fuel j b)
        (stagnationLoopR (g.relocate s) comp' t' k it fuel j b') := by
  induction fuel with
  | zero => exact fun _ _ _ hb => hb
  | succ fuel ih =>
    intro j b b' hb
    have hst : (g.relocate s).stagnation = g.stagnation := rfl
    simp only [stagnationLoopR, hb.relStep, hst]
    split_ifs with hcond hm
    · refine SameOutcome.bind (stagnationRound_relocate hs hu g ht k it _ hb) fun b1 b1' _ hb1 => ?_
      exact hb1
    · refine SameOutcome.bind (stagnationRound_relocate hs hu g ht k it _ hb) fun b1 b1' _ hb1 => ?_
      exact ih _ hb1
    · exact hb

theorem buildPhase_relocate [FloorRing K] (hs : 0 < s) (hu : PlaceRespected s a noisy RV RS comp comp')
    (g : Config K) {t t' : LoopState K n VM SM} (ht : MovedState s a RV RS t t') (it : Nat)
    (h : Log K n) (k : Int) :
    SameOutcome (fun p p' => p'.1 = p.1 ∧ MovedBuild s a RV RS p.2 p'.2) (buildPhaseR g comp it t h k)
      (buildPhaseR (g.relocate s) comp' it t' (h.relocate s a) k) := by
  have e1 : (g.relocate s).stagnation = g.stagnation := rfl
  have e2 : (g.relocate s).searchRadiusFactor = g.searchRadiusFactor := rfl
  have e3 : (g.relocate s).targetSize = g.targetSize := rfl
  have e4 : (g.relocate s).batchSize = g.batchSize := rfl
  have e5 : g.searchRadiusFactor * (t.trustregion.relocate s a).radius =
      s * (g.searchRadiusFactor * t.trustregion.radius) := by
    simp only [Region.relocate]
    ring
  simp only [buildPhaseR, e1, e2, e3, e4, e5, ht.trustregion,
    show (t.trustregion.relocate s a).center = relocate s a t.trustregion.center from rfl,
    Log.relocate_indicesInRegion hs hu.nrm, Log.relocate_getXs, relocate_additional]
  refine SameOutcome.bind (hu.filter _ _ _ _ _ _ _ ht) fun r r' _ hr => ?_
  subst hr
  simp only [List.length_map]
  refine SameOutcome.bind (hu.sample _ _ _ _ _ _) fun xs xs' _ hx => ?_
  subst hx
  simp only [Log.relocate_addXs, Log.relocate_evaluate hu.oracle, Log.relocate_getXs]
  refine SameOutcome.bind (buildModel_relocate hs hu ht _ _ _) fun b b' _ hb => ?_
  rw [hb.modelXs, List.length_map]
  refine SameOutcome.bind (dropLoop_relocate hs hu g ht _ hb) fun b1 b1' _ hb1 => ?_
  refine SameOutcome.bind (stagnationLoop_relocate hs hu g ht k it _ 0 hb1) fun b2 b2' _ hb2 => ?_
  exact ⟨rfl, hb2⟩

theorem runDecider_relocate [FloorRing K] (hs : 0 < s) (hu : PlaceRespected s a noisy RV RS comp comp')
    (g : Config K) {bounds : Bounds K n} (hf : PlaceFree s a g comp comp' bounds) (it : Nat)
    (sigma : Option (Option K)) {sub sub' : SubSolution K n} (hsub : MovedSub s a sub sub')
    (cur : Current K n) (hcur : cur.trustregion.bounds = bounds) (h : Log K n) :
    SameOutcome (MovedAccept s a) (runDeciderR g comp it sigma sub cur h)
      (runDeciderR (g.relocate s) comp' it sigma sub' (cur.relocate s a) (h.relocate s a)) := by
  have hb : (g.relocate s).batchSize = g.batchSize := rfl
  have hd : (g.relocate s).decider = g.decider := rfl
  have hfb := hf.border
  simp only [runDeciderR, hd, hb]
  cases hgd : g.decider with
  | classic m => exact acceptSimple_relocate hu.nrm hs hu.oracle m 1 hsub cur h
  | naiveNoisy m => exact acceptSimple_relocate hu.nrm hs hu.oracle m 10 hsub cur h
  | noisy m zc zp nMin nMax =>
    rcases sigma with _ | _ | sg
    · exact rfl
    · exact rfl
    · exact acceptNoisy_relocate hu.nrm hs hu.oracle m sg zc zp nMin nMax hsub cur h
  | lineSearch m rf =>
    exact acceptLineSearch_relocate hu.nrm hs hu.oracle (fun h r k xs => hu.sample it 0 h r k xs) rf m _
      hsub cur h ((hfb m rf hgd).imp_right fun hb => hb _ _ hcur)

theorem isConverged_relocate (hs : 0 < s) {nrm nrm' : Vec K n → K}
    (hn : ∀ v : Vec K n, nrm' (fun i => s * v i) = s * nrm v) (hd : ∀ v, nrm v ≤ 0 ↔ ∀ i, v i = 0)
    (hd' : ∀ v, nrm' v ≤ 0 ↔ ∀ i, v i = 0) {gn gn' : SM → K}
    (hg : ∀ sm sm', RS sm sm' → gn' sm' = gn sm) (o : ConvOptions K) (h0 : o.xtolRel = 0)
    {t t' u u' : LoopState K n VM SM} (ht : MovedState s a RV RS t t') (hu : MovedState s a RV RS u u') :
    isConverged nrm' gn' { o with xtolAbs := s * o.xtolAbs } t' u' = isConverged nrm gn o t u := by
  have hrel : ((nrm' fun i => (t'.x i - u'.x i) / max |t'.x i| 1) ≤ o.xtolRel) ↔
      ((nrm fun i => (t.x i - u.x i) / max |t.x i| 1) ≤ o.xtolRel) := by
    have hmax : ∀ v : K, max |v| 1 ≠ 0 := fun v => (one_pos.trans_le (le_max_right _ _)).ne'
    rw [h0, hd, hd']
    refine forall_congr' fun i => ?_
    rw [div_eq_zero_iff, div_eq_zero_iff, or_iff_left (hmax _), or_iff_left (hmax _), ht.x, hu.x]
    rw [congrFun (relocate_sub (s := s) (a := a) t.x u.x) i, mul_eq_zero, or_iff_right hs.ne']
  have habs : (nrm' fun i => t'.x i - u'.x i) = s * nrm fun i => t.x i - u.x i := by
    rw [← hn, ht.x, hu.x, relocate_sub]
  simp only [isConverged, hrel, habs, ht.fval, hu.fval, hg _ _ hu.model, mul_le_mul_iff_right₀ hs]

theorem adjustRadius_relocate (hs : 0 < s) (radius : K) (rho : XVal K) (step : K) (o : RadiusOptions K)
    (inc : Bool) :
    adjustRadius (s * radius) rho (s * step)
      { o with minRadius := s * o.minRadius, maxRadius := s * o.maxRadius } inc =
      s * adjustRadius radius rho step o inc := by
  have hmin : ∀ u v : K, min (s * u) (s * v) = s * min u v := fun u v => (mul_min_of_nonneg u v hs.le).symm
  have hmax : ∀ u v : K, max (s * u) (s * v) = s * max u v := fun u v => (mul_max_of_nonneg u v hs.le).symm
  have hnew : ∀ z z' w w' : K, z' = s * z → w' = s * w →
      npClip z' (s * o.minRadius) w' = s * npClip z o.minRadius w := by
    rintro z z' w w' rfl rfl
    simp only [npClip, hmin, hmax]
  simp only [adjustRadius, divFin_mul hs]
  refine hnew _ _ _ _ ?_ ?_
  · split_ifs <;> ring
  · cases o.maxRadiusToStepRatio with
    | fin ratio => simp only [mul_assoc, hmin]
    | _ => rfl

theorem endIteration_relocate (hs : 0 < s) (g : Config K) {bounds : Bounds K n}
    (hf : PlaceFree s a g comp comp' bounds)
    (hu : PlaceRespected s a noisy RV RS comp comp') {t t' u u' : LoopState K n VM SM}
    (ht : MovedState s a RV RS t t') (hw : MovedState s a RV RS u u')
    {l l' : List (LoopState K n VM SM)} (hl : List.Forall₂ (MovedState s a RV RS) l l')
    {q q' : Log K n × AcceptanceResult K n} (ha : MovedAccept s a q q') (next : Int × Bool) :
    MovedCourse s a RV RS (endIterationR g comp t u l q.1 q.2 next)
      (endIterationR (g.relocate s) comp' t' u' l' q'.1 q'.2 next) := by
  have e2 : (g.relocate s).maxEval = g.maxEval := rfl
  have e3 : (g.relocate s).conv.disable = g.conv.disable := rfl
  have hrad : adjustRadius u'.trustregion.radius q'.2.rho q'.2.stepLength (g.relocate s).radius next.2 =
      s * adjustRadius u.trustregion.radius q.2.rho q.2.stepLength g.radius next.2 := by
    rw [hw.trustregion, ha.rho, ha.stepLength]
    exact adjustRadius_relocate hs _ _ _ _ _
  have hfin : ∀ (z : K), MovedState s a RV RS
      { u with trustregion := { u.trustregion with center := q.2.x, radius := z } }
      { u' with trustregion := { u'.trustregion with center := q'.2.x, radius := s * z } } := by
    intro z
    exact { hw with trustregion := by simp only [hw.trustregion, ha.x, Region.relocate] }
  have hconv : (if q'.2.accepted && !(g.relocate s).conv.disable then
      isConverged comp'.nrm comp'.gradNorm (g.relocate s).conv t' u' else none) =
      if q.2.accepted && !g.conv.disable then isConverged comp.nrm comp.gradNorm g.conv t u
      else none := by
    rw [e3, ha.accepted]
    rcases hf.conv with h | ⟨h0, h1, h2⟩
    · simp [h]
    · rw [show (g.relocate s).conv = { g.conv with xtolAbs := s * g.conv.xtolAbs } from rfl,
        isConverged_relocate hs hu.nrm h1 h2 hu.gradNorm g.conv h0 ht hw]
  simp only [endIterationR, hconv, hrad, e2, ha.log, Log.relocate_nFun]
  generalize (if q.2.accepted && !g.conv.disable then
    isConverged comp.nrm comp.gradNorm g.conv t u else none) = cv
  cases cv with
  | some m => exact ⟨rfl, hfin _, hl, rfl, rfl, rfl, rfl⟩
  | none =>
    simp only
    split_ifs
    · exact ⟨rfl, hfin _, hl, rfl, rfl, rfl, rfl⟩
    · exact ⟨rfl, hfin _, hl, rfl, rfl, rfl, rfl⟩

theorem endIteration_bounds (g : Config K) (comp : ComponentsR K n VM SM) (t u : LoopState K n VM SM)
    (l : List (LoopState K n VM SM)) (h : Log K n) (res : AcceptanceResult K n) (next : Int × Bool) :
    (endIterationR g comp t u l h res next).state.trustregion.bounds = u.trustregion.bounds := by
  simp only [endIterationR]
  split
  · rfl
  · split_ifs <;> rfl

theorem iteration_relocate [FloorRing K] (hs : 0 < s) (g : Config K) {bounds : Bounds K n}
    (hf : PlaceFree s a g comp comp' bounds) (hu : PlaceRespected s a g.noisy RV RS comp comp')
    (it : Nat) {r r' : Run K n VM SM} (hr : MovedCourse s a RV RS r r')
    (hb0 : r.state.trustregion.bounds = bounds) :
    SameOutcome (fun q q' => MovedCourse s a RV RS q q' ∧ q.state.trustregion.bounds = bounds)
      (iterationR g comp it r) (iterationR (g.relocate s) comp' it r') := by
  simp only [iterationR, hr.log, hr.nEvals]
  refine SameOutcome.bind (buildPhase_relocate hs hu g hr.state it _ _) fun p p' _ hp => ?_
  obtain ⟨hp1, hb⟩ := hp
  rw [hr.state.trustregion, hb.log]
  have hnoise : noiseR (g.relocate s) comp' (p.2.log.relocate s a) (r.state.trustregion.relocate s a) =
      noiseR g comp p.2.log r.state.trustregion := by
    simp only [noiseR, show (g.relocate s).noisy = g.noisy from rfl]
    by_cases hg : g.noisy = true
    · simp only [hg, if_true, hu.noiseSigma hg]
    · simp only [hg, Bool.false_eq_true, if_false]
  refine SameOutcome.bind (SameOutcome.refl_eq hnoise) fun sg sg' _ hsg => ?_
  subst hsg
  rw [hr.state.current_eq]
  refine SameOutcome.bind (runDecider_relocate hs hu g hf it _ hb.sub _ hb0 _) fun q q' _ ha => ?_
  have hst : MovedState s a RV RS (stateR r.state r.nEvals p.1 p.2 q.2)
      (stateR r'.state r.nEvals p'.1 p'.2 q'.2) := by
    have h := hr.state
    constructor <;> simp only [stateR, h.trustregion, h.vectorModel, hb.modelIndices, hb.model, hp1,
      ha.x, ha.fval, ha.index, ha.rho, ha.accepted, ha.stepLength, ha.relativeStepLength,
      ha.candidateIndex, ha.candidateX, ha.nEvalsAcceptance, Option.map_some]
  have hnext : nextNEvalsR (g.relocate s) comp' it r.nEvals p'.2 (stateR r'.state r.nEvals p'.1 p'.2 q'.2)
      q'.2.rho = nextNEvalsR g comp it r.nEvals p.2 (stateR r.state r.nEvals p.1 p.2 q.2) q.2.rho := by
    simp only [nextNEvalsR, show (g.relocate s).noisy = g.noisy from rfl,
      show (g.relocate s).noise = g.noise from rfl, ha.rho]
    by_cases hg : g.noisy = true
    · simp only [hg, if_true]
      rw [hb.log, hb.modelXs, hst.trustregion,
        hu.rhoNoise hg _ _ _ _ _ _ _ _ hb.vectorModel hst.vectorModel]
    · simp only [hg]
      rfl
  rw [hnext]
  refine SameOutcome.bind (SameOutcome.refl_eq rfl) fun nx nx' _ hnx => ?_
  subst hnx
  refine ⟨endIteration_relocate hs g hf hu hr.state hst
    (List.rel_append hr.states (.cons hst .nil)) ha nx', ?_⟩
  rw [endIteration_bounds]
  exact hb0

theorem runLoop_relocate [FloorRing K] (hs : 0 < s) (g : Config K) {bounds : Bounds K n}
    (hf : PlaceFree s a g comp comp' bounds) (hu : PlaceRespected s a g.noisy RV RS comp comp')
    (k : Nat) :
    ∀ (it : Nat) {r r' : Run K n VM SM}, MovedCourse s a RV RS r r' →
      r.state.trustregion.bounds = bounds →
      SameOutcome (MovedCourse s a RV RS) (runLoopR g comp k it r)
        (runLoopR (g.relocate s) comp' k it r') := by
  induction k with
  | zero => exact fun _ _ _ hr _ => hr
  | succ k ih =>
    intro it r r' hr hb0
    simp only [runLoopR]
    refine SameOutcome.bind (iteration_relocate hs g hf hu it hr hb0) fun r1 r1' _ h1 => ?_
    rw [h1.1.stop]
    split_ifs
    · exact h1.1
    · exact ih _ h1.1 h1.2

theorem start_relocate [FloorRing K] (g : Config K) (hu : PlaceRespected s a noisy RV RS comp comp')
    (x : Vec K n) (radius : K) (hr : radius ≠ 0) (bounds : Bounds K n) :
    SameOutcome (fun q q' => MovedCourse s a RV RS q q' ∧ q.state.trustregion.bounds = bounds)
      (startRunR g comp x radius bounds)
      (startRunR (g.relocate s) comp' (relocate s a x) (s * radius) (bounds.relocate s a)) := by
  have hlog : startLogR (g.relocate s) comp'.oracle (relocate s a x) =
      (startLogR g comp.oracle x).relocate s a := by
    simp only [startLogR]
    rw [← Log.relocate_evaluate hu.oracle]
    rfl
  have hreg : (⟨relocate s a x, s * radius, bounds.relocate s a⟩ : Region K n) =
      (⟨x, radius, bounds⟩ : Region K n).relocate s a := rfl
  simp only [startRunR, hlog, hreg]
  have hinit := hu.initModel (startLogR g comp.oracle x) ⟨x, radius, bounds⟩ hr
  refine SameOutcome.bind (hu.aggregate _ _ hinit) fun sm sm' _ hsm => ?_
  have hst : ∀ {t t' : LoopState K n VM SM}, MovedState s a RV RS t t' →
      List.Forall₂ (MovedState s a RV RS) [t] [t'] := fun h => .cons h .nil
  refine ⟨⟨rfl, ?_, hst ?_, rfl, rfl, rfl, rfl⟩, rfl⟩
  all_goals
    exact ⟨rfl, rfl, hsm, hinit, rfl, rfl, rfl, rfl, rfl, rfl, rfl, rfl, rfl, rfl, rfl, rfl,
      rfl, rfl⟩

end Tranquilo
