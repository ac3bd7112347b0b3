import Verif.Lemmas.Rotate
import Verif.Props.Mirror

/-!
# Two runs of the optimizer with rotated parameters
-/

namespace Tranquilo

variable {K : Type} [Field K] [LinearOrder K] [IsStrictOrderedRing K] {n : Nat} {VM SM : Type}
variable {R : Mat K n n}

/-- Two results of a decider: the same, but rotated. -/
structure RotatedAccept (R : Mat K n n) (q q' : Log K n × AcceptanceResult K n) : Prop where
  log : q'.1 = q.1.rotate R
  x : q'.2.x = rotate R q.2.x
  fval : q'.2.fval = q.2.fval
  index : q'.2.index = q.2.index
  rho : q'.2.rho = q.2.rho
  accepted : q'.2.accepted = q.2.accepted
  stepLength : q'.2.stepLength = q.2.stepLength
  relativeStepLength : q'.2.relativeStepLength = q.2.relativeStepLength
  candidateIndex : q'.2.candidateIndex = q.2.candidateIndex
  candidateX : q'.2.candidateX = rotate R q.2.candidateX
  nEvalsAcceptance : q'.2.nEvalsAcceptance = q.2.nEvalsAcceptance

/-- The rotated current point. -/
def Current.rotate (R : Mat K n n) (o : Current K n) : Current K n :=
  { trustregion := o.trustregion.rotate R, x := Tranquilo.rotate R o.x, fval := o.fval
    index := o.index }

section Deciders

variable {nrm nrm' : Vec K n → K} (hn : ∀ v : Vec K n, nrm' (rotate R v) = nrm v)
include hn

theorem getAcceptance_rotate (x : Vec K n) (v : XVal K) (i : Nat) (rho : XVal K)
    (acc : Bool) (o : Current K n) (k : Int) (h : Log K n) :
    RotatedAccept R (h, getAcceptanceResult nrm x v i rho acc o k)
      (h.rotate R, getAcceptanceResult nrm' (rotate R x) v i rho acc (o.rotate R) k) := by
  have hx : (if acc then rotate R x else (o.rotate R).x) =
      rotate R (if acc then x else o.x) := by cases acc <;> rfl
  have hstep : (nrm' fun i => (if acc then rotate R x else (o.rotate R).x) i -
      (o.rotate R).x i) = nrm fun i => (if acc then x else o.x) i - o.x i := by
    rw [hx, ← hn, ← rotate_sub]
    rfl
  refine ⟨rfl, hx, rfl, rfl, rfl, rfl, hstep, ?_, rfl, rfl, rfl⟩
  simp only [getAcceptanceResult, hstep]
  rfl

theorem finish_rotate (x : Vec K n) (v : XVal K) (i : Nat) (rho : XVal K)
    (acc : Bool) (o : Current K n) (k : Int) (h : Log K n) :
    RotatedAccept R (h, finishDecision nrm x v i rho acc o k)
      (h.rotate R, finishDecision nrm' (rotate R x) v i rho acc (o.rotate R) k) := by
  simp only [finishDecision]
  split_ifs
  · exact getAcceptance_rotate hn ..
  · exact getAcceptance_rotate hn ..

theorem acceptSimple_rotate {o o' : Oracle K n}
    (ho : ∀ k x, o' k (rotate R x) = o k x) (m : K) (k : Nat)
    {sub sub' : SubSolution K n} (hsub : RotatedSub R sub sub') (cur : Current K n) (h : Log K n) :
    RotatedAccept R (acceptSimple nrm o m k sub cur h)
      (acceptSimple nrm' o' m k sub' (cur.rotate R) (h.rotate R)) := by
  simp only [acceptSimple, hsub.1, hsub.2, Log.rotate_addX, Log.rotate_evaluate ho,
    Log.rotate_fvals]
  exact finish_rotate hn ..

theorem acceptNoisy_rotate [FloorRing K] {o o' : Oracle K n}
    (ho : ∀ k x, o' k (rotate R x) = o k x) (m sg zc zp : K) (nMin nMax : Nat)
    {sub sub' : SubSolution K n} (hsub : RotatedSub R sub sub') (cur : Current K n) (h : Log K n) :
    RotatedAccept R (acceptNoisy nrm o m sg zc zp nMin nMax sub cur h)
      (acceptNoisy nrm' o' m sg zc zp nMin nMax sub' (cur.rotate R) (h.rotate R)) := by
  simp only [acceptNoisy, hsub.1, hsub.2, Log.rotate_addX, Log.rotate_evaluate ho,
    Log.rotate_fvals, show (cur.rotate R).index = cur.index from rfl]
  exact finish_rotate hn ..

theorem sampleOnLine_rotate (x y : Vec K n) (grid : List K) :
    sampleOnLine (rotate R x) (rotate R y) grid =
      (sampleOnLine x y grid).map (rotate R) := by
  simp only [sampleOnLine, List.map_map]
  refine List.map_congr_left fun a _ => funext fun i => ?_
  simp only [Function.comp_def, rotate, mul_add, Finset.sum_add_distrib, ← Finset.sum_sub_distrib, Finset.mul_sum,
    ← mul_sub]
  congr 1
  exact Finset.sum_congr rfl fun j _ => by ring

theorem speculative_rotate {sample sample' : SamplerR K n}
    (r : Region K n)
    (hsam : ∀ h c f k xs, SameOutcome (fun ys ys' => ys' = ys.map (rotate R))
      (sample h { r with center := c, radius := f } k xs)
      (sample' (h.rotate R) (({ r with center := c, radius := f } : Region K n).rotate R) k (xs.map (rotate R))))
    (c : Vec K n) (k : Nat) (h : Log K n) (xs : List (Vec K n)) (f : K) :
    SameOutcome (fun ys ys' => ys' = ys.map (rotate R)) (speculativeSampleR nrm sample c r k h xs f)
      (speculativeSampleR nrm' sample' (rotate R c) (r.rotate R) k (h.rotate R)
        (xs.map (rotate R)) f) := by
  have hreg : ({ r.rotate R with center := rotate R c, radius := f * (r.rotate R).radius } :
      Region K n) = ({ r with center := c, radius := f * r.radius } : Region K n).rotate R := by
    simp only [Region.rotate]
  simp only [speculativeSampleR, hreg]
  rw [show f * (r.rotate R).radius = f * r.radius from rfl,
    Log.rotate_indicesInRegion hn, Log.rotate_getXs, ← List.map_append]
  exact hsam _ _ _ _ _

theorem lineSearchXs_rotate {cr cr' : K → K} {sample sample' : SamplerR K n}
    (cur : Current K n) (hfree : cur.trustregion.Free)
    (hsam : ∀ h c f k xs, SameOutcome (fun ys ys' => ys' = ys.map (rotate R))
      (sample h { cur.trustregion with center := c, radius := f } k xs)
      (sample' (h.rotate R) (({ cur.trustregion with center := c, radius := f } : Region K n).rotate R) k
        (xs.map (rotate R))))
    (rf : K) (b : Nat) (x : Vec K n) (h : Log K n) :
    SameOutcome (fun ys ys' => ys' = ys.map (rotate R)) (lineSearchXsR nrm cr sample rf b x cur h)
      (lineSearchXsR nrm' cr' sample' rf b (rotate R x) (cur.rotate R) (h.rotate R)) := by
  have e1 : (cur.rotate R).trustregion = cur.trustregion.rotate R := rfl
  have e2 : (cur.rotate R).x = rotate R cur.x := rfl
  have hline : (if isOnBorder nrm cr cur.trustregion x (1 / 10) then
      sampleOnLine (rotate R cur.x) (rotate R x) (alphaGrid b) else []) =
      (if isOnBorder nrm cr cur.trustregion x (1 / 10) then
        sampleOnLine cur.x x (alphaGrid b) else []).map (rotate R) := by
    split_ifs
    · exact sampleOnLine_rotate hn ..
    · rfl
  simp only [lineSearchXsR, e1, e2, isOnBorder_rotate hn (cr := cr) (cr' := cr') cur.trustregion hfree, hline, List.length_map]
  generalize (if isOnBorder nrm cr cur.trustregion x (1 / 10) then
    sampleOnLine cur.x x (alphaGrid b) else []) = line
  by_cases hpos : 0 < b - 1 - line.length
  · simp only [if_pos hpos]
    refine SameOutcome.bind (speculative_rotate hn _ hsam _ _ _ _ _) fun ys ys' _ hy => ?_
    subst hy
    simp [SameOutcome, pure, Except.pure]
  · simp only [if_neg hpos]
    simp [SameOutcome]

theorem acceptLineSearch_rotate {cr cr' : K → K} {o o' : Oracle K n}
    {sample sample' : SamplerR K n} (ho : ∀ k x, o' k (rotate R x) = o k x)
    (cur : Current K n) (hfree : cur.trustregion.Free)
    (hsam : ∀ h c f k xs, SameOutcome (fun ys ys' => ys' = ys.map (rotate R))
      (sample h { cur.trustregion with center := c, radius := f } k xs)
      (sample' (h.rotate R) (({ cur.trustregion with center := c, radius := f } : Region K n).rotate R) k
        (xs.map (rotate R))))
    (rf m : K) (b : Nat) {sub sub' : SubSolution K n} (hsub : RotatedSub R sub sub') (h : Log K n) :
    SameOutcome (RotatedAccept R) (acceptLineSearchR nrm cr o sample rf m b sub cur h)
      (acceptLineSearchR nrm' cr' o' sample' rf m b sub' (cur.rotate R) (h.rotate R)) := by
  simp only [acceptLineSearchR]
  split_ifs
  · exact acceptSimple_rotate hn ho m 1 hsub cur h
  · simp only [hsub.1, Log.rotate_addX]
    refine SameOutcome.bind (lineSearchXs_rotate hn cur hfree hsam _ _ _ _)
      fun xs xs' _ hx => ?_
    subst hx
    simp only [Log.rotate_addXs, Log.rotate_evaluate ho, finishLineSearchR, Log.rotate_fvals,
      hsub.2]
    refine SameOutcome.bind (SameOutcome.refl_eq rfl) fun p p' _ hp => ?_
    subst hp
    simp only [Log.rotate_xs, List.getElem?_map, hsub.1]
    rw [Option.getD_map (rotate R)]
    exact finish_rotate hn ..

end Deciders

/-- Two builds: the same points and candidate, related models. -/
structure RotatedBuild (R : Mat K n n) (RV : VM → VM → Prop) (RS : SM → SM → Prop)
    (b b' : Build K n VM SM) : Prop where
  log : b'.log = b.log.rotate R
  modelXs : b'.modelXs = b.modelXs.map (rotate R)
  modelIndices : b'.modelIndices = b.modelIndices
  vectorModel : RV b.vectorModel b'.vectorModel
  model : RS b.model b'.model
  sub : RotatedSub R b.sub b'.sub
  relStep : b'.relStep = b.relStep

variable {RV : VM → VM → Prop} {RS : SM → SM → Prop} {comp comp' : ComponentsR K n VM SM} {noisy : Bool}

theorem RotatedState.current_eq {t t' : LoopState K n VM SM} (h : RotatedState R RV RS t t') :
    t'.current = t.current.rotate R := by
  simp only [LoopState.current, Current.rotate, h.trustregion, h.x, h.fval, h.index]

theorem buildModel_rotate (hu : RotationRespected R noisy RV RS comp comp')
    {t t' : LoopState K n VM SM} (ht : RotatedState R RV RS t t')
    (hp : t.trustregion.Free) (h : Log K n) (xs : List (Vec K n))
    (is : List Nat) :
    SameOutcome (RotatedBuild R RV RS) (buildModelR comp t h xs is)
      (buildModelR comp' t' (h.rotate R) (xs.map (rotate R)) is) := by
  simp only [buildModelR, ht.trustregion]
  refine SameOutcome.bind (hu.fit _ _ _ _ _ hp ht.vectorModel) fun vm vm' _ hvm => ?_
  refine SameOutcome.bind (hu.aggregate _ _ hvm) fun sm sm' _ hsm => ?_
  refine SameOutcome.bind (hu.solve _ _ _ hp hsm) fun sub sub' _ hsub => ?_
  refine ⟨rfl, rfl, rfl, hvm, hsm, hsub, ?_⟩
  simp only [relStepLengthR, hsub.1, ht.x, ht.trustregion, rotate_sub, hu.nrm]
  rfl

theorem dropLoop_rotate (hu : RotationRespected R noisy RV RS comp comp') (g : Config K)
    {t t' : LoopState K n VM SM} (ht : RotatedState R RV RS t t')
    (hp : t.trustregion.Free) (fuel : Nat) :
    ∀ {b b' : Build K n VM SM}, RotatedBuild R RV RS b b' →
      SameOutcome (RotatedBuild R RV RS) (dropLoopR g comp t fuel b)
        (dropLoopR g comp' t' fuel b') := by
  induction fuel with
  | zero => exact fun hb => hb
  | succ fuel ih =>
    intro b b' hb
    simp only [dropLoopR, hb.relStep, hb.modelXs, hb.modelIndices, hb.log, ht.x,
      ht.index, ht.trustregion, List.length_map, Region.rotate]
    split_ifs with hcond
    · refine SameOutcome.bind (dropWorst_rotate hu.nrm _ _ _ _ _ _) fun r r' _ hr => ?_
      subst hr
      refine SameOutcome.bind (buildModel_rotate hu ht hp _ _ _) fun b1 b1' _ hb1 => ?_
      exact ih hb1
    · exact hb

theorem stagnationRound_rotate (hu : RotationRespected R noisy RV RS comp comp')
    (g : Config K) {t t' : LoopState K n VM SM} (ht : RotatedState R RV RS t t')
    (hp : t.trustregion.Free) (k : Int)
    (it round : Nat) {b b' : Build K n VM SM} (hb : RotatedBuild R RV RS b b') :
    SameOutcome (RotatedBuild R RV RS) (stagnationRoundR g comp t k it round b)
      (stagnationRoundR g comp' t' k it round b') := by
  have hkeep : SameOutcome (fun p p' => p' = (p.1.map (rotate R), p.2))
      (stagnationKeepR g comp t b) (stagnationKeepR g comp' t' b') := by
    simp only [stagnationKeepR, hb.modelXs, hb.modelIndices, ht.x, ht.index,
      ht.trustregion, List.length_map, Region.rotate]
    split_ifs
    · exact dropWorst_rotate hu.nrm _ _ _ _ _ _
    · exact rfl
  simp only [stagnationRoundR]
  refine SameOutcome.bind hkeep fun r r' _ hr => ?_
  subst hr
  simp only [hb.log, ht.trustregion]
  refine SameOutcome.bind (hu.sample _ _ _ _ _ _ hp) fun xs xs' _ hx => ?_
  subst hx
  simp only [Log.rotate_addXs, Log.rotate_evaluate hu.oracle, Log.rotate_getXs]
  exact buildModel_rotate hu ht hp _ _ _

theorem stagnationLoop_rotate (hu : RotationRespected R noisy RV RS comp comp')
    (g : Config K) {t t' : LoopState K n VM SM} (ht : RotatedState R RV RS t t')
    (hp : t.trustregion.Free) (k : Int)
    (it fuel : Nat) :
    ∀ (j : Nat) {b b' : Build K n VM SM}, RotatedBuild R RV RS b b' →
      SameOutcome (RotatedBuild R RV RS) (stagnationLoopR g comp t k it fuel j b)
        (stagnationLoopR g comp' t' k it fuel j b') := by
  induction fuel with
  | zero => exact fun _ _ _ hb => hb
  | succ fuel ih =>
    intro j b b' hb
    simp only [stagnationLoopR, hb.relStep]
    split_ifs with hcond hm
    · refine SameOutcome.bind (stagnationRound_rotate hu g ht hp k it _ hb) fun b1 b1' _ hb1 => ?_
      exact hb1
    · refine SameOutcome.bind (stagnationRound_rotate hu g ht hp k it _ hb) fun b1 b1' _ hb1 => ?_
      exact ih _ hb1
    · exact hb

theorem buildPhase_rotate [FloorRing K] (hu : RotationRespected R noisy RV RS comp comp')
    (g : Config K) {t t' : LoopState K n VM SM} (ht : RotatedState R RV RS t t')
    (hp : t.trustregion.Free) (it : Nat)
    (h : Log K n) (k : Int) :
    SameOutcome (fun p p' => p'.1 = p.1 ∧ RotatedBuild R RV RS p.2 p'.2) (buildPhaseR g comp it t h k)
      (buildPhaseR g comp' it t' (h.rotate R) k) := by
  simp only [buildPhaseR, ht.trustregion,
    show (t.trustregion.rotate R).radius = t.trustregion.radius from rfl,
    show (t.trustregion.rotate R).center = rotate R t.trustregion.center from rfl,
    Log.rotate_indicesInRegion hu.nrm, Log.rotate_getXs, rotate_additional]
  refine SameOutcome.bind (hu.filter _ _ _ _ _ _ _ ht hp) fun r r' _ hr => ?_
  subst hr
  simp only [List.length_map]
  refine SameOutcome.bind (hu.sample _ _ _ _ _ _ hp) fun xs xs' _ hx => ?_
  subst hx
  simp only [Log.rotate_addXs, Log.rotate_evaluate hu.oracle, Log.rotate_getXs]
  refine SameOutcome.bind (buildModel_rotate hu ht hp _ _ _) fun b b' _ hb => ?_
  rw [hb.modelXs, List.length_map]
  refine SameOutcome.bind (dropLoop_rotate hu g ht hp _ hb) fun b1 b1' _ hb1 => ?_
  refine SameOutcome.bind (stagnationLoop_rotate hu g ht hp k it _ 0 hb1) fun b2 b2' _ hb2 => ?_
  exact ⟨rfl, hb2⟩

theorem runDecider_rotate [FloorRing K] (hu : RotationRespected R noisy RV RS comp comp')
    (g : Config K) (it : Nat)
    (sigma : Option (Option K)) {sub sub' : SubSolution K n} (hsub : RotatedSub R sub sub')
    (cur : Current K n)
    (hfree : cur.trustregion.Free) (h : Log K n) :
    SameOutcome (RotatedAccept R) (runDeciderR g comp it sigma sub cur h)
      (runDeciderR g comp' it sigma sub' (cur.rotate R) (h.rotate R)) := by
  simp only [runDeciderR]
  cases hd : g.decider with
  | classic m => exact acceptSimple_rotate hu.nrm hu.oracle m 1 hsub cur h
  | naiveNoisy m => exact acceptSimple_rotate hu.nrm hu.oracle m 10 hsub cur h
  | noisy m zc zp nMin nMax =>
    rcases sigma with _ | _ | sg
    · exact rfl
    · exact rfl
    · exact acceptNoisy_rotate hu.nrm hu.oracle m sg zc zp nMin nMax hsub cur h
  | lineSearch m rf =>
    exact acceptLineSearch_rotate hu.nrm hu.oracle cur hfree
      (fun h c f k xs => hu.sample it 0 h _ k xs hfree) rf m _ hsub h

/-- Without a relative tolerance for the parameters the convergence criteria do not depend on the coordinates. -/
theorem isConverged_rotate (hR : OrthonormalColumns R) {nrm nrm' : Vec K n → K}
    (hn : ∀ v : Vec K n, nrm' (rotate R v) = nrm v) (hd : ∀ v : Vec K n, nrm v ≤ 0 ↔ v = fun _ => 0)
    (h0 : nrm (fun _ => 0) = 0) {gn gn' : SM → K}
    (hg : ∀ sm sm', RS sm sm' → gn' sm' = gn sm) (o : ConvOptions K) (ho : o.xtolRel ≤ 0)
    {t t' u u' : LoopState K n VM SM} (ht : RotatedState R RV RS t t')
    (hu : RotatedState R RV RS u u') : isConverged nrm' gn' o t' u' = isConverged nrm gn o t u := by
  have hle : ∀ v : Vec K n, nrm v ≤ o.xtolRel ↔ v = (fun _ => 0) ∧ o.xtolRel = 0 := by
    intro v
    constructor
    · intro h
      have hv := (hd v).1 (h.trans ho)
      rw [hv, h0] at h
      exact ⟨hv, le_antisymm ho h⟩
    · rintro ⟨rfl, h⟩
      rw [h0, h]
  have hpos : ∀ a : K, max |a| 1 ≠ 0 := fun a => (lt_of_lt_of_le one_pos (le_max_right _ _)).ne'
  have hz : ∀ x y : Vec K n, ((fun i => (x i - y i) / max |x i| 1) = fun _ => 0) ↔ x = y := by
    intro x y
    simp only [funext_iff, div_eq_zero_iff, hpos, or_false, sub_eq_zero]
  have hrel : ((nrm' fun i => (t'.x i - u'.x i) / max |t'.x i| 1) ≤ o.xtolRel) ↔
      (nrm fun i => (t.x i - u.x i) / max |t.x i| 1) ≤ o.xtolRel := by
    rw [← rotate_rotateBack hR (fun i => (t'.x i - u'.x i) / max |t'.x i| 1), hn, hle, hle, hz]
    rw [show (rotateBack R fun i => (t'.x i - u'.x i) / max |t'.x i| 1) = (fun _ => 0) ↔ t.x = u.x by
      rw [← (show t'.x = u'.x ↔ t.x = u.x by
        rw [ht.x, hu.x]; exact ⟨rotate_inj hR, fun h => by rw [h]⟩), ← hz t'.x u'.x]
      constructor
      · intro h
        rw [← rotate_rotateBack hR (fun i => (t'.x i - u'.x i) / max |t'.x i| 1), h, rotate_zero]
      · intro h
        rw [h]
        funext i
        simp [rotateBack]]
  have habs : (nrm' fun i => t'.x i - u'.x i) = nrm fun i => t.x i - u.x i := by
    rw [← hn, ht.x, hu.x, rotate_sub]
  simp only [isConverged, hrel, habs, ht.fval, hu.fval, hg _ _ hu.model]

theorem endIteration_rotate (hR : OrthonormalColumns R) (g : Config K) (hx : NoRelativeXTol g)
    (hu : RotationRespected R noisy RV RS comp comp') {t t' u u' : LoopState K n VM SM}
    (ht : RotatedState R RV RS t t') (hw : RotatedState R RV RS u u')
    {l l' : List (LoopState K n VM SM)} (hl : List.Forall₂ (RotatedState R RV RS) l l')
    {q q' : Log K n × AcceptanceResult K n} (ha : RotatedAccept R q q') (next : Int × Bool) :
    RotatedCourse R RV RS (endIterationR g comp t u l q.1 q.2 next)
      (endIterationR g comp' t' u' l' q'.1 q'.2 next) := by
  have hrad : adjustRadius u'.trustregion.radius q'.2.rho q'.2.stepLength g.radius next.2 =
      adjustRadius u.trustregion.radius q.2.rho q.2.stepLength g.radius next.2 := by
    rw [hw.trustregion, ha.rho, ha.stepLength]
    rfl
  have hfin : ∀ (z : K), RotatedState R RV RS
      { u with trustregion := { u.trustregion with center := q.2.x, radius := z } }
      { u' with trustregion := { u'.trustregion with center := q'.2.x, radius := z } } := by
    intro z
    exact { hw with trustregion := by simp only [hw.trustregion, ha.x, Region.rotate] }
  have hconv : (if q'.2.accepted && !g.conv.disable then
      isConverged comp'.nrm comp'.gradNorm g.conv t' u' else none) =
      if q.2.accepted && !g.conv.disable then isConverged comp.nrm comp.gradNorm g.conv t u
      else none := by
    rcases hx with hx | hx
    · simp [hx]
    · rw [ha.accepted, isConverged_rotate hR hu.nrm hu.definite hu.normZero hu.gradNorm g.conv hx ht hw]
  simp only [endIterationR, hconv, hrad, ha.log, Log.rotate_nFun]
  generalize (if q.2.accepted && !g.conv.disable then
    isConverged comp.nrm comp.gradNorm g.conv t u else none) = cv
  cases cv with
  | some m => exact ⟨rfl, hfin _, hl, rfl, rfl, rfl, rfl⟩
  | none =>
    simp only
    split_ifs
    · exact ⟨rfl, hfin _, hl, rfl, rfl, rfl, rfl⟩
    · exact ⟨rfl, hfin _, hl, rfl, rfl, rfl, rfl⟩

theorem iteration_rotate [FloorRing K] (hR : OrthonormalColumns R) (g : Config K) (hx : NoRelativeXTol g)
    (hu : RotationRespected R g.noisy RV RS comp comp')
    (it : Nat) {r r' : Run K n VM SM} (hr : RotatedCourse R RV RS r r')
    (hp : r.state.trustregion.Free) :
    SameOutcome (RotatedCourse R RV RS)
      (iterationR g comp it r) (iterationR g comp' it r') := by
  simp only [iterationR, hr.log, hr.nEvals]
  refine SameOutcome.bind (buildPhase_rotate hu g hr.state hp it _ _) fun p p' _ hpp => ?_
  obtain ⟨hp1, hb⟩ := hpp
  rw [hr.state.trustregion, hb.log]
  have hnoise : noiseR g comp' (p.2.log.rotate R) (r.state.trustregion.rotate R) =
      noiseR g comp p.2.log r.state.trustregion := by
    simp only [noiseR]
    by_cases hg : g.noisy = true
    · simp only [hg, if_true, hu.noiseSigma hg _ _ hp]
    · simp only [hg, Bool.false_eq_true, if_false]
  refine SameOutcome.bind (SameOutcome.refl_eq hnoise) fun sg sg' _ hsg => ?_
  subst hsg
  rw [hr.state.current_eq]
  refine SameOutcome.bind (runDecider_rotate hu g it _ hb.sub _ hp _) fun q q' _ ha => ?_
  have hst : RotatedState R RV RS (stateR r.state r.nEvals p.1 p.2 q.2)
      (stateR r'.state r.nEvals p'.1 p'.2 q'.2) := by
    have h := hr.state
    constructor <;> simp only [stateR, h.trustregion, h.vectorModel, hb.modelIndices, hb.model, hp1,
      ha.x, ha.fval, ha.index, ha.rho, ha.accepted, ha.stepLength, ha.relativeStepLength,
      ha.candidateIndex, ha.candidateX, ha.nEvalsAcceptance, Option.map_some]
  have hnext : nextNEvalsR g comp' it r.nEvals p'.2 (stateR r'.state r.nEvals p'.1 p'.2 q'.2)
      q'.2.rho = nextNEvalsR g comp it r.nEvals p.2 (stateR r.state r.nEvals p.1 p.2 q.2) q.2.rho := by
    simp only [nextNEvalsR, ha.rho]
    by_cases hg : g.noisy = true
    · simp only [hg, if_true]
      rw [hb.log, hb.modelXs, hst.trustregion,
        hu.rhoNoise hg _ _ _ _ _ _ _ _
        (show (stateR r.state r.nEvals p.1 p.2 q.2).trustregion.Free from hp) hb.vectorModel hst.vectorModel]
    · simp only [hg]
      rfl
  rw [hnext]
  refine SameOutcome.bind (SameOutcome.refl_eq rfl) fun nx nx' _ hnx => ?_
  subst hnx
  exact endIteration_rotate hR g hx hu hr.state hst (List.rel_append hr.states (.cons hst .nil)) ha nx'

theorem iteration_free [FloorRing K] (g : Config K) (comp : ComponentsR K n VM SM) (it : Nat)
    {r r' : Run K n VM SM} (hp : r.state.trustregion.Free) (h : iterationR g comp it r = .ok r') :
    r'.state.trustregion.Free := by
  unfold Region.Free
  rw [iterationR_bounds g comp it r r' h]
  exact hp

theorem runLoop_rotate [FloorRing K] (hR : OrthonormalColumns R) (g : Config K) (hx : NoRelativeXTol g)
    (hu : RotationRespected R g.noisy RV RS comp comp') (k : Nat) :
    ∀ (it : Nat) {r r' : Run K n VM SM}, r.state.trustregion.Free → RotatedCourse R RV RS r r' →
      SameOutcome (RotatedCourse R RV RS) (runLoopR g comp k it r)
        (runLoopR g comp' k it r') := by
  induction k with
  | zero => exact fun _ _ _ _ hr => hr
  | succ k ih =>
    intro it r r' hi hr
    simp only [runLoopR]
    refine SameOutcome.bind (iteration_rotate hR g hx hu it hr hi) fun r1 r1' hr1 h1 => ?_
    rw [h1.stop]
    split_ifs
    · exact h1
    · exact ih _ (iteration_free g comp it hi hr1) h1

theorem start_rotate [FloorRing K] (g : Config K) (hu : RotationRespected R noisy RV RS comp comp')
    (x : Vec K n) (radius : K) (bounds : Bounds K n)
    (hp : (⟨x, radius, bounds⟩ : Region K n).Free) :
    SameOutcome (RotatedCourse R RV RS)
      (startRunR g comp x radius bounds)
      (startRunR g comp' (rotate R x) radius (bounds)) := by
  have hlog : startLogR g comp'.oracle (rotate R x) =
      (startLogR g comp.oracle x).rotate R := by
    simp only [startLogR]
    rw [← Log.rotate_evaluate hu.oracle]
    rfl
  have hreg : (⟨rotate R x, radius, bounds⟩ : Region K n) =
      (⟨x, radius, bounds⟩ : Region K n).rotate R := rfl
  simp only [startRunR, hlog, hreg]
  have hinit := hu.initModel (startLogR g comp.oracle x) ⟨x, radius, bounds⟩ hp
  refine SameOutcome.bind (hu.aggregate _ _ hinit) fun sm sm' _ hsm => ?_
  have hst : ∀ {t t' : LoopState K n VM SM}, RotatedState R RV RS t t' →
      List.Forall₂ (RotatedState R RV RS) [t] [t'] := fun h => .cons h .nil
  refine ⟨rfl, ?_, hst ?_, rfl, rfl, rfl, rfl⟩
  all_goals
    exact ⟨rfl, rfl, hsm, hinit, rfl, rfl, rfl, rfl, rfl, rfl, rfl, rfl, rfl, rfl, rfl, rfl,
      rfl, rfl⟩

end Tranquilo
