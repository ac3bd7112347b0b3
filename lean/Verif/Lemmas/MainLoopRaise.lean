import Verif.Model.MainLoopRaise

/-!
# Runs that do not raise are runs of the model without exceptions
-/

namespace Tranquilo

variable {K : Type} [Field K] [LinearOrder K] {n : Nat} {VM SM : Type}

theorem bindOk {α β : Type} {x : Except Err α} {g : α → Except Err β} {b : β}
    (h : (x >>= g) = .ok b) : ∃ a, x = .ok a ∧ g a = .ok b := by
  cases x with
  | ok a => exact ⟨a, rfl, h⟩
  | error e => cases h

/-- `cp` gives the values of `ce` wherever `ce` does not raise. -/
structure Realizes (ce : ComponentsR K n VM SM) (cp : Components K n VM SM) : Prop where
  nrm : cp.nrm = ce.nrm
  cubeRadius : cp.cubeRadius = ce.cubeRadius
  oracle : cp.oracle = ce.oracle
  initModel : cp.initModel = ce.initModel
  gradNorm : cp.gradNorm = ce.gradNorm
  filter : ∀ s log t k xs is r, ce.filter s log t k xs is = .ok r → cp.filter s log t k xs is = r
  sample : ∀ it round log region k xs r, ce.sample it round log region k xs = .ok r →
    cp.sample it round log region k xs = r
  fit : ∀ log is region vm r, ce.fit log is region vm = .ok r → cp.fit log is region vm = r
  aggregate : ∀ vm r, ce.aggregate vm = .ok r → cp.aggregate vm = r
  solve : ∀ sm region r, ce.solve sm region = .ok r → cp.solve sm region = r
  noiseSigma : ∀ log region r, ce.noiseSigma log region = .ok (some r) →
    cp.noiseSigma log region = r
  rhoNoise : ∀ it log xs vm old region r, ce.rhoNoise it log xs vm old region = .ok r →
    cp.rhoNoise it log xs vm old region = r

/-- Value or default. -/
def okOr {α : Type} (d : α) : Except Err α → α
  | .ok a => a
  | .error _ => d

/-- The components without exceptions: `d` jumps in where `ce` raises. -/
def ComponentsR.total (ce : ComponentsR K n VM SM) (d : Components K n VM SM) :
    Components K n VM SM where
  nrm := ce.nrm
  cubeRadius := ce.cubeRadius
  oracle := ce.oracle
  initModel := ce.initModel
  gradNorm := ce.gradNorm
  filter s log t k xs is := okOr (d.filter s log t k xs is) (ce.filter s log t k xs is)
  sample it round log region k xs :=
    okOr (d.sample it round log region k xs) (ce.sample it round log region k xs)
  fit log is region vm := okOr (d.fit log is region vm) (ce.fit log is region vm)
  aggregate vm := okOr (d.aggregate vm) (ce.aggregate vm)
  solve sm region := okOr (d.solve sm region) (ce.solve sm region)
  noiseSigma log region := (okOr none (ce.noiseSigma log region)).getD (d.noiseSigma log region)
  rhoNoise it log xs vm old region :=
    okOr (d.rhoNoise it log xs vm old region) (ce.rhoNoise it log xs vm old region)

omit [Field K] [LinearOrder K] in
theorem ComponentsR.total_realizes [Field K] [LinearOrder K] (ce : ComponentsR K n VM SM)
    (d : Components K n VM SM) : Realizes ce (ce.total d) where
  nrm := rfl
  cubeRadius := rfl
  oracle := rfl
  initModel := rfl
  gradNorm := rfl
  filter _ _ _ _ _ _ _ h := by simp only [ComponentsR.total, h, okOr]
  sample _ _ _ _ _ _ _ h := by simp only [ComponentsR.total, h, okOr]
  fit _ _ _ _ _ h := by simp only [ComponentsR.total, h, okOr]
  aggregate _ _ h := by simp only [ComponentsR.total, h, okOr]
  solve _ _ _ h := by simp only [ComponentsR.total, h, okOr]
  noiseSigma _ _ _ h := by simp only [ComponentsR.total, h, okOr, Option.getD_some]
  rhoNoise _ _ _ _ _ _ _ h := by simp only [ComponentsR.total, h, okOr]

variable {c : Config K} {ce : ComponentsR K n VM SM} {cp : Components K n VM SM}
  {state : LoopState K n VM SM}

theorem buildModelR_ok (h : Realizes ce cp) {log : Log K n} {xs : List (Vec K n)} {is : List Nat}
    {b : Build K n VM SM} (hb : buildModelR ce state log xs is = .ok b) :
    buildModel cp state log xs is = b := by
  unfold buildModelR at hb
  obtain ⟨vm, h1, hb⟩ := bindOk hb
  obtain ⟨sm, h2, hb⟩ := bindOk hb
  obtain ⟨sub, h3, hb⟩ := bindOk hb
  cases hb
  unfold buildModel
  dsimp only
  rw [h.fit _ _ _ _ _ h1, h.aggregate _ _ h2, h.solve _ _ _ h3]
  simp only [relStepLength, relStepLengthR, h.nrm]

theorem dropWorstInLoop_ok (h : Realizes ce cp) {xs : List (Vec K n)} {is : List Nat} {k : Nat}
    {r : List (Vec K n) × List Nat}
    (hr : dropWorst ce.nrm state.x state.index state.trustregion.radius xs is k = .ok r) :
    dropWorstInLoop cp state xs is k = r := by
  unfold dropWorstInLoop
  rw [h.nrm, hr]

theorem dropLoopR_ok (h : Realizes ce cp) {fuel : Nat} {b b' : Build K n VM SM}
    (hb : dropLoopR c ce state fuel b = .ok b') : dropLoop c cp state fuel b = b' := by
  induction fuel generalizing b with
  | zero => cases hb; rfl
  | succ fuel ih =>
    unfold dropLoopR at hb
    unfold dropLoop
    split at hb
    · rename_i hc
      rw [if_pos hc]
      obtain ⟨r, h1, hb⟩ := bindOk hb
      obtain ⟨b2, h2, hb⟩ := bindOk hb
      simp only [dropWorstInLoop_ok h h1, buildModelR_ok h h2]
      exact ih hb
    · rename_i hc
      rw [if_neg hc]
      cases hb; rfl

theorem stagnationRoundR_ok (h : Realizes ce cp) {nEvals : Int} {it round : Nat}
    {b b' : Build K n VM SM} (hb : stagnationRoundR c ce state nEvals it round b = .ok b') :
    stagnationRound c cp state nEvals it round b = b' := by
  unfold stagnationRoundR at hb
  obtain ⟨r, h1, hb⟩ := bindOk hb
  obtain ⟨newXs, h2, hb⟩ := bindOk hb
  have hr : (if c.stagnation.drop = true ∧ c.stagnation.sampleIncrement < b.modelXs.length then
      dropWorstInLoop cp state b.modelXs b.modelIndices c.stagnation.sampleIncrement
    else (b.modelXs, b.modelIndices)) = r := by
    unfold stagnationKeepR at h1
    split at h1
    · rename_i hc
      rw [if_pos hc]
      exact dropWorstInLoop_ok h h1
    · rename_i hc
      rw [if_neg hc]
      cases h1; rfl
  unfold stagnationRound
  dsimp only
  rw [hr, h.sample _ _ _ _ _ _ _ h2, h.oracle]
  exact buildModelR_ok h hb

theorem stagnationLoopR_ok (h : Realizes ce cp) {nEvals : Int} {it : Nat} {fuel k : Nat}
    {b b' : Build K n VM SM} (hb : stagnationLoopR c ce state nEvals it fuel k b = .ok b') :
    stagnationLoop c cp state nEvals it fuel k b = b' := by
  induction fuel generalizing k b with
  | zero => cases hb; rfl
  | succ fuel ih =>
    unfold stagnationLoopR at hb
    unfold stagnationLoop
    split at hb
    · rename_i hc
      rw [if_pos hc]
      obtain ⟨b2, h1, hb⟩ := bindOk hb
      simp only [stagnationRoundR_ok h h1]
      split at hb
      · rename_i hm
        rw [if_pos hm]
        cases hb; rfl
      · rename_i hm
        rw [if_neg hm]
        exact ih hb
    · rename_i hc
      rw [if_neg hc]
      cases hb; rfl

theorem lineSearchXsR_ok {nrm : Vec K n → K} {cr : K → K} {sr : SamplerR K n} {sp : Sampler K n}
    (hs : ∀ log region k xs r, sr log region k xs = .ok r → sp log region k xs = r) {rf : K} {bs : Nat}
    {x : Vec K n} {old : Current K n} {log : Log K n} {r : List (Vec K n)}
    (h : lineSearchXsR nrm cr sr rf bs x old log = .ok r) :
    lineSearchXs nrm cr sp rf bs x old log = r := by
  unfold lineSearchXsR at h
  unfold lineSearchXs
  dsimp only at h ⊢
  generalize hl : (if isOnBorder nrm cr old.trustregion x (1 / 10) = true then
    sampleOnLine old.x x (alphaGrid bs) else []) = lineXs at h ⊢
  split at h
  · rename_i hc
    rw [if_pos hc]
    obtain ⟨sx, h1, h⟩ := bindOk h
    cases h
    unfold speculativeSampleR at h1
    unfold speculativeSample
    dsimp only at h1 ⊢
    rw [hs _ _ _ _ _ h1]
  · rename_i hc
    rw [if_neg hc]
    cases h; rfl

theorem acceptLineSearchR_ok {nrm : Vec K n → K} {cr : K → K} {oracle : Oracle K n} {sr : SamplerR K n}
    {sp : Sampler K n} (hs : ∀ log region k xs r, sr log region k xs = .ok r → sp log region k xs = r)
    {rf m : K} {bs : Nat} {sub : SubSolution K n} {old : Current K n} {log : Log K n}
    {r : Log K n × AcceptanceResult K n}
    (h : acceptLineSearchR nrm cr oracle sr rf m bs sub old log = .ok r) :
    acceptLineSearch nrm cr oracle sp rf m bs sub old log = r := by
  unfold acceptLineSearchR at h
  unfold acceptLineSearch
  split at h
  · rename_i hc
    rw [if_pos hc]
    cases h; rfl
  · rename_i hc
    rw [if_neg hc]
    obtain ⟨newXs, h1, h⟩ := bindOk h
    unfold finishLineSearchR at h
    obtain ⟨q, h2, h⟩ := bindOk h
    cases h
    dsimp only
    rw [lineSearchXsR_ok hs h1]
    unfold idxMinR at h2
    split at h2
    · rename_i q' hq
      cases h2
      rw [hq]
    · split at h2 <;> cases h2

theorem runDeciderR_ok [FloorRing K] (h : Realizes ce cp) {it : Nat} {sigma : Option (Option K)}
    {region : Region K n} {log0 log : Log K n} (hsig : noiseR c ce log0 region = .ok sigma)
    {sub : SubSolution K n} {cur : Current K n} {r : Log K n × AcceptanceResult K n}
    (hr : runDeciderR c ce it sigma sub cur log = .ok r) :
    runDecider c cp it log0 region sub cur log = r := by
  unfold runDeciderR at hr
  unfold runDecider
  rw [h.nrm, h.oracle, h.cubeRadius]
  split at hr
  · rename_i hd; rw [hd]; cases hr; rfl
  · rename_i hd; rw [hd]; cases hr; rfl
  · rename_i hd
    rw [hd]
    dsimp only
    match sigma with
    | none => cases hr
    | some none => cases hr
    | some (some s) =>
      cases hr
      unfold noiseR at hsig
      split at hsig
      · cases hn : ce.noiseSigma log0 region with
        | error e => rw [hn] at hsig; cases hsig
        | ok s' =>
          rw [hn] at hsig
          cases hsig
          rw [h.noiseSigma _ _ _ hn]
      · cases hsig
  · rename_i hd
    rw [hd]
    exact acceptLineSearchR_ok (h.sample it 0) hr

theorem buildPhaseR_ok [FloorRing K] (h : Realizes ce cp) {it : Nat} {log : Log K n} {nEvals : Int}
    {r : List Nat × Build K n VM SM} (hr : buildPhaseR c ce it state log nEvals = .ok r) :
    buildPhase c cp it state log nEvals = r := by
  unfold buildPhaseR at hr
  obtain ⟨kept, h1, hr⟩ := bindOk hr
  obtain ⟨newXs, h2, hr⟩ := bindOk hr
  obtain ⟨b1, h3, hr⟩ := bindOk hr
  obtain ⟨b2, h4, hr⟩ := bindOk hr
  obtain ⟨b3, h5, hr⟩ := bindOk hr
  cases hr
  have h1' := h.filter _ _ _ _ _ _ _ h1
  have h2' := h.sample _ _ _ _ _ _ _ h2
  have h3' := buildModelR_ok h h3
  have h4' := dropLoopR_ok h h4
  have h5' := stagnationLoopR_ok h h5
  unfold buildPhase
  rw [h.nrm, h.oracle]
  simp only [h1', h2', h3', h4', h5']

theorem iterationR_ok [FloorRing K] (h : Realizes ce cp) {it : Nat} {r r' : Run K n VM SM}
    (hr : iterationR c ce it r = .ok r') : iteration c cp it r = r' := by
  unfold iterationR at hr
  obtain ⟨p, h1, hr⟩ := bindOk hr
  obtain ⟨sigma, h2, hr⟩ := bindOk hr
  obtain ⟨d, h3, hr⟩ := bindOk hr
  obtain ⟨next, h4, hr⟩ := bindOk hr
  cases hr
  unfold iteration
  rw [buildPhaseR_ok h h1]
  obtain ⟨old, b⟩ := p
  dsimp only at h2 h3 h4 ⊢
  rw [runDeciderR_ok h h2 h3]
  obtain ⟨log, res⟩ := d
  dsimp only at h4 ⊢
  rw [h.nrm, h.gradNorm]
  have hn : (if c.noisy = true then
      adjustNEvals r.nEvals res.rho (cp.rhoNoise it b.log b.modelXs b.vectorModel r.state.vectorModel
        r.state.trustregion) c.noise
    else (r.nEvals, false)) = next := by
    unfold nextNEvalsR at h4
    split at h4
    · rename_i hc
      rw [if_pos hc]
      obtain ⟨rhos, h5, h4⟩ := bindOk h4
      cases h4
      simp only [stateR] at h5
      rw [h.rhoNoise _ _ _ _ _ _ _ h5]
    · rename_i hc
      rw [if_neg hc]
      cases h4; rfl
  rw [hn]
  rfl

theorem runLoopR_ok [FloorRing K] (h : Realizes ce cp) {k it : Nat} {r r' : Run K n VM SM}
    (hr : runLoopR c ce k it r = .ok r') : runLoop c cp k it r = r' := by
  induction k generalizing it r with
  | zero => cases hr; rfl
  | succ k ih =>
    unfold runLoopR at hr
    unfold runLoop
    obtain ⟨r2, h1, hr⟩ := bindOk hr
    simp only [iterationR_ok h h1]
    split at hr
    · rename_i hs
      rw [if_pos hs]
      cases hr; rfl
    · rename_i hs
      rw [if_neg hs]
      exact ih hr

theorem startRunR_ok [FloorRing K] (h : Realizes ce cp) {x : Vec K n} {radius : K} {bounds : Bounds K n}
    {r : Run K n VM SM} (hr : startRunR c ce x radius bounds = .ok r) :
    startRun c cp x radius bounds = r := by
  unfold startRunR at hr
  obtain ⟨sm, h1, hr⟩ := bindOk hr
  cases hr
  unfold startRun
  dsimp only
  rw [h.oracle, h.initModel]
  have := h.aggregate _ _ h1
  unfold startLogR at this
  rw [this]
  rfl

/-- A run that does not raise is the run of the components without exceptions. -/
theorem tranquiloR_ok [FloorRing K] (h : Realizes ce cp) {x : Vec K n} {radius : K}
    {bounds : Bounds K n} {r : Run K n VM SM} (hr : tranquiloR c ce x radius bounds = .ok r) :
    tranquilo c cp x radius bounds = r := by
  unfold tranquiloR at hr
  obtain ⟨r0, h1, hr⟩ := bindOk hr
  unfold tranquilo
  rw [startRunR_ok h h1]
  exact runLoopR_ok h hr

end Tranquilo
