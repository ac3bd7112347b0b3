import Verif.Lemmas.RunsLonger
import Verif.Spec.OnlyEvaluated

/-!
# Runs whose components agree on the evaluations that were made
-/

namespace Tranquilo

variable {K : Type} [Field K] [LinearOrder K] {n : Nat} {VM SM : Type}

/-- The components agree on all that happens until the history is `L`: the criterion at the evaluations of `L`, the
other components for all histories that `L` extends. -/
structure AgreeOn (L : Log K n) (comp comp' : ComponentsR K n VM SM) : Prop where
  nrm : comp'.nrm = comp.nrm
  cubeRadius : comp'.cubeRadius = comp.cubeRadius
  aggregate : comp'.aggregate = comp.aggregate
  solve : comp'.solve = comp.solve
  gradNorm : comp'.gradNorm = comp.gradNorm
  oracle : ∀ k x, L.EvaluatedAt k x → comp'.oracle k x = comp.oracle k x
  filter : ∀ s log, log.Ext L → comp'.filter s log = comp.filter s log
  sample : ∀ it round log, log.Ext L → comp'.sample it round log = comp.sample it round log
  fit : ∀ log, log.Ext L → comp'.fit log = comp.fit log
  initModel : ∀ log, log.Ext L → comp'.initModel log = comp.initModel log
  noiseSigma : ∀ log, log.Ext L → comp'.noiseSigma log = comp.noiseSigma log
  rhoNoise : ∀ it log, log.Ext L → comp'.rhoNoise it log = comp.rhoNoise it log

omit [Field K] [LinearOrder K] in
theorem prefix_getElem? {α : Type} {a b : List α} (h : a <+: b) {k : Nat} {v : α} (hk : a[k]? = some v) :
    b[k]? = some v := by
  obtain ⟨t, rfl⟩ := h
  rw [List.getElem?_append_left (List.getElem?_eq_some_iff.1 hk).1]
  exact hk

omit [Field K] [LinearOrder K] in
theorem evalOne_agree {L log : Log K n} {o o' : Oracle K n} (ho : ∀ k x, L.EvaluatedAt k x → o' k x = o k x)
    {i : Nat} (h : (log.evalOne o i).Ext L) : log.evalOne o' i = log.evalOne o i := by
  unfold Log.evalOne at h ⊢
  cases hx : log.xs[i]? with
  | none => rfl
  | some x =>
    rw [hx] at h
    dsimp only at h ⊢
    rw [ho log.evals.length x ⟨i, o log.evals.length x, prefix_getElem? h.2 (by simp), prefix_getElem? h.1 hx⟩]

omit [Field K] [LinearOrder K] in
theorem evaluate_agree {L log : Log K n} {o o' : Oracle K n} (ho : ∀ k x, L.EvaluatedAt k x → o' k x = o k x)
    {req : List (Nat × Nat)} (h : (log.evaluate o req).Ext L) : log.evaluate o' req = log.evaluate o req := by
  unfold Log.evaluate at h ⊢
  generalize hl : req.flatMap (fun p => List.replicate p.2 p.1) = l at h ⊢
  clear hl
  induction l generalizing log with
  | nil => rfl
  | cons i l ih =>
    rw [List.foldl_cons] at h ⊢
    have h1 : (log.evalOne o i).Ext L := by
      refine Log.Ext.trans ?_ h
      have := Log.ext_evaluate o (log.evalOne o i) (l.map fun j => (j, 1))
      unfold Log.evaluate at this
      rw [List.flatMap_map] at this
      simpa using this
    rw [List.foldl_cons, evalOne_agree ho h1]
    exact ih h

variable {c : Config K} {comp comp' : ComponentsR K n VM SM} {state : LoopState K n VM SM} {L : Log K n}

theorem buildModelR_agree (ha : AgreeOn L comp comp') {log : Log K n} {xs : List (Vec K n)} {is : List Nat}
    (hl : log.Ext L) : buildModelR comp' state log xs is = buildModelR comp state log xs is := by
  unfold buildModelR relStepLengthR
  rw [ha.fit _ hl, ha.aggregate, ha.solve, ha.nrm]

theorem dropLoopR_agree (ha : AgreeOn L comp comp') {fuel : Nat} {b : Build K n VM SM} (hl : b.log.Ext L) :
    dropLoopR c comp' state fuel b = dropLoopR c comp state fuel b := by
  induction fuel generalizing b with
  | zero => rfl
  | succ fuel ih =>
    unfold dropLoopR
    rw [ha.nrm]
    split
    · cases h1 : dropWorst comp.nrm state.x state.index state.trustregion.radius b.modelXs b.modelIndices 1 with
      | error e => rfl
      | ok r =>
        simp only [except_ok_bind]
        rw [buildModelR_agree ha hl]
        cases h2 : buildModelR comp state b.log r.1 r.2 with
        | error e => rfl
        | ok b2 =>
          simp only [except_ok_bind]
          exact ih (by rw [buildModelR_log h2]; exact hl)
    · rfl

theorem stagnationRoundR_agree (ha : AgreeOn L comp comp') {nEvals : Int} {it round : Nat} {b b' : Build K n VM SM}
    (h : stagnationRoundR c comp state nEvals it round b = .ok b') (hl : b'.log.Ext L) :
    stagnationRoundR c comp' state nEvals it round b = .ok b' := by
  have hb := (stagnationRoundR_log h).trans hl
  unfold stagnationRoundR stagnationKeepR at h ⊢
  rw [ha.nrm]
  obtain ⟨r, h1, h⟩ := bindOk h
  obtain ⟨xs, h2, h⟩ := bindOk h
  rw [h1, except_ok_bind, ha.sample _ _ _ hb, h2, except_ok_bind]
  have h3 := buildModelR_log h
  rw [h3] at hl
  rw [← h]
  rw [evaluate_agree ha.oracle hl]
  exact buildModelR_agree ha hl

theorem stagnationLoopR_agree (ha : AgreeOn L comp comp') {nEvals : Int} {it : Nat} {fuel k : Nat}
    {b b' : Build K n VM SM} (h : stagnationLoopR c comp state nEvals it fuel k b = .ok b') (hl : b'.log.Ext L) :
    stagnationLoopR c comp' state nEvals it fuel k b = .ok b' := by
  induction fuel generalizing b k with
  | zero => exact h
  | succ fuel ih =>
    unfold stagnationLoopR at h ⊢
    split at h
    · rename_i hc
      rw [if_pos hc]
      obtain ⟨b2, h2, h⟩ := bindOk h
      by_cases hm : c.stagnation.maxTrials ≤ k + 1
      · rw [if_pos hm] at h
        cases h
        rw [stagnationRoundR_agree ha h2 hl, except_ok_bind, if_pos hm]
        rfl
      · rw [if_neg hm] at h
        rw [stagnationRoundR_agree ha h2 ((stagnationLoopR_log h).trans hl), except_ok_bind, if_neg hm]
        exact ih h
    · rename_i hc
      rw [if_neg hc]
      exact h

theorem finishLineSearchR_log {nrm : Vec K n → K} {m : K} {sub : SubSolution K n} {cur : Current K n} {log : Log K n}
    {i : Nat} {is : List Nat} {d : Log K n × AcceptanceResult K n}
    (h : finishLineSearchR nrm m sub cur log i is = .ok d) : d.1 = log := by
  unfold finishLineSearchR at h
  obtain ⟨q, -, h⟩ := bindOk h
  rw [← Except.ok.inj h]

theorem acceptSimple_agree {o o' : Oracle K n} (ho : ∀ k x, L.EvaluatedAt k x → o' k x = o k x)
    {nrm : Vec K n → K} {m : K} {k : Nat} {sub : SubSolution K n} {cur : Current K n} {log : Log K n}
    (hl : (acceptSimple nrm o m k sub cur log).1.Ext L) :
    acceptSimple nrm o' m k sub cur log = acceptSimple nrm o m k sub cur log := by
  have h1 : ((log.addX sub.x).1.evaluate o [((log.addX sub.x).2, k)]).Ext L := hl
  unfold acceptSimple
  dsimp only
  rw [evaluate_agree ho h1]

variable [FloorRing K]

theorem acceptNoisy_agree {o o' : Oracle K n} (ho : ∀ k x, L.EvaluatedAt k x → o' k x = o k x)
    {nrm : Vec K n → K} {m s zc zp : K} {a b : Nat} {sub : SubSolution K n} {cur : Current K n} {log : Log K n}
    (hl : (acceptNoisy nrm o m s zc zp a b sub cur log).1.Ext L) :
    acceptNoisy nrm o' m s zc zp a b sub cur log = acceptNoisy nrm o m s zc zp a b sub cur log := by
  unfold acceptNoisy at hl ⊢
  dsimp only at hl ⊢
  rw [evaluate_agree ho hl]

theorem runDeciderR_agree (ha : AgreeOn L comp comp') {it : Nat} {sigma : Option (Option K)} {sub : SubSolution K n}
    {cur : Current K n} {log : Log K n} {d : Log K n × AcceptanceResult K n}
    (h : runDeciderR c comp it sigma sub cur log = .ok d) (hl : d.1.Ext L) :
    runDeciderR c comp' it sigma sub cur log = .ok d := by
  unfold runDeciderR at h ⊢
  rw [ha.nrm, ha.cubeRadius]
  cases hd : c.decider with
  | classic m =>
    rw [hd] at h; dsimp only at h ⊢
    cases h
    unfold acceptClassic
    rw [acceptSimple_agree ha.oracle hl]
  | naiveNoisy m =>
    rw [hd] at h; dsimp only at h ⊢
    cases h
    unfold acceptNaiveNoisy
    rw [acceptSimple_agree ha.oracle hl]
  | noisy m zc zp a b =>
    rw [hd] at h; dsimp only at h ⊢
    cases sigma with
    | none => cases h
    | some s =>
      cases s with
      | none => cases h
      | some s =>
        dsimp only at h ⊢
        cases h
        rw [acceptNoisy_agree ha.oracle hl]
  | lineSearch m rf =>
    rw [hd] at h; dsimp only at h ⊢
    unfold acceptLineSearchR at h ⊢
    by_cases hb : c.batchSize = 1
    · rw [if_pos hb] at h ⊢
      cases h
      unfold acceptClassic
      rw [acceptSimple_agree ha.oracle hl]
    · rw [if_neg hb] at h ⊢
      obtain ⟨newXs, h1, h⟩ := bindOk h
      have h2 := finishLineSearchR_log h
      rw [h2] at hl
      have h3 : (log.addX sub.x).1.Ext L := ((Log.ext_addXs _ newXs).trans (Log.ext_evaluate _ _ _)).trans hl
      have h4 : lineSearchXsR comp.nrm comp.cubeRadius (comp'.sample it 0) rf c.batchSize sub.x cur (log.addX sub.x).1 =
          .ok newXs := by
        rw [← h1]
        unfold lineSearchXsR speculativeSampleR
        rw [ha.sample _ _ _ h3]
      rw [h4, except_ok_bind]
      dsimp only
      rw [evaluate_agree ha.oracle hl]
      exact h

theorem buildPhaseR_agree (ha : AgreeOn L comp comp') {it : Nat} {log : Log K n} {nEvals : Int}
    {p : List Nat × Build K n VM SM} (h : buildPhaseR c comp it state log nEvals = .ok p) (hl : p.2.log.Ext L) :
    buildPhaseR c comp' it state log nEvals = .ok p := by
  have hlog := (buildPhaseR_log h).trans hl
  unfold buildPhaseR at h ⊢
  rw [ha.nrm, ha.filter _ _ hlog, ha.sample _ _ _ hlog]
  obtain ⟨kept, h0, h⟩ := bindOk h
  obtain ⟨newXs, h1, h⟩ := bindOk h
  obtain ⟨b, h2, h⟩ := bindOk h
  obtain ⟨b2, h3, h⟩ := bindOk h
  obtain ⟨b3, h4, h⟩ := bindOk h
  cases h
  have hb2 : b2.log.Ext L := (stagnationLoopR_log h4).trans hl
  have hb : b.log.Ext L := by rw [dropLoopR_log h3] at hb2; exact hb2
  have hb' := hb
  rw [buildModelR_log h2] at hb'
  dsimp only
  rw [h0, except_ok_bind, h1, except_ok_bind]
  rw [evaluate_agree ha.oracle hb', buildModelR_agree ha hb', h2, except_ok_bind, dropLoopR_agree ha hb, h3,
    except_ok_bind, stagnationLoopR_agree ha h4 hl]
  rfl

theorem iterationR_agree (ha : AgreeOn L comp comp') {it : Nat} {r r' : Run K n VM SM}
    (h : iterationR c comp it r = .ok r') (hl : r'.log.Ext L) : iterationR c comp' it r = .ok r' := by
  unfold iterationR at h ⊢
  obtain ⟨p, h1, h⟩ := bindOk h
  obtain ⟨sigma, h2, h⟩ := bindOk h
  obtain ⟨d, h3, h⟩ := bindOk h
  obtain ⟨next, h4, h⟩ := bindOk h
  cases h
  rw [endIterationR_log] at hl
  have hp : p.2.log.Ext L := (runDeciderR_log h3).trans hl
  rw [buildPhaseR_agree ha h1 hp, except_ok_bind]
  have e1 : noiseR c comp' p.2.log r.state.trustregion = noiseR c comp p.2.log r.state.trustregion := by
    unfold noiseR; rw [ha.noiseSigma _ hp]
  have e2 : ∀ state rho, nextNEvalsR c comp' it r.nEvals p.2 state rho = nextNEvalsR c comp it r.nEvals p.2 state rho := by
    intro state rho; unfold nextNEvalsR; rw [ha.rhoNoise _ _ hp]
  have e3 : ∀ old st states log res next, endIterationR c comp' old st states log res next =
      endIterationR c comp old st states log res next := by
    intro old st states log res next; unfold endIterationR; rw [ha.nrm, ha.gradNorm]
  rw [e1, h2, except_ok_bind, runDeciderR_agree ha h3 hl, except_ok_bind]
  dsimp only
  rw [e2, h4, except_ok_bind, e3]
  rfl

theorem runLoopR_agree (ha : AgreeOn L comp comp') {k it : Nat} {r r' : Run K n VM SM}
    (h : runLoopR c comp k it r = .ok r') (hl : r'.log.Ext L) : runLoopR c comp' k it r = .ok r' := by
  induction k generalizing it r with
  | zero => exact h
  | succ k ih =>
    unfold runLoopR at h ⊢
    obtain ⟨r2, h1, h⟩ := bindOk h
    cases hs : r2.stop with
    | true =>
      rw [hs, if_pos rfl] at h
      cases h
      rw [iterationR_agree ha h1 hl, except_ok_bind, hs, if_pos rfl]
      rfl
    | false =>
      rw [hs, if_neg Bool.false_ne_true] at h
      have hb := runLoopR_begins h
      rw [iterationR_agree ha h1 (Log.Ext.trans ⟨hb.points, hb.evaluations⟩ hl), except_ok_bind, hs,
        if_neg Bool.false_ne_true]
      exact ih h

theorem tranquiloR_agree {x : Vec K n} {radius : K} {bounds : Bounds K n} {r : Run K n VM SM}
    (h : tranquiloR c comp x radius bounds = .ok r) (ha : AgreeOn r.log comp comp') :
    tranquiloR c comp' x radius bounds = .ok r := by
  unfold tranquiloR at h ⊢
  obtain ⟨r0, h1, h⟩ := bindOk h
  have hb := runLoopR_begins h
  have hs : startRunR c comp' x radius bounds = .ok r0 := by
    have hlog : r0.log = startLogR c comp.oracle x := by
      unfold startRunR at h1
      obtain ⟨sm, -, h1⟩ := bindOk h1
      rw [← Except.ok.inj h1]
    have hext : (startLogR c comp.oracle x).Ext r.log := by rw [← hlog]; exact ⟨hb.points, hb.evaluations⟩
    have heq : startLogR c comp'.oracle x = startLogR c comp.oracle x := evaluate_agree ha.oracle hext
    rw [← h1]
    unfold startRunR
    dsimp only
    rw [heq, ha.initModel _ hext, ha.aggregate]
  rw [hs, except_ok_bind]
  exact runLoopR_agree ha h (.refl _)

end Tranquilo
