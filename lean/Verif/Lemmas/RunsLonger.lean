import Verif.Lemmas.Log
import Verif.Lemmas.MainLoopRaise
import Verif.Spec.RunsLonger

/-!
# Runs that differ in the rules for stopping only
-/

namespace Tranquilo

variable {K : Type} [Field K] [LinearOrder K] {n : Nat} {VM SM : Type}

/-- An `Except` bind whose first step returned. -/
theorem except_ok_bind {α β : Type} (a : α) (f : α → Except Err β) :
    ((Except.ok a : Except Err α) >>= f) = f a := rfl

/-! ## The log only grows -/

/-- The log `b` extends `a`. -/
def Log.Ext (a b : Log K n) : Prop := a.xs <+: b.xs ∧ a.evals <+: b.evals

omit [Field K] [LinearOrder K] in
theorem Log.Ext.refl (a : Log K n) : a.Ext a := ⟨List.prefix_rfl, List.prefix_rfl⟩

omit [Field K] [LinearOrder K] in
theorem Log.Ext.trans {a b c : Log K n} (h1 : a.Ext b) (h2 : b.Ext c) : a.Ext c :=
  ⟨h1.1.trans h2.1, h1.2.trans h2.2⟩

omit [Field K] [LinearOrder K] in
theorem Log.ext_addXs (a : Log K n) (rows : List (Vec K n)) : a.Ext (a.addXs rows).1 :=
  ⟨List.prefix_append _ _, List.prefix_rfl⟩

omit [Field K] [LinearOrder K] in
theorem Log.ext_addX (a : Log K n) (x : Vec K n) : a.Ext (a.addX x).1 :=
  ⟨List.prefix_append _ _, List.prefix_rfl⟩

omit [Field K] [LinearOrder K] in
theorem Log.ext_evalOne (oracle : Oracle K n) (a : Log K n) (i : Nat) : a.Ext (a.evalOne oracle i) := by
  unfold Log.evalOne
  split
  · exact ⟨List.prefix_rfl, List.prefix_append _ _⟩
  · exact .refl a

omit [Field K] [LinearOrder K] in
theorem Log.ext_evaluate (oracle : Oracle K n) (a : Log K n) (req : List (Nat × Nat)) :
    a.Ext (a.evaluate oracle req) := by
  unfold Log.evaluate
  generalize req.flatMap (fun p => List.replicate p.2 p.1) = l
  induction l generalizing a with
  | nil => exact .refl a
  | cons i l ih => exact (a.ext_evalOne oracle i).trans (ih _)

variable {c c' : Config K} {comp : ComponentsR K n VM SM} {state : LoopState K n VM SM}

theorem buildModelR_log {log : Log K n} {xs : List (Vec K n)} {is : List Nat} {b : Build K n VM SM}
    (h : buildModelR comp state log xs is = .ok b) : b.log = log := by
  unfold buildModelR at h
  obtain ⟨vm, -, h⟩ := bindOk h
  obtain ⟨sm, -, h⟩ := bindOk h
  obtain ⟨sub, -, h⟩ := bindOk h
  cases h; rfl

theorem dropLoopR_log {fuel : Nat} {b b' : Build K n VM SM}
    (h : dropLoopR c comp state fuel b = .ok b') : b'.log = b.log := by
  induction fuel generalizing b with
  | zero => cases h; rfl
  | succ fuel ih =>
    unfold dropLoopR at h
    split at h
    · obtain ⟨r, -, h⟩ := bindOk h
      obtain ⟨b2, h2, h⟩ := bindOk h
      rw [ih h, buildModelR_log h2]
    · cases h; rfl

theorem stagnationRoundR_log {nEvals : Int} {it round : Nat} {b b' : Build K n VM SM}
    (h : stagnationRoundR c comp state nEvals it round b = .ok b') : b.log.Ext b'.log := by
  unfold stagnationRoundR at h
  obtain ⟨r, -, h⟩ := bindOk h
  obtain ⟨xs, -, h⟩ := bindOk h
  rw [buildModelR_log h]
  exact (b.log.ext_addXs xs).trans (Log.ext_evaluate _ _ _)

theorem stagnationLoopR_log {nEvals : Int} {it : Nat} {fuel k : Nat} {b b' : Build K n VM SM}
    (h : stagnationLoopR c comp state nEvals it fuel k b = .ok b') : b.log.Ext b'.log := by
  induction fuel generalizing b k with
  | zero => cases h; exact .refl _
  | succ fuel ih =>
    unfold stagnationLoopR at h
    split at h
    · obtain ⟨b2, h2, h⟩ := bindOk h
      split at h
      · cases h; exact stagnationRoundR_log h2
      · exact (stagnationRoundR_log h2).trans (ih h)
    · cases h; exact .refl _

variable [FloorRing K]

theorem buildPhaseR_log {it : Nat} {log : Log K n} {nEvals : Int} {p : List Nat × Build K n VM SM}
    (h : buildPhaseR c comp it state log nEvals = .ok p) : log.Ext p.2.log := by
  unfold buildPhaseR at h
  obtain ⟨kept, -, h⟩ := bindOk h
  obtain ⟨newXs, -, h⟩ := bindOk h
  obtain ⟨b, h1, h⟩ := bindOk h
  obtain ⟨b2, h2, h⟩ := bindOk h
  obtain ⟨b3, h3, h⟩ := bindOk h
  cases h
  have := stagnationLoopR_log h3
  rw [dropLoopR_log h2, buildModelR_log h1] at this
  exact ((log.ext_addXs newXs).trans (Log.ext_evaluate _ _ _)).trans this

omit [FloorRing K] in
theorem acceptSimple_ext (nrm : Vec K n → K) (oracle : Oracle K n) (m : K) (k : Nat)
    (sub : SubSolution K n) (cur : Current K n) (log : Log K n) :
    log.Ext (acceptSimple nrm oracle m k sub cur log).1 :=
  (log.ext_addX sub.x).trans (Log.ext_evaluate oracle (log.addX sub.x).1 [((log.addX sub.x).2, k)])

theorem acceptNoisy_ext (nrm : Vec K n → K) (oracle : Oracle K n) (m s zc zp : K) (a b : Nat)
    (sub : SubSolution K n) (cur : Current K n) (log : Log K n) :
    log.Ext (acceptNoisy nrm oracle m s zc zp a b sub cur log).1 := by
  unfold acceptNoisy
  dsimp only
  exact (log.ext_addX sub.x).trans (Log.ext_evaluate _ _ _)

theorem runDeciderR_log {it : Nat} {sigma : Option (Option K)} {sub : SubSolution K n} {cur : Current K n}
    {log : Log K n} {d : Log K n × AcceptanceResult K n}
    (h : runDeciderR c comp it sigma sub cur log = .ok d) : log.Ext d.1 := by
  unfold runDeciderR at h
  split at h
  · rw [← Except.ok.inj h]; exact acceptSimple_ext _ _ _ _ _ _ _
  · rw [← Except.ok.inj h]; exact acceptSimple_ext _ _ _ _ _ _ _
  · split at h
    · rw [← Except.ok.inj h]; exact acceptNoisy_ext _ _ _ _ _ _ _ _ _ _ _
    · cases h
    · cases h
  · unfold acceptLineSearchR at h
    split at h
    · rw [← Except.ok.inj h]; exact acceptSimple_ext _ _ _ _ _ _ _
    · obtain ⟨newXs, -, h⟩ := bindOk h
      unfold finishLineSearchR at h
      obtain ⟨q, -, h⟩ := bindOk h
      rw [← Except.ok.inj h]
      dsimp only
      exact ((log.ext_addX sub.x).trans (Log.ext_addXs _ newXs)).trans (Log.ext_evaluate _ _ _)

omit [FloorRing K] in
@[simp] theorem endIterationR_log (old st : LoopState K n VM SM) (states : List (LoopState K n VM SM))
    (log : Log K n) (res : AcceptanceResult K n) (next : Int × Bool) :
    (endIterationR c comp old st states log res next).log = log := by
  unfold endIterationR
  dsimp only
  split
  · rfl
  · split <;> rfl

omit [FloorRing K] in
@[simp] theorem endIterationR_states (old st : LoopState K n VM SM) (states : List (LoopState K n VM SM))
    (log : Log K n) (res : AcceptanceResult K n) (next : Int × Bool) :
    (endIterationR c comp old st states log res next).states = states := by
  unfold endIterationR
  dsimp only
  split
  · rfl
  · split <;> rfl

theorem iterationR_begins {it : Nat} {r r' : Run K n VM SM} (h : iterationR c comp it r = .ok r') :
    BeginsWith r r' := by
  unfold iterationR at h
  obtain ⟨p, h1, h⟩ := bindOk h
  obtain ⟨sigma, -, h⟩ := bindOk h
  obtain ⟨d, h2, h⟩ := bindOk h
  obtain ⟨next, -, h⟩ := bindOk h
  cases h
  have := (buildPhaseR_log h1).trans (runDeciderR_log h2)
  refine ⟨?_, ?_, ?_⟩
  · rw [endIterationR_log]; exact this.1
  · rw [endIterationR_log]; exact this.2
  · rw [endIterationR_states]; exact List.prefix_append _ _

omit [Field K] [LinearOrder K] [FloorRing K] in
theorem BeginsWith.trans {a b d : Run K n VM SM} (h1 : BeginsWith a b) (h2 : BeginsWith b d) :
    BeginsWith a d :=
  ⟨h1.points.trans h2.points, h1.evaluations.trans h2.evaluations, h1.states.trans h2.states⟩

theorem runLoopR_begins {k it : Nat} {r r' : Run K n VM SM} (h : runLoopR c comp k it r = .ok r') :
    BeginsWith r r' := by
  induction k generalizing it r with
  | zero => cases h; exact ⟨List.prefix_rfl, List.prefix_rfl, List.prefix_rfl⟩
  | succ k ih =>
    unfold runLoopR at h
    obtain ⟨r2, h1, h⟩ := bindOk h
    split at h
    · cases h; exact iterationR_begins h1
    · exact (iterationR_begins h1).trans (ih h)

/-! ## The settings for stopping do not matter within an iteration -/

omit [FloorRing K] in
theorem dropLoopR_settings (cv : ConvOptions K) (a b : Nat) (fuel : Nat) (s : Build K n VM SM) :
    dropLoopR { c with conv := cv, maxIter := a, maxEval := b } comp state fuel s =
      dropLoopR c comp state fuel s := by
  induction fuel generalizing s with
  | zero => rfl
  | succ fuel ih =>
    unfold dropLoopR
    dsimp only
    simp only [ih]

omit [FloorRing K] in
theorem stagnationLoopR_settings (cv : ConvOptions K) (a b : Nat) (nEvals : Int) (it fuel k : Nat)
    (s : Build K n VM SM) :
    stagnationLoopR { c with conv := cv, maxIter := a, maxEval := b } comp state nEvals it fuel k s =
      stagnationLoopR c comp state nEvals it fuel k s := by
  induction fuel generalizing s k with
  | zero => rfl
  | succ fuel ih =>
    unfold stagnationLoopR
    dsimp only
    simp only [ih]
    rfl

theorem buildPhaseR_settings (cv : ConvOptions K) (a b : Nat) (it : Nat) (log : Log K n) (nEvals : Int) :
    buildPhaseR { c with conv := cv, maxIter := a, maxEval := b } comp it state log nEvals =
      buildPhaseR c comp it state log nEvals := by
  unfold buildPhaseR
  dsimp only
  simp only [dropLoopR_settings, stagnationLoopR_settings]

/-- Same variables, up to those that say why the run ends. -/
structure SameProgress (r r' : Run K n VM SM) : Prop where
  log : r'.log = r.log
  state : r'.state = r.state
  states : r'.states = r.states
  nEvals : r'.nEvals = r.nEvals

omit [Field K] [LinearOrder K] [FloorRing K] in
theorem SameProgress.begins {r r' r2 : Run K n VM SM} (h : SameProgress r r') (h2 : BeginsWith r' r2) :
    BeginsWith r r2 :=
  ⟨h.log ▸ h2.points, h.log ▸ h2.evaluations, h.states ▸ h2.states⟩

omit [FloorRing K] in
/-- Tighter tolerances: if the tighter test says stop, so does the looser one. -/
theorem isConverged_mono {nrm : Vec K n → K} {gradNorm : SM → K} {o o' : ConvOptions K}
    {old new : LoopState K n VM SM}
    (h : o'.ftolAbs ≤ o.ftolAbs ∧ o'.ftolRel ≤ o.ftolRel ∧ o'.gtolAbs ≤ o.gtolAbs ∧
      o'.gtolRel ≤ o.gtolRel ∧ o'.xtolAbs ≤ o.xtolAbs ∧ o'.xtolRel ≤ o.xtolRel)
    (hs : isConverged nrm gradNorm o old new = none) : isConverged nrm gradNorm o' old new = none := by
  obtain ⟨h1, h2, h3, h4, h5, h6⟩ := h
  have hx : ∀ (v : XVal K) (a b : K), a ≤ b → v ≤ .fin a → v ≤ .fin b := by
    intro v a b hab hv
    cases v with
    | fin q => exact le_trans (show q ≤ a from hv) hab
    | pinf => exact hv
    | ninf => exact hv
    | nan => exact hv
  unfold isConverged at hs ⊢
  dsimp only at hs ⊢
  by_cases g1 : gradNorm new.model / max (gradNorm new.model) 1 ≤ o.gtolRel
  · rw [if_pos g1] at hs; cases hs
  rw [if_neg g1] at hs
  rw [if_neg fun h => g1 (h.trans h4)]
  by_cases g2 : gradNorm new.model ≤ o.gtolAbs
  · rw [if_pos g2] at hs; cases hs
  rw [if_neg g2] at hs
  rw [if_neg fun h => g2 (h.trans h3)]
  by_cases g3 : (old.fval - new.fval).abs.divX old.fval.abs.maxOne ≤ .fin o.ftolRel
  · rw [if_pos g3] at hs; cases hs
  rw [if_neg g3] at hs
  rw [if_neg fun h => g3 (hx _ _ _ h2 h)]
  by_cases g4 : (old.fval - new.fval).abs ≤ .fin o.ftolAbs
  · rw [if_pos g4] at hs; cases hs
  rw [if_neg g4] at hs
  rw [if_neg fun h => g4 (hx _ _ _ h1 h)]
  by_cases g5 : (nrm fun i => (old.x i - new.x i) / max |old.x i| 1) ≤ o.xtolRel
  · rw [if_pos g5] at hs; cases hs
  rw [if_neg g5] at hs
  rw [if_neg fun h => g5 (h.trans h6)]
  by_cases g6 : (nrm fun i => old.x i - new.x i) ≤ o.xtolAbs
  · rw [if_pos g6] at hs; cases hs
  rw [if_neg fun h => g6 (h.trans h5)]

omit [FloorRing K] in
theorem endIterationR_settings (hc : EndsLater c c') (old st : LoopState K n VM SM)
    (states : List (LoopState K n VM SM)) (log : Log K n) (res : AcceptanceResult K n)
    (next : Int × Bool) :
    SameProgress (endIterationR c comp old st states log res next)
      (endIterationR c' comp old st states log res next) ∧
    ((endIterationR c' comp old st states log res next).stop = true →
      (endIterationR c comp old st states log res next).stop = true) := by
  have hrad : c'.radius = c.radius := by rw [hc.same]
  have hmono : (if res.accepted && !c.conv.disable then
        isConverged comp.nrm comp.gradNorm c.conv old st else none) = none →
      (if res.accepted && !c'.conv.disable then
        isConverged comp.nrm comp.gradNorm c'.conv old st else none) = none := by
    intro h
    by_cases ha : (res.accepted && !c'.conv.disable) = true
    · rw [if_pos ha]
      simp only [Bool.and_eq_true, Bool.not_eq_true'] at ha
      rcases hc.tolerances with hd | ⟨hd, ht⟩
      · rw [hd] at ha; simp at ha
      · rw [if_pos (by simp [ha.1, hd])] at h
        exact isConverged_mono ht h
    · rw [if_neg ha]
  unfold endIterationR
  rw [hrad]
  dsimp only
  generalize (if res.accepted && !c.conv.disable then
        isConverged comp.nrm comp.gradNorm c.conv old st else none) = o at hmono
  generalize (if res.accepted && !c'.conv.disable then
        isConverged comp.nrm comp.gradNorm c'.conv old st else none) = o' at hmono
  cases o with
  | some m =>
    cases o' with
    | some m' => exact ⟨⟨rfl, rfl, rfl, rfl⟩, fun _ => rfl⟩
    | none =>
      dsimp only
      split <;> exact ⟨⟨rfl, rfl, rfl, rfl⟩, fun _ => rfl⟩
  | none =>
    cases hmono rfl
    dsimp only
    by_cases h1 : c'.maxEval ≤ log.nFun
    · rw [if_pos h1, if_pos (hc.maxEval.trans h1)]
      exact ⟨⟨rfl, rfl, rfl, rfl⟩, fun _ => rfl⟩
    · rw [if_neg h1]
      by_cases h2 : c.maxEval ≤ log.nFun
      · rw [if_pos h2]; exact ⟨⟨rfl, rfl, rfl, rfl⟩, fun _ => rfl⟩
      · rw [if_neg h2]; exact ⟨⟨rfl, rfl, rfl, rfl⟩, fun h => h⟩

/-- One iteration with settings that end a run later. -/
theorem iterationR_settings (hc : EndsLater c c') {it : Nat} {r r' : Run K n VM SM}
    (h : SameProgress r r') :
    (∃ e, iterationR c comp it r = .error e ∧ iterationR c' comp it r' = .error e) ∨
    ∃ q q', iterationR c comp it r = .ok q ∧ iterationR c' comp it r' = .ok q' ∧ SameProgress q q' ∧
      (q'.stop = true → q.stop = true) := by
  have hb : buildPhaseR c' comp it r'.state r'.log r'.nEvals =
      buildPhaseR c comp it r.state r.log r.nEvals := by
    rw [hc.same, buildPhaseR_settings, h.state, h.log, h.nEvals]
  unfold iterationR
  rw [hb, h.state, h.nEvals, h.states]
  cases h1 : buildPhaseR c comp it r.state r.log r.nEvals with
  | error e => exact .inl ⟨e, rfl, rfl⟩
  | ok p =>
    have hn : noiseR c' comp p.2.log r.state.trustregion = noiseR c comp p.2.log r.state.trustregion := by
      rw [hc.same]; rfl
    simp only [except_ok_bind]
    rw [hn]
    cases h2 : noiseR c comp p.2.log r.state.trustregion with
    | error e => exact .inl ⟨e, rfl, rfl⟩
    | ok sigma =>
      have hd : runDeciderR c' comp it sigma p.2.sub r.state.current p.2.log =
          runDeciderR c comp it sigma p.2.sub r.state.current p.2.log := by
        rw [hc.same]; rfl
      simp only [except_ok_bind]
      rw [hd]
      cases h3 : runDeciderR c comp it sigma p.2.sub r.state.current p.2.log with
      | error e => exact .inl ⟨e, rfl, rfl⟩
      | ok d =>
        have hne : nextNEvalsR c' comp it r.nEvals p.2 (stateR r.state r.nEvals p.1 p.2 d.2) d.2.rho =
            nextNEvalsR c comp it r.nEvals p.2 (stateR r.state r.nEvals p.1 p.2 d.2) d.2.rho := by
          rw [hc.same]; rfl
        simp only [except_ok_bind]
        rw [hne]
        cases h4 : nextNEvalsR c comp it r.nEvals p.2 (stateR r.state r.nEvals p.1 p.2 d.2) d.2.rho with
        | error e => exact .inl ⟨e, rfl, rfl⟩
        | ok next =>
          exact .inr ⟨_, _, rfl, rfl, endIterationR_settings hc _ _ _ _ _ _⟩

/-- The loop with settings that end a run later: if the longer run returns, so does the shorter one, and the
longer run begins with it. If both return, the longer run is a continuation of the shorter one. -/
theorem runLoopR_settings (hc : EndsLater c c') {k k' it : Nat} (hk : k ≤ k') {r r' : Run K n VM SM}
    (h : SameProgress r r') :
    (∀ q', runLoopR c' comp k' it r' = .ok q' →
      ∃ q, runLoopR c comp k it r = .ok q ∧ BeginsWith q q') ∧
    (∀ e, runLoopR c comp k it r = .error e → runLoopR c' comp k' it r' = .error e) := by
  induction k generalizing k' it r r' with
  | zero =>
    refine ⟨fun q' hq => ⟨r, rfl, h.begins (runLoopR_begins hq)⟩, fun e he => ?_⟩
    cases he
  | succ k ih =>
    obtain ⟨k', rfl⟩ : ∃ m, k' = m + 1 := ⟨k' - 1, by omega⟩
    rcases iterationR_settings (comp := comp) (it := it) hc h with ⟨e, h1, h2⟩ | ⟨q, q', h1, h2, h3, h4⟩
    · unfold runLoopR
      rw [h1, h2]
      exact ⟨(fun q' hq => by cases hq), fun e' he => he⟩
    · unfold runLoopR
      rw [h1, h2]
      simp only [except_ok_bind]
      by_cases hs : q.stop = true
      · rw [if_pos hs]
        refine ⟨fun p hp => ⟨q, rfl, h3.begins ?_⟩, (fun e he => by cases he)⟩
        split at hp
        · cases hp; exact ⟨List.prefix_rfl, List.prefix_rfl, List.prefix_rfl⟩
        · exact runLoopR_begins hp
      · rw [if_neg hs, if_neg fun h => hs (h4 h)]
        exact ih (by omega) h3

/-! ## A run that ended for a reason that still holds -/

/-- The reasons for which a run with settings `c` ends also end a run with settings `c'`. -/
def KeepsReason (c c' : Config K) (r : Run K n VM SM) : Prop :=
  c'.conv = c.conv ∧ (r.converged = true ∨ c'.maxEval = c.maxEval ∧ r.stop = true)

omit [FloorRing K] in
theorem endIterationR_keeps (hc : EndsLater c c') (hconv : c'.conv = c.conv)
    (old st : LoopState K n VM SM)
    (states : List (LoopState K n VM SM)) (log : Log K n) (res : AcceptanceResult K n)
    (next : Int × Bool) :
    ((endIterationR c comp old st states log res next).stop = false ∨
      KeepsReason c c' (endIterationR c comp old st states log res next)) →
    endIterationR c' comp old st states log res next = endIterationR c comp old st states log res next := by
  have hrad : c'.radius = c.radius := by rw [hc.same]
  unfold KeepsReason
  unfold endIterationR
  rw [hrad, hconv]
  dsimp only
  generalize (if res.accepted && !c.conv.disable then
        isConverged comp.nrm comp.gradNorm c.conv old st else none) = o
  cases o with
  | some m => exact fun _ => rfl
  | none =>
    dsimp only
    by_cases h2 : c.maxEval ≤ log.nFun
    · rw [if_pos h2]
      rintro (h | ⟨-, h | ⟨h, -⟩⟩)
      · cases h
      · cases h
      · rw [if_pos (h ▸ h2)]
    · rw [if_neg h2, if_neg fun h => h2 (hc.maxEval.trans h)]
      exact fun _ => rfl

theorem iterationR_keeps (hc : EndsLater c c') (hconv : c'.conv = c.conv) {it : Nat}
    {r q : Run K n VM SM} (h : iterationR c comp it r = .ok q)
    (hq : q.stop = false ∨ KeepsReason c c' q) : iterationR c' comp it r = .ok q := by
  have hb : buildPhaseR c' comp it r.state r.log r.nEvals =
      buildPhaseR c comp it r.state r.log r.nEvals := by
    rw [hc.same, buildPhaseR_settings]
  have hn : ∀ log region, noiseR c' comp log region = noiseR c comp log region := by
    intro log region; rw [hc.same]; rfl
  have hd : ∀ sigma sub cur log, runDeciderR c' comp it sigma sub cur log =
      runDeciderR c comp it sigma sub cur log := by
    intro sigma sub cur log; rw [hc.same]; rfl
  have hne : ∀ m b st rho, nextNEvalsR c' comp it m b st rho = nextNEvalsR c comp it m b st rho := by
    intro m b st rho; rw [hc.same]; rfl
  unfold iterationR at h ⊢
  rw [hb]
  obtain ⟨p, h1, h⟩ := bindOk h
  obtain ⟨sigma, h2, h⟩ := bindOk h
  obtain ⟨d, h3, h⟩ := bindOk h
  obtain ⟨next, h4, h⟩ := bindOk h
  have hE := Except.ok.inj h
  rw [← hE] at hq
  rw [h1, except_ok_bind, hn, h2, except_ok_bind, hd, h3, except_ok_bind]
  dsimp only
  rw [hne, h4, except_ok_bind, endIterationR_keeps hc hconv _ _ _ _ _ _ hq, hE]
  rfl

theorem runLoopR_keeps (hc : EndsLater c c') (hconv : c'.conv = c.conv) {k k' it : Nat} (hk : k ≤ k')
    {r q : Run K n VM SM} (hr : r.stop = false) (hr2 : r.converged = false)
    (h : runLoopR c comp k it r = .ok q) (hq : KeepsReason c c' q) :
    runLoopR c' comp k' it r = .ok q := by
  induction k generalizing k' it r with
  | zero =>
    cases h
    rcases hq.2 with h | ⟨-, h⟩
    · rw [hr2] at h; cases h
    · rw [hr] at h; cases h
  | succ k ih =>
    obtain ⟨k', rfl⟩ : ∃ m, k' = m + 1 := ⟨k' - 1, by omega⟩
    unfold runLoopR at h ⊢
    obtain ⟨r2, h1, h⟩ := bindOk h
    by_cases hs : r2.stop = true
    · rw [if_pos hs] at h
      cases h
      rw [iterationR_keeps hc hconv h1 (.inr hq), except_ok_bind, if_pos hs]
      rfl
    · rw [if_neg hs] at h
      have hs' : r2.stop = false := by simpa using hs
      rw [iterationR_keeps hc hconv h1 (.inl hs'), except_ok_bind, if_neg hs]
      have hcv : r2.converged = false := by
        unfold iterationR at h1
        obtain ⟨p, -, h1⟩ := bindOk h1
        obtain ⟨sigma, -, h1⟩ := bindOk h1
        obtain ⟨d, -, h1⟩ := bindOk h1
        obtain ⟨next, -, h1⟩ := bindOk h1
        have hE := Except.ok.inj h1
        rw [← hE] at hs' ⊢
        revert hs'
        unfold endIterationR
        dsimp only
        split
        · intro h; cases h
        · split
          · intro h; cases h
          · intro _; rfl
      exact ih (by omega) hs' hcv h

end Tranquilo
