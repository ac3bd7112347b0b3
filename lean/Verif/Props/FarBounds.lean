import Verif.Model.BuiltinRun
import Verif.Lemmas.Steps
import Verif.Props.CallUses
import Verif.Props.Cores

/-!
# C132: bounds that no trust region reaches do not matter
-/

namespace Tranquilo

variable {K : Type} [Field K] [LinearOrder K] {n m : ℕ} {VM SM : Type}

/-- The region ends before the bounds: in every coordinate, the center is more than the radius away from them. -/
def EndsBefore (ρ : Region K n) (B : Bounds K n) : Prop :=
  ∀ i, (∀ l, B.lower i = some l → l < ρ.center i - ρ.radius) ∧
    ∀ u, B.upper i = some u → ρ.center i + ρ.radius < u

/-- The same state of a run with other bounds. -/
def LoopState.withBounds (B : Bounds K n) (s : LoopState K n VM SM) : LoopState K n VM SM :=
  { s with trustregion := { s.trustregion with bounds := B } }

/-- The same run with other bounds: history, points, values, models, radii, messages are unchanged. -/
def Run.withBounds (B : Bounds K n) (r : Run K n VM SM) : Run K n VM SM :=
  { r with state := r.state.withBounds B, states := r.states.map (LoopState.withBounds B) }

theorem shape_of_endsBefore [IsStrictOrderedRing K] {ρ : Region K n} (h : EndsBefore ρ ρ.bounds) :
    ρ.shape = .sphere := by
  have h1 : lowerBinding ρ.center ρ.radius ρ.bounds.lower = false := by
    refine decide_eq_false ?_
    rintro ⟨i, l, hl, h2⟩
    have := (h i).1 l hl
    linarith
  have h2 : upperBinding ρ.center ρ.radius ρ.bounds.upper = false := by
    refine decide_eq_false ?_
    rintro ⟨i, l, hl, h2⟩
    have := (h i).2 l hl
    linarith
  simp [Region.shape, h1, h2]

/-- Two regions that are the same ball. -/
structure SameBall (ρ ρ' : Region K n) : Prop where
  center : ρ'.center = ρ.center
  radius : ρ'.radius = ρ.radius
  left : ρ.shape = .sphere
  right : ρ'.shape = .sphere

/-- Components that look at the bounds of a region only through its shape. -/
structure SeesBalls (comp : ComponentsR K n VM SM) : Prop where
  filter : ∀ (B : Bounds K n) s log t e xs is, comp.filter (s.withBounds B) log t e xs is = comp.filter s log t e xs is
  sample : ∀ ρ ρ', SameBall ρ ρ' → ∀ it round log k xs, comp.sample it round log ρ' k xs = comp.sample it round log ρ k xs
  fit : ∀ ρ ρ', SameBall ρ ρ' → ∀ log is old, comp.fit log is ρ' old = comp.fit log is ρ old
  solve : ∀ ρ ρ', SameBall ρ ρ' → ∀ sm, comp.solve sm ρ' = comp.solve sm ρ
  init : ∀ (B : Bounds K n) log ρ, comp.initModel log { ρ with bounds := B } = comp.initModel log ρ
  sigma : ∀ ρ ρ', SameBall ρ ρ' → ∀ log, comp.noiseSigma log ρ' = comp.noiseSigma log ρ
  rho : ∀ ρ ρ', SameBall ρ ρ' → ∀ it log xs vm old,
    comp.rhoNoise it log xs vm old ρ' = comp.rhoNoise it log xs vm old ρ

section step

variable {c : Config K} {comp : ComponentsR K n VM SM} {B : Bounds K n} {s : LoopState K n VM SM}

theorem buildModelR_withBounds (hc : SeesBalls comp) (h : SameBall s.trustregion (s.withBounds B).trustregion)
    (log : Log K n) (xs : List (Vec K n)) (is : List ℕ) :
    buildModelR comp (s.withBounds B) log xs is = buildModelR comp s log xs is := by
  unfold buildModelR
  rw [hc.fit _ _ h]
  simp only [hc.solve _ _ h]
  rfl

theorem dropLoopR_withBounds (hc : SeesBalls comp) (h : SameBall s.trustregion (s.withBounds B).trustregion)
    (fuel : ℕ) (b : Build K n VM SM) :
    dropLoopR c comp (s.withBounds B) fuel b = dropLoopR c comp s fuel b := by
  induction fuel generalizing b with
  | zero => rfl
  | succ fuel ih =>
    simp only [dropLoopR, buildModelR_withBounds hc h, ih]
    rfl

theorem stagnationLoopR_withBounds (hc : SeesBalls comp) (h : SameBall s.trustregion (s.withBounds B).trustregion)
    (nEvals : ℤ) (it fuel k : ℕ) (b : Build K n VM SM) :
    stagnationLoopR c comp (s.withBounds B) nEvals it fuel k b = stagnationLoopR c comp s nEvals it fuel k b := by
  induction fuel generalizing b k with
  | zero => rfl
  | succ fuel ih =>
    simp only [stagnationLoopR, stagnationRoundR, buildModelR_withBounds hc h, ih, hc.sample _ _ h]
    rfl

theorem buildPhaseR_withBounds [FloorRing K] (hc : SeesBalls comp)
    (h : SameBall s.trustregion (s.withBounds B).trustregion) (it : ℕ) (log : Log K n) (nEvals : ℤ) :
    buildPhaseR c comp it (s.withBounds B) log nEvals = buildPhaseR c comp it s log nEvals := by
  simp only [buildPhaseR, buildModelR_withBounds hc h, dropLoopR_withBounds hc h, stagnationLoopR_withBounds hc h,
    hc.sample _ _ h, hc.filter]
  rfl

/-- The region in which the line search samples around the point `y`. -/
def searchRegionAt (ρ : Region K n) (y : Vec K n) (factor : K) : Region K n :=
  { ρ with center := y, radius := factor * ρ.radius }

theorem runDeciderR_withBounds [FloorRing K] (hc : SeesBalls comp)
    (h : SameBall s.trustregion (s.withBounds B).trustregion) (it : ℕ)
    (sigma : Option (Option K)) (sub : SubSolution K n) (log : Log K n)
    (hd : ∀ m rf, c.decider = .lineSearch m rf → c.batchSize ≠ 1 →
      SameBall (searchRegionAt s.trustregion sub.x rf) (searchRegionAt (s.withBounds B).trustregion sub.x rf)) :
    runDeciderR c comp it sigma sub (s.withBounds B).current log = runDeciderR c comp it sigma sub s.current log := by
  unfold runDeciderR
  split
  · rfl
  · rfl
  · rfl
  · rename_i mi rf hl
    unfold acceptLineSearchR
    split_ifs with hb
    · rfl
    · have hs := hd mi rf hl hb
      have h1 : lineSearchXsR comp.nrm comp.cubeRadius (comp.sample it 0) rf c.batchSize sub.x (s.withBounds B).current
          (log.addX sub.x).1 =
          lineSearchXsR comp.nrm comp.cubeRadius (comp.sample it 0) rf c.batchSize sub.x s.current
          (log.addX sub.x).1 := by
        have hbord : isOnBorder comp.nrm comp.cubeRadius (s.withBounds B).current.trustregion sub.x (1 / 10) =
            isOnBorder comp.nrm comp.cubeRadius s.current.trustregion sub.x (1 / 10) := by
          have e1 : s.current.trustregion.shape = .sphere := h.left
          have e2 : (s.withBounds B).current.trustregion.shape = .sphere := h.right
          simp only [isOnBorder, e1, e2]
          rfl
        have hspec : ∀ k lineXs, speculativeSampleR comp.nrm (comp.sample it 0) sub.x
            (s.withBounds B).current.trustregion k (log.addX sub.x).1 lineXs rf =
            speculativeSampleR comp.nrm (comp.sample it 0) sub.x s.current.trustregion k (log.addX sub.x).1
              lineXs rf := by
          intro k lineXs
          exact hc.sample _ _ hs it 0 _ k _
        simp only [lineSearchXsR, hbord, hspec]
        rfl
      rw [h1]
      rfl

theorem lineSearch_candidate [FloorRing K] {it : ℕ} {sigma : Option (Option K)} {sub : SubSolution K n}
    {cur : Current K n} {log : Log K n} {d : Log K n × AcceptanceResult K n}
    (hr : runDeciderR c comp it sigma sub cur log = .ok d) {mi rf : K} (hl : c.decider = .lineSearch mi rf)
    (hb : c.batchSize ≠ 1) : sub.x ∈ d.1.xs := by
  simp only [runDeciderR, hl, acceptLineSearchR, if_neg hb] at hr
  obtain ⟨xs, h1, h2⟩ := bindOk hr
  obtain ⟨q, h3, h4⟩ := bindOk h2
  cases h4
  simp [Log.addX, Log.addXs]

theorem endIterationR_log_xs (old state : LoopState K n VM SM) (states : List (LoopState K n VM SM)) (log : Log K n)
    (res : AcceptanceResult K n) (next : ℤ × Bool) :
    (endIterationR c comp old state states log res next).log = log := by
  simp only [endIterationR]
  split
  · rfl
  · split_ifs <;> rfl

theorem iterationR_withBounds [FloorRing K] (hc : SeesBalls comp) (it : ℕ) {r : Run K n VM SM}
    (h : SameBall r.state.trustregion (r.state.withBounds B).trustregion) {r' : Run K n VM SM}
    (hr : iterationR c comp it r = .ok r')
    (hd : ∀ m rf, c.decider = .lineSearch m rf → c.batchSize ≠ 1 → ∀ y ∈ r'.log.xs,
      SameBall (searchRegionAt r.state.trustregion y rf) (searchRegionAt (r.state.withBounds B).trustregion y rf)) :
    iterationR c comp it (r.withBounds B) = .ok (r'.withBounds B) := by
  unfold iterationR at hr ⊢
  obtain ⟨p, h1, hr⟩ := bindOk hr
  obtain ⟨sigma, h2, hr⟩ := bindOk hr
  obtain ⟨d, h3, hr⟩ := bindOk hr
  dsimp only at hr
  obtain ⟨next, h4, hr⟩ := bindOk hr
  cases hr
  have e1 : buildPhaseR c comp it (r.withBounds B).state (r.withBounds B).log (r.withBounds B).nEvals = .ok p :=
    (buildPhaseR_withBounds hc h it r.log r.nEvals).trans h1
  have e2 : noiseR c comp p.2.log (r.withBounds B).state.trustregion = .ok sigma := by
    rw [← h2]
    unfold noiseR
    rw [show comp.noiseSigma p.2.log (r.withBounds B).state.trustregion = _ from hc.sigma _ _ h p.2.log]
  have e3 : runDeciderR c comp it sigma p.2.sub (r.withBounds B).state.current p.2.log = .ok d :=
    (runDeciderR_withBounds hc h it sigma p.2.sub p.2.log fun mi rf hl hb =>
      hd mi rf hl hb _ (by rw [endIterationR_log_xs]; exact lineSearch_candidate h3 hl hb)).trans h3
  have e4 : nextNEvalsR c comp it (r.withBounds B).nEvals p.2
      (stateR (r.withBounds B).state (r.withBounds B).nEvals p.1 p.2 d.2) d.2.rho = .ok next := by
    rw [← h4]
    unfold nextNEvalsR
    split_ifs
    · have := hc.rho _ _ h it p.2.log p.2.modelXs p.2.vectorModel r.state.vectorModel
      exact congrArg (· >>= _) this
    · rfl
  rw [e1]
  change (noiseR c comp p.2.log (r.withBounds B).state.trustregion >>= _) = _
  rw [e2]
  change (runDeciderR c comp it sigma p.2.sub (r.withBounds B).state.current p.2.log >>= _) = _
  rw [e3]
  change (nextNEvalsR c comp it (r.withBounds B).nEvals p.2
      (stateR (r.withBounds B).state (r.withBounds B).nEvals p.1 p.2 d.2) d.2.rho >>= _) = _
  rw [e4]
  change Except.ok _ = Except.ok _
  congr 1
  simp only [endIterationR]
  have hconv : isConverged comp.nrm comp.gradNorm c.conv (r.withBounds B).state
      (stateR (r.withBounds B).state (r.withBounds B).nEvals p.1 p.2 d.2) =
      isConverged comp.nrm comp.gradNorm c.conv r.state (stateR r.state r.nEvals p.1 p.2 d.2) := rfl
  rw [hconv]
  have hst : (r.withBounds B).states ++ [stateR (r.withBounds B).state (r.withBounds B).nEvals p.1 p.2 d.2] =
      (r.states ++ [stateR r.state r.nEvals p.1 p.2 d.2]).map (LoopState.withBounds B) := by
    simp only [List.map_append, List.map_cons, List.map_nil]
    rfl
  rw [hst]
  split
  · rfl
  · split_ifs <;> rfl

theorem iterationR_states [FloorRing K] {it : ℕ} {r r' : Run K n VM SM} (hr : iterationR c comp it r = .ok r') :
    ∃ s, r'.states = r.states ++ [s] ∧ s.trustregion = r.state.trustregion ∧
      r'.state.trustregion.bounds = r.state.trustregion.bounds := by
  unfold iterationR at hr
  obtain ⟨p, h1, hr⟩ := bindOk hr
  obtain ⟨sigma, h2, hr⟩ := bindOk hr
  obtain ⟨d, h3, hr⟩ := bindOk hr
  dsimp only at hr
  obtain ⟨next, h4, hr⟩ := bindOk hr
  cases hr
  refine ⟨stateR r.state r.nEvals p.1 p.2 d.2, ?_, rfl, ?_⟩
  · simp only [endIterationR]
    split
    · rfl
    · split_ifs <;> rfl
  · simp only [endIterationR]
    split
    · rfl
    · split_ifs <;> rfl

theorem runLoopR_states [FloorRing K] (k it : ℕ) {r r' : Run K n VM SM} (hr : runLoopR c comp k it r = .ok r') :
    ∀ s ∈ r.states, s ∈ r'.states := by
  induction k generalizing r it with
  | zero => cases hr; exact fun s h => h
  | succ k ih =>
    obtain ⟨r1, h1, hr⟩ := bindOk hr
    obtain ⟨s1, e1, -⟩ := iterationR_states h1
    intro s hs
    have hs1 : s ∈ r1.states := by rw [e1]; exact List.mem_append_left _ hs
    split_ifs at hr
    · cases hr; exact hs1
    · exact ih _ hr s hs1

theorem buildModelR_log_xs {s : LoopState K n VM SM} {log : Log K n} {xs : List (Vec K n)} {is : List ℕ}
    {b : Build K n VM SM} (h : buildModelR comp s log xs is = .ok b) : b.log = log := by
  obtain ⟨vm, -, h⟩ := bindOk h
  obtain ⟨sm, -, h⟩ := bindOk h
  obtain ⟨sub, -, h⟩ := bindOk h
  cases h
  rfl

theorem dropLoopR_log_xs {s : LoopState K n VM SM} (fuel : ℕ) {b b' : Build K n VM SM}
    (h : dropLoopR c comp s fuel b = .ok b') : b'.log = b.log := by
  induction fuel generalizing b with
  | zero => cases h; rfl
  | succ fuel ih =>
    unfold dropLoopR at h
    split_ifs at h
    · obtain ⟨q, -, h⟩ := bindOk h
      obtain ⟨b1, h1, h⟩ := bindOk h
      exact (ih h).trans (buildModelR_log_xs h1)
    · cases h; rfl

theorem stagnationLoopR_log_xs {s : LoopState K n VM SM} {nEvals : ℤ} {it : ℕ} (fuel k : ℕ) {b b' : Build K n VM SM}
    (h : stagnationLoopR c comp s nEvals it fuel k b = .ok b') : ∀ y ∈ b.log.xs, y ∈ b'.log.xs := by
  induction fuel generalizing b k with
  | zero => cases h; exact fun y hy => hy
  | succ fuel ih =>
    unfold stagnationLoopR at h
    split at h
    · obtain ⟨b1, h1, h⟩ := bindOk h
      have hb1 : ∀ y ∈ b.log.xs, y ∈ b1.log.xs := by
        unfold stagnationRoundR at h1
        obtain ⟨q, -, h1⟩ := bindOk h1
        obtain ⟨xs, -, h1⟩ := bindOk h1
        intro y hy
        rw [buildModelR_log_xs h1]
        simp [Log.addXs, hy]
      split at h
      · cases h; exact hb1
      · exact fun y hy => ih _ h y (hb1 y hy)
    · cases h; exact fun y hy => hy

theorem runDeciderR_log_xs [FloorRing K] {it : ℕ} {sigma : Option (Option K)} {sub : SubSolution K n}
    {cur : Current K n} {log : Log K n} {d : Log K n × AcceptanceResult K n}
    (hr : runDeciderR c comp it sigma sub cur log = .ok d) : ∀ y ∈ log.xs, y ∈ d.1.xs := by
  intro y hy
  have hcl : ∀ mi, y ∈ (acceptClassic comp.nrm comp.oracle mi sub cur log).1.xs := by
    intro mi
    simp [acceptClassic, acceptSimple, Log.addX, hy]
  unfold runDeciderR at hr
  split at hr
  · cases hr; exact hcl _
  · cases hr; simp [acceptNaiveNoisy, acceptSimple, Log.addX, hy]
  · split at hr
    · cases hr; simp [acceptNoisy, Log.addX, hy]
    · cases hr
    · cases hr
  · unfold acceptLineSearchR at hr
    split_ifs at hr
    · cases hr; exact hcl _
    · obtain ⟨xs, -, h2⟩ := bindOk hr
      obtain ⟨q, h3, h4⟩ := bindOk h2
      cases h4
      simp [Log.addX, Log.addXs, hy]

theorem iterationR_log_xs [FloorRing K] {it : ℕ} {r r' : Run K n VM SM} (hr : iterationR c comp it r = .ok r') :
    ∀ y ∈ r.log.xs, y ∈ r'.log.xs := by
  intro y hy
  unfold iterationR at hr
  obtain ⟨p, h1, hr⟩ := bindOk hr
  obtain ⟨sigma, h2, hr⟩ := bindOk hr
  obtain ⟨d, h3, hr⟩ := bindOk hr
  dsimp only at hr
  obtain ⟨next, h4, hr⟩ := bindOk hr
  cases hr
  rw [endIterationR_log_xs]
  refine runDeciderR_log_xs h3 y ?_
  unfold buildPhaseR at h1
  obtain ⟨kept, -, h1⟩ := bindOk h1
  obtain ⟨xs, -, h1⟩ := bindOk h1
  dsimp only at h1
  obtain ⟨b1, e1, h1⟩ := bindOk h1
  obtain ⟨b2, e2, h1⟩ := bindOk h1
  obtain ⟨b3, e3, h1⟩ := bindOk h1
  cases h1
  refine stagnationLoopR_log_xs _ _ e3 y ?_
  rw [dropLoopR_log_xs _ e2, buildModelR_log_xs e1]
  simp [Log.addXs, hy]

theorem runLoopR_log_xs [FloorRing K] (k it : ℕ) {r r' : Run K n VM SM} (hr : runLoopR c comp k it r = .ok r') :
    ∀ y ∈ r.log.xs, y ∈ r'.log.xs := by
  induction k generalizing r it with
  | zero => cases hr; exact fun s h => h
  | succ k ih =>
    obtain ⟨r1, h1, hr⟩ := bindOk hr
    intro y hy
    have hy1 := iterationR_log_xs h1 y hy
    split_ifs at hr
    · cases hr; exact hy1
    · exact ih _ hr y hy1

theorem runLoopR_withBounds [FloorRing K] (hc : SeesBalls comp) (k it : ℕ) {r r' : Run K n VM SM}
    (hr : runLoopR c comp k it r = .ok r')
    (h : ∀ s ∈ r'.states, SameBall s.trustregion (s.withBounds B).trustregion)
    (hd : ∀ m rf, c.decider = .lineSearch m rf → c.batchSize ≠ 1 → ∀ s ∈ r'.states, ∀ y ∈ r'.log.xs,
      SameBall (searchRegionAt s.trustregion y rf) (searchRegionAt (s.withBounds B).trustregion y rf)) :
    runLoopR c comp k it (r.withBounds B) = .ok (r'.withBounds B) := by
  induction k generalizing r it with
  | zero => cases hr; rfl
  | succ k ih =>
    obtain ⟨r1, h1, hr⟩ := bindOk hr
    obtain ⟨s1, e1, e2, -⟩ := iterationR_states h1
    have hs1 : s1 ∈ r1.states := by rw [e1]; simp
    have hin : s1 ∈ r'.states ∧ ∀ y ∈ r1.log.xs, y ∈ r'.log.xs := by
      split_ifs at hr
      · cases hr; exact ⟨hs1, fun y hy => hy⟩
      · exact ⟨runLoopR_states _ _ hr s1 hs1, runLoopR_log_xs _ _ hr⟩
    have hball : SameBall r.state.trustregion (r.state.withBounds B).trustregion := by
      have := h s1 hin.1
      simp only [LoopState.withBounds, e2] at this ⊢
      exact this
    have hit := iterationR_withBounds hc it hball h1 fun m rf hl hb y hy => by
      have := hd m rf hl hb s1 hin.1 y (hin.2 y hy)
      simp only [LoopState.withBounds, e2] at this ⊢
      exact this
    unfold runLoopR
    rw [hit]
    change (if r1.stop = true then _ else _) = _
    split_ifs at hr ⊢ with hs
    · cases hr; rfl
    · exact ih _ hr

end step

/-- The bounds `B` are far from the run `r`: all its trust regions end before them, and, if the line search samples
points besides the candidate, also the regions around evaluated points in which it may do so. -/
structure FarFrom (c : Config K) (r : Run K n VM SM) (B : Bounds K n) : Prop where
  regions : ∀ s ∈ r.states, EndsBefore s.trustregion B
  searches : ∀ m factor, c.decider = .lineSearch m factor → c.batchSize ≠ 1 → ∀ s ∈ r.states, ∀ y ∈ r.log.xs,
    EndsBefore (searchRegionAt s.trustregion y factor) B

/-- **C132, far bounds.** If a run with the bounds `B` returns, and the bounds `B` and `B'` are far from it, then the run
with the bounds `B'` returns the same: same history, points, values, models, radii and message. In particular, with `B`
no bounds at all: bounds that no region reaches do not change the run. -/
theorem C132_far_bounds [IsStrictOrderedRing K] [FloorRing K] {c : Config K} {comp : ComponentsR K n VM SM}
    (hc : SeesBalls comp) {x : Vec K n} {radius : K} {B : Bounds K n} {r : Run K n VM SM}
    (hr : tranquiloR c comp x radius B = .ok r) (B' : Bounds K n) (h : FarFrom c r B) (h' : FarFrom c r B') :
    tranquiloR c comp x radius B' = .ok (r.withBounds B') := by
  have hB : (∀ s ∈ r.states, s.trustregion.bounds = B) ∧ r.state.trustregion.bounds = B := by
    refine tranquiloR_invariant (fun r => (∀ s ∈ r.states, s.trustregion.bounds = B) ∧
      r.state.trustregion.bounds = B) ?_ ?_ hr
    · intro r0 h0
      obtain ⟨sm, -, h1⟩ := bindOk h0
      cases h1
      exact ⟨fun s hs => by rw [List.mem_singleton.1 hs], rfl⟩
    · rintro it r r' ⟨p1, p2⟩ hit
      obtain ⟨s1, e1, e2, e3⟩ := iterationR_states hit
      refine ⟨fun s hs => ?_, e3.trans p2⟩
      rw [e1] at hs
      rcases List.mem_append.1 hs with hs | hs
      · exact p1 s hs
      · rw [List.mem_singleton.1 hs, e2, p2]
  have hball : ∀ s ∈ r.states, SameBall s.trustregion (s.withBounds B').trustregion := fun s hs =>
    { center := rfl, radius := rfl
      left := shape_of_endsBefore (by rw [hB.1 s hs]; exact h.regions s hs)
      right := shape_of_endsBefore (h'.regions s hs) }
  obtain ⟨r0, h0, hrun⟩ := bindOk hr
  have hstart : startRunR c comp x radius B' = .ok (r0.withBounds B') := by
    unfold startRunR at h0 ⊢
    dsimp only at h0 ⊢
    have hi := hc.init B' (startLogR c comp.oracle x) { center := x, radius := radius, bounds := B }
    dsimp only at hi
    rw [hi]
    obtain ⟨sm, h1, h2⟩ := bindOk h0
    cases h2
    rw [h1]
    rfl
  unfold tranquiloR
  rw [hstart]
  refine runLoopR_withBounds hc _ _ hrun hball fun m rf hl hb s hs y hy =>
    { center := rfl, radius := rfl
      left := shape_of_endsBefore ?_
      right := shape_of_endsBefore (h'.searches m rf hl hb s hs y hy) }
  have := h.searches m rf hl hb s hs y hy
  rw [← hB.1 s hs] at this
  exact this

/-! ## The built in components -/

section builtin

variable {ρ ρ' : Region K n}

theorem SameBall.mapToUnit (h : SameBall ρ ρ') (cr : K → K) : ρ'.mapToUnit cr = ρ.mapToUnit cr := by
  funext x i
  simp only [Region.mapToUnit, h.left, h.right, h.center, h.radius]

theorem SameBall.mapFromUnit (h : SameBall ρ ρ') (cr : K → K) : ρ'.mapFromUnit cr = ρ.mapFromUnit cr := by
  funext x i
  simp only [Region.mapFromUnit, h.left, h.right, h.center, h.radius]

theorem SameBall.effectiveCenter (h : SameBall ρ ρ') (cr : K → K) : ρ'.effectiveCenter cr = ρ.effectiveCenter cr := by
  simp only [Region.effectiveCenter, h.left, h.right, h.center]

theorem SameBall.effectiveRadius (h : SameBall ρ ρ') (cr : K → K) : ρ'.effectiveRadius cr = ρ.effectiveRadius cr := by
  funext i
  simp only [Region.effectiveRadius, h.left, h.right, h.radius]

theorem SameBall.template (h : SameBall ρ ρ') (b : BuiltinSettings K n m) {N : ℕ} (old : VectorModel K n m)
    (xs : Fin N → Vec K n) (y : Fin N → Fin m → XVal K) :
    builtinFitTemplate b ρ' old xs y = builtinFitTemplate b ρ old xs y := by
  simp only [builtinFitTemplate, VectorModel.move, h.mapToUnit, h.effectiveCenter, h.effectiveRadius]

theorem SameBall.subproblem (h : SameBall ρ ρ') (b : BuiltinSettings K n m) (sm : ScalarModel K n) :
    solveSubproblem b.cubeRadius b.sphere b.cube b.fallbackSphere b.fallbackCube b.retry sm ρ' =
      solveSubproblem b.cubeRadius b.sphere b.cube b.fallbackSphere b.fallbackCube b.retry sm ρ := by
  simp only [solveSubproblem, h.mapToUnit, h.mapFromUnit, h.left, h.right, h.center]

/-- The built in components look at the bounds only through the shape of the region. -/
theorem builtin_seesBalls [FloorRing K] (b : BuiltinSettings K n m) : SeesBalls (builtinComponents b) where
  filter B s log t e xs is := rfl
  sample ρ ρ' h it round log k xs := by
    simp only [builtinComponents, builtinSampleR, interiorSampler, ballSampler, hullSampler, optimalHullSampler,
      optimizeSample, existingUnit, h.mapToUnit, h.mapFromUnit, h.left, h.right]
  fit ρ ρ' h log is old := by
    simp only [builtinComponents, builtinFit, h.template, h.center]
  solve ρ ρ' h sm := by
    simp only [builtinComponents, builtinSolve, h.subproblem]
  init B log ρ := rfl
  sigma ρ ρ' h log := by
    simp only [builtinComponents, builtinNoiseSigma, estimateVariance, varianceCandidates, h.center, h.radius]
  rho ρ ρ' h it log xs vm old := by
    simp only [builtinComponents, builtinRhoNoise, estimateCovariance, varianceCandidates, simulateRhoNoise,
      simulateOneRho, h.template, h.subproblem, h.mapToUnit, h.center, h.radius]

end builtin

/-- **C132, calls.** Bounds that are far from the run do not matter for calls with arbitrary arguments. -/
theorem C132_call {O : Type} [IsStrictOrderedRing K] [FloorRing K] (env : PyEnv K O) (ext : Externals K O n m)
    (a : Arguments K O (Option (Piece K n))) (x : Vec K n) {B : Bounds K n}
    {r : Run K n (VectorModel K n m) (ScalarModel K n)} (hr : tranquiloCall env ext a x B = .ok (some r))
    (B' : Bounds K n)
    (h : ∀ c b radius, CallUses env ext a x c b radius → FarFrom c r B ∧ FarFrom c r B') :
    tranquiloCall env ext a x B' = .ok (some (r.withBounds B')) := by
  simp only [tranquiloCall, except_bind_ok] at hr ⊢
  obtain ⟨p, hp, hr⟩ := hr
  refine ⟨p, hp, ?_⟩
  split at hr
  case h_2 => cases hr
  rename_i c b radius hc hb hradius
  obtain ⟨r', hr, hrr⟩ := except_map_ok.1 hr
  cases hrr
  have hf := h c b radius (call_uses env ext a x p hp c hc b hb radius hradius)
  rw [C132_far_bounds (builtin_seesBalls b) hr B' hf.1 hf.2]
  rfl

theorem decider_lineSearch {O : Type} {env : PyEnv K O} {ext : Externals K O n m} {user : Option (UserOptions K O)}
    {s : String} {mi f : K} (h : DeciderIs env ext user s (.lineSearch mi f)) : s = "classic_line_search" := by
  cases h
  rfl

/-- **C132, calls without line search.** For the deciders other than the line search only the trust regions matter; here
for a call without bounds, compared with bounds that its trust regions do not reach. -/
theorem C132_unreached_bounds {O : Type} [IsStrictOrderedRing K] [FloorRing K] (env : PyEnv K O) (ext : Externals K O n m)
    (a : Arguments K O (Option (Piece K n))) (x : Vec K n)
    (hd : a.acceptanceDecider = none ∨ ∃ s, a.acceptanceDecider = some (.str s) ∧ s ≠ "classic_line_search")
    {r : Run K n (VectorModel K n m) (ScalarModel K n)}
    (hr : tranquiloCall env ext a x ⟨fun _ => none, fun _ => none⟩ = .ok (some r))
    (B : Bounds K n) (h : ∀ s ∈ r.states, EndsBefore s.trustregion B) :
    tranquiloCall env ext a x B = .ok (some (r.withBounds B)) := by
  refine C132_call env ext a x hr B fun c b radius hu => ?_
  have hno : ∀ mi f, c.decider ≠ .lineSearch mi f := by
    intro mi f hl
    rcases hd with hd | ⟨s, hd, hs⟩
    · have := hu.decider (if c.noisy then "noisy" else "classic") (by rw [hd]; rfl)
      rw [hl] at this
      have := decider_lineSearch this
      split_ifs at this <;> exact absurd this (by decide)
    · have := hu.decider s (by rw [hd]; rfl)
      rw [hl] at this
      exact hs (decider_lineSearch this)
  exact ⟨⟨fun s hs i => ⟨fun l hl => (by cases hl), fun l hl => (by cases hl)⟩,
      fun mi f hl => absurd hl (hno mi f)⟩, ⟨h, fun mi f hl => absurd hl (hno mi f)⟩⟩

/-! ## Bounds that no point reaches -/

/-- Normal draws are `-1`, uniform draws `3/4`. -/
def leftRng : SampleRng ℚ 1 where
  normal k := (List.range k).map fun _ _ => -1
  uniform01 k := (List.range k).map fun _ _ => 3 / 4
  normalBlocks k l := (List.range k).map fun _ => (List.range l).map fun _ _ => -1
  uniformBlocks01 k l := (List.range k).map fun _ => (List.range l).map fun _ _ => 3 / 4

/-- The residual `x` of one parameter, as in `coresExternals`, with these draws. The least squares solver returns the exact
solution for the regions from `9/10` to `11/10` and from `9/10` to `21/20`. -/
def leftExternals : Externals ℚ Unit 1 1 :=
  { coresExternals with
    rng := fun _ _ _ => leftRng
    lstsq := fun _ _ a y k =>
      let ball : ℕ → ℚ := fun k => if k = 0 then 1 else if k = 1 then 1 / 10 else 0
      let box : ℕ → ℚ := fun k => if k = 0 then 39 / 40 else if k = 1 then 3 / 40 else 0
      if ∀ s, ∑ j, a s j * ball j = y s then ball k
      else if ∀ s, ∑ j, a s j * box j = y s then box k else 0 }

/-- **Points are not enough**: in a call without bounds all evaluated points are at most `1`; with the upper bound
`21/20` for the parameter, which none of them reaches, other points are evaluated, because the first trust region would
reach up to `11/10`. -/
theorem C132_points_are_not_enough :
    evaluated (tranquiloCall plainEnv leftExternals
      { functype := "least_squares", x := [], maxIter := .int 1 } (fun _ => 1)
      ⟨fun _ => none, fun _ => none⟩) = some ([1, 9 / 10, 9 / 10, 9 / 10], 4) ∧
    evaluated (tranquiloCall plainEnv leftExternals
      { functype := "least_squares", x := [], maxIter := .int 1 } (fun _ => 1)
      ⟨fun _ => none, fun _ => some (21 / 20)⟩) = some ([1, 21 / 20, 21 / 20, 9 / 10], 4) := by
  decide +kernel

/-- C132, example: the bounds `1/2` and `3/2` do not matter for this call. -/
example : ∃ r, tranquiloCall plainEnv coresExternals
      { functype := "least_squares", x := [], maxIter := .int 2 } (fun _ => 1)
      ⟨fun _ => none, fun _ => none⟩ = .ok (some r) ∧
    tranquiloCall plainEnv coresExternals
      { functype := "least_squares", x := [], maxIter := .int 2 } (fun _ => 1)
      ⟨fun _ => some (1 / 2), fun _ => some (3 / 2)⟩ =
        .ok (some (r.withBounds ⟨fun _ => some (1 / 2), fun _ => some (3 / 2)⟩)) ∧ r.states.length = 3 := by
  have key : (match tranquiloCall plainEnv coresExternals
        { functype := "least_squares", x := [], maxIter := .int 2 } (fun _ => 1)
        ⟨fun _ => none, fun _ => none⟩ with
      | .ok (some r) => r.states.all (fun s : LoopState ℚ 1 (VectorModel ℚ 1 1) (ScalarModel ℚ 1) =>
          decide (1 / 2 < s.trustregion.center 0 - s.trustregion.radius) &&
          decide (s.trustregion.center 0 + s.trustregion.radius < 3 / 2)) && decide (r.states.length = 3)
      | _ => false) = true := by
    decide +kernel
  split at key
  · rename_i r hr
    simp only [Bool.and_eq_true, List.all_eq_true, decide_eq_true_eq] at key
    refine ⟨r, hr, C132_unreached_bounds _ _ _ _ (Or.inl rfl) hr _ fun s hs i => ?_, key.2⟩
    rw [Fin.fin_one_eq_zero i]
    exact ⟨fun l hl => by cases hl; exact (key.1 s hs).1, fun l hl => by cases hl; exact (key.1 s hs).2⟩
  · cases key

end Tranquilo
