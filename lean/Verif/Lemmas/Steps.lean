import Verif.Props.ExactModels
import Verif.Spec.Stationary

/-!
# What the states of a run say about its steps, for criteria without noise
-/

namespace Tranquilo

variable {K : Type} [Field K] [LinearOrder K] {n : Nat} {VM SM : Type}

section solved

variable {c : Config K} {ce : ComponentsR K n VM SM} {state : LoopState K n VM SM}

theorem dropLoopR_property {Q : Build K n VM SM → Prop}
    (hQ : ∀ log xs is b, buildModelR ce state log xs is = .ok b → Q b) {fuel : Nat} {b b' : Build K n VM SM}
    (hb : Q b) (h : dropLoopR c ce state fuel b = .ok b') : Q b' := by
  induction fuel generalizing b with
  | zero => cases h; exact hb
  | succ fuel ih =>
    unfold dropLoopR at h
    split at h
    · obtain ⟨r, h1, h⟩ := bindOk h
      obtain ⟨b1, h2, h⟩ := bindOk h
      exact ih (hQ _ _ _ _ h2) h
    · cases h; exact hb

theorem stagnationLoopR_property {Q : Build K n VM SM → Prop}
    (hQ : ∀ log xs is b, buildModelR ce state log xs is = .ok b → Q b) {nEvals : Int} {it fuel k : Nat}
    {b b' : Build K n VM SM} (hb : Q b) (h : stagnationLoopR c ce state nEvals it fuel k b = .ok b') : Q b' := by
  induction fuel generalizing b k with
  | zero => cases h; exact hb
  | succ fuel ih =>
    unfold stagnationLoopR at h
    split at h
    · obtain ⟨b1, h1, h⟩ := bindOk h
      have hb1 : Q b1 := by
        unfold stagnationRoundR at h1
        obtain ⟨r, g1, h1⟩ := bindOk h1
        obtain ⟨ys, g2, h1⟩ := bindOk h1
        exact hQ _ _ _ _ h1
      split at h
      · cases h; exact hb1
      · exact ih hb1 h
    · cases h; exact hb

/-- What holds for all models that are built holds for the model of an iteration. -/
theorem buildPhaseR_property [FloorRing K] {Q : Build K n VM SM → Prop}
    (hQ : ∀ log xs is b, buildModelR ce state log xs is = .ok b → Q b) {it : Nat} {log : Log K n} {nEvals : Int}
    {p : List Nat × Build K n VM SM} (h : buildPhaseR c ce it state log nEvals = .ok p) : Q p.2 := by
  unfold buildPhaseR at h
  obtain ⟨kept, -, h⟩ := bindOk h
  obtain ⟨newXs, -, h⟩ := bindOk h
  obtain ⟨b, h1, h⟩ := bindOk h
  obtain ⟨b2, h2, h⟩ := bindOk h
  obtain ⟨b3, h3, h⟩ := bindOk h
  cases h
  exact stagnationLoopR_property hQ (dropLoopR_property hQ (hQ _ _ _ _ h1) h2) h3

/-- The model of an iteration is fitted on the trust region and aggregated, and the candidate is the solution of its
subproblem. -/
theorem buildPhaseR_solved [FloorRing K] {it : Nat} {log : Log K n} {nEvals : Int}
    {p : List Nat × Build K n VM SM} (h : buildPhaseR c ce it state log nEvals = .ok p) :
    ce.solve p.2.model state.trustregion = .ok p.2.sub ∧ ∃ log' is vm,
      ce.fit log' is state.trustregion state.vectorModel = .ok vm ∧ ce.aggregate vm = .ok p.2.model := by
  refine buildPhaseR_property (Q := fun b => ce.solve b.model state.trustregion = .ok b.sub ∧ ∃ log' is vm,
    ce.fit log' is state.trustregion state.vectorModel = .ok vm ∧ ce.aggregate vm = .ok b.model) ?_ h
  intro log xs is b h
  unfold buildModelR at h
  obtain ⟨vm, h1, h⟩ := bindOk h
  obtain ⟨sm, h2, h⟩ := bindOk h
  obtain ⟨sub, h3, h⟩ := bindOk h
  cases h
  exact ⟨h3, _, _, _, h1, h2⟩

end solved

/-- A property of runs that holds at the start and is preserved by the iterations. -/
theorem tranquiloR_invariant [FloorRing K] {c : Config K} {ce : ComponentsR K n VM SM} {x : Vec K n} {radius : K}
    {bounds : Bounds K n} (P : Run K n VM SM → Prop)
    (hstart : ∀ r, startRunR c ce x radius bounds = .ok r → P r)
    (hstep : ∀ it r r', P r → iterationR c ce it r = .ok r' → P r') {r : Run K n VM SM}
    (hr : tranquiloR c ce x radius bounds = .ok r) : P r := by
  have hloop : ∀ k it r r', P r → runLoopR c ce k it r = .ok r' → P r' := by
    intro k
    induction k with
    | zero => intro it r r' hp h; cases h; exact hp
    | succ k ih =>
      intro it r r' hp h
      unfold runLoopR at h
      obtain ⟨r1, h1, h⟩ := bindOk h
      have hp1 := hstep it r r1 hp h1
      split at h
      · cases h; exact hp1
      · exact ih _ _ _ hp1 h
  unfold tranquiloR at hr
  obtain ⟨r0, h0, hr⟩ := bindOk hr
  exact hloop _ _ _ _ (hstart r0 h0) hr

variable [IsStrictOrderedRing K]

/-- The states of runs on criteria without noise: the candidate is the solution of the stored model on the stored
trust region, `rho` compares what it gains with what was expected, and candidates that gain enough are taken (or a
better point). -/
theorem tranquiloR_steps [FloorRing K] {c : Config K} {ce : ComponentsR K n VM SM} (hf : FilterSelectsR ce)
    (hb : 1 ≤ c.batchSize) (hdec : ∀ m zc zp a b, c.decider ≠ .noisy m zc zp a b) {g : Vec K n → K}
    (hdet : ∀ k x, ce.oracle k x = .fin (g x)) {x : Vec K n} {radius : K} {bounds : Bounds K n} {r : Run K n VM SM}
    (hr : tranquiloR c ce x radius bounds = .ok r) :
    ∀ s ∈ r.states.tail, JudgedStep ce.solve c.decider.minImprovement g s := by
  set cp := ce.total (fallbackComponents ce r.state.model) with hcp
  have hreal : Realizes ce cp := ce.total_realizes _
  have hfil : FilterSelects cp := total_filterSelects _ hf
  have hdet' : ∀ k x, cp.oracle k x = .fin (g x) := hdet
  let P : Run K n VM SM → Prop := fun r => RunOk cp bounds r ∧
    DetOk cp (fun y => .fin (g y)) c.decider.minImprovement r ∧ r.states ≠ [] ∧
    ∀ s ∈ r.states.tail, JudgedStep ce.solve c.decider.minImprovement g s
  have hP : P r := by
    refine tranquiloR_invariant P ?_ ?_ hr
    · intro r0 h0
      have := startRunR_ok hreal h0
      rw [← this]
      exact ⟨startRun_ok c cp x radius bounds, startRun_det c cp hb hdet' x radius bounds, by simp [startRun],
        by simp [startRun]⟩
    · rintro it r r' ⟨p1, p2, p3, p4⟩ hit
      have heq := iterationR_ok hreal hit
      have hbuild : ce.solve (theBuild c cp it r).model r.state.trustregion = .ok (theBuild c cp it r).sub := by
        unfold iterationR at hit
        obtain ⟨p, h1, -⟩ := bindOk hit
        have h2 := buildPhaseR_ok hreal h1
        have h3 := (buildPhaseR_solved h1).1
        rw [← h2] at h3
        exact h3
      rw [← heq]
      refine ⟨iteration_ok c cp hfil bounds it r p1, iteration_det c cp hfil hb hdet' bounds it r p1 p2, ?_, ?_⟩
      · rw [iteration_eq]; simp
      · intro s hs
        have hs' : s ∈ r.states.tail ∨ s = theState c cp it r := by
          rw [iteration_eq] at hs
          simp only at hs
          rw [List.tail_append_of_ne_nil p3] at hs
          simpa using hs
        rcases hs' with hs | rfl
        · exact p4 s hs
        · have hbg := (buildPhase_ok c cp it r.state r.log r.nEvals hfil p1.point).grows
          have hbc : (theBuild c cp it r).log.Consistent cp.oracle := hbg.consistent p1.consistent
          obtain ⟨d1, d2, d3, -⟩ := runDecider_exact c cp it hdec (theBuild c cp it r).log r.state.trustregion
            (theBuild c cp it r).sub r.state.current (theBuild c cp it r).log hbc hdet' p2.value
          have hcur : r.state.current.x = r.state.trustregion.center := p1.center.symm
          rw [hcur] at d1 d2
          exact ⟨(theBuild c cp it r).sub, hbuild, d1, fun hm => d3 (d2 hm)⟩
  exact hP.2.2.2

end Tranquilo
