import Verif.Spec.BestPoint
import Verif.Props.StepReport
import Verif.Props.Cores

/-!
# C137: the result and the other evaluated points
-/

namespace Tranquilo

variable {K : Type} [Field K] [LinearOrder K] [IsStrictOrderedRing K] {n : Nat} {VM SM : Type}

/-- No point that a decider evaluates is better than the chosen one by more than the minimal improvement. -/
theorem runDecider_best [FloorRing K] (c : Config K) (cp : Components K n VM SM) (it : Nat) (hd : EvaluatesProposals c)
    (hm : 0 ≤ c.decider.minImprovement)
    (log : Log K n) (region : Region K n) (sub : SubSolution K n) (cur : Current K n) (h : Log K n)
    (hc : h.Consistent cp.oracle) {g : Vec K n → K} (hdet : ∀ k x, cp.oracle k x = .fin (g x))
    (hcur : cur.fval = .fin (g cur.x)) (hx : h.xs[cur.index]? = some cur.x) (hv : ∃ v, (cur.index, v) ∈ h.evals)
    (hrej : (runDecider c cp it log region sub cur h).2.accepted = false →
      (runDecider c cp it log region sub cur h).2.x = cur.x) {y : Vec K n} (hy : DeciderPoint c cp it sub cur h y) :
    g (runDecider c cp it log region sub cur h).2.x ≤ g y + c.decider.minImprovement := by
  obtain ⟨-, d2, d3⟩ := runDecider_reports c cp it hd log region sub cur h hc hdet hcur hx hv
  rcases hy with rfl | ⟨m, rf, hdec, hb1, hy⟩
  · cases hacc : (runDecider c cp it log region sub cur h).2.accepted with
    | true => linarith [d3 hacc]
    | false =>
      rw [hrej hacc]
      by_contra hlt
      have := d2 (by linarith)
      rw [hacc] at this
      cases this
  · unfold runDecider at hrej ⊢
    rw [hdec] at hrej hm ⊢
    simp only [DeciderChoice.minImprovement] at hrej hm ⊢
    obtain ⟨j, x, v, acc, rho, hjx, hvx, hacc, -, hres, -, hbest⟩ :=
      lineSearch_best cp.nrm cp.cubeRadius cp.oracle (cp.sample it 0) rf m c.batchSize sub cur h hb1 hc.wf
    obtain ⟨k, hk⟩ := List.mem_iff_getElem?.1
      (show y ∈ lineSearchPoints cp.nrm cp.cubeRadius (cp.sample it 0) rf c.batchSize sub cur h from
        List.mem_cons_of_mem _ hy)
    have h0 := hbest (by rw [hvx, hdet]; simp) k y hk (by rw [hdet]; simp)
    rw [hvx, hdet, hdet] at h0
    have h0 : g x ≤ g y := by simpa using h0
    have hsub : -(XVal.fin (g x) - cur.fval) = .fin (g cur.x - g x) := by
      rw [hcur]
      show XVal.fin (-(g x + -g cur.x)) = _
      congr 1; ring
    rw [hvx, hdet, hsub] at hacc
    rw [hvx, hdet] at hres
    obtain ⟨f1, f2, -⟩ := finish_spec cp.nrm x (.fin (g x)) (h.xs.length + j) rho acc cur 1
    rw [← hres] at f1 f2
    cases ha : (acceptLineSearch cp.nrm cp.cubeRadius cp.oracle (cp.sample it 0) rf m c.batchSize sub cur h).2.accepted with
    | true =>
      rw [(f2 ha).1]
      linarith
    | false =>
      rw [hrej ha]
      by_contra hlt
      have : acc = true := hacc.2 (by simp; linarith)
      rw [f1.2 ⟨this, rfl⟩] at ha
      cases ha

/-- C137 for runs with any components and deciders: a point of the history that is better than the result by more than the
minimal improvement was returned by the sampler, for a model. In particular the result is at least as good as all points
that were proposed, up to the minimal improvement, and as the points of the line search. Missing: sampled points, see
`C137_violated_by_samples`. -/
theorem C137_better_points_are_samples_partial [FloorRing K] {c : Config K} {ce : ComponentsR K n VM SM}
    (hf : FilterSelectsR ce) (hb : 1 ≤ c.batchSize) (hdec : EvaluatesProposals c) (hm : 0 ≤ c.decider.minImprovement)
    {g : Vec K n → K} (hdet : ∀ k x, ce.oracle k x = .fin (g x)) {x : Vec K n} {radius : K} {bounds : Bounds K n}
    {r : Run K n VM SM} (hr : tranquiloR c ce x radius bounds = .ok r) :
    ∀ y ∈ r.log.xs, g r.state.x ≤ g y + c.decider.minImprovement ∨ SampledForModel ce r y := by
  set cp := ce.total (fallbackComponents ce r.state.model) with hcp
  have hreal : Realizes ce cp := ce.total_realizes _
  have hfil : FilterSelects cp := total_filterSelects _ hf
  have hdet' : ∀ k x, cp.oracle k x = .fin (g x) := hdet
  let P : Run K n VM SM → Prop := fun r => RunOk cp bounds r ∧
    DetOk cp (fun y => .fin (g y)) c.decider.minImprovement r ∧ r.states ≠ [] ∧
    ∀ y ∈ r.log.xs, g r.state.x ≤ g y + c.decider.minImprovement ∨ SampledForModel ce r y
  have hP : P r := by
    refine tranquiloR_invariant P ?_ ?_ hr
    · intro r0 h0
      have := startRunR_ok hreal h0
      rw [← this]
      refine ⟨startRun_ok c cp x radius bounds, startRun_det c cp hb hdet' x radius bounds, by simp [startRun], ?_⟩
      intro y hy
      obtain rfl : y = x := by simpa [startRun] using hy
      exact Or.inl (by simpa [startRun] using hm)
    · rintro it r r' ⟨p1, p2, p3, p4⟩ hit
      have heq := iterationR_ok hreal hit
      rw [← heq]
      have hnext := iteration_det c cp hfil hb hdet' bounds it r p1 p2
      refine ⟨iteration_ok c cp hfil bounds it r p1, hnext, by rw [iteration_eq]; simp, ?_⟩
      have hstates : (iteration c cp it r).states = r.states ++ [theState c cp it r] := by rw [iteration_eq]
      have hx : (iteration c cp it r).state.x = (theDecision c cp it r).2.x := by rw [iteration_eq]; rfl
      have hbg := (buildPhase_ok c cp it r.state r.log r.nEvals hfil p1.point).grows
      have hbc : (theBuild c cp it r).log.Consistent cp.oracle := hbg.consistent p1.consistent
      have hpoint := getElem?_of_prefix hbg.xs_prefix p1.point
      have hrec : ∃ v, (r.state.current.index, v) ∈ (theBuild c cp it r).log.evals :=
        ⟨_, hbg.evals_prefix.subset p2.recorded⟩
      have hrej : (theDecision c cp it r).2.accepted = false → (theDecision c cp it r).2.x = r.state.x := by
        intro h
        obtain ⟨cx, ci, rho, acc, ne, -, -, hres⟩ := decides_finish hbc.wf (theDecision_decides c cp it r)
        rw [hres] at h ⊢
        exact ((finish_spec cp.nrm cx _ ci rho acc r.state.current ne).2.2.1 h).1
      have hdown : g (theDecision c cp it r).2.x ≤ g r.state.x := by
        cases hacc : (theDecision c cp it r).2.accepted with
        | false => rw [hrej hacc]
        | true =>
          have := decision_improves_det c cp it hb (theBuild c cp it r).log r.state.trustregion (theBuild c cp it r).sub
            r.state.current (theBuild c cp it r).log hbc hdet' hpoint p2.value hacc
          obtain ⟨a, ha, hold⟩ := this
          have hval : (theDecision c cp it r).2.fval = .fin (g (theDecision c cp it r).2.x) := by
            have := hnext.value
            rw [iteration_eq] at this
            exact this
          have ha' : g (theDecision c cp it r).2.x = a := XVal.fin.inj (hval.symm.trans ha)
          have hcv : r.state.current.fval = .fin (g r.state.x) := p2.value
          rw [hcv] at hold
          rcases hold with h | ⟨b, h, hle⟩
          · cases h
          · have := XVal.fin.inj h
            linarith
      rw [hx]
      have hold : ∀ y, SampledForModel ce r y → SampledForModel ce (iteration c cp it r) y := by
        rintro y ⟨s, hs, rest⟩
        exact ⟨s, by rw [hstates, List.tail_append_of_ne_nil p3]; exact List.mem_append_left _ hs, rest⟩
      refine ((iteration_grows c cp hfil it r p1.point).mono (Q := fun y =>
        g (theDecision c cp it r).2.x ≤ g y + c.decider.minImprovement ∨
          SampledForModel ce (iteration c cp it r) y) ?_).points ?_
      · rintro y (⟨round, log, k, xs, hy⟩ | hy)
        · have hy' : y ∈ cp.sample it round log r.state.trustregion k xs := hy
          simp only [hcp, ComponentsR.total, fallbackComponents] at hy'
          cases hs : ce.sample it round log r.state.trustregion k xs with
          | ok ys =>
            rw [hs] at hy'
            exact Or.inr ⟨theState c cp it r, by rw [hstates, List.tail_append_of_ne_nil p3]; simp,
              it, round, log, k, xs, ys, hs, hy'⟩
          | error e =>
            rw [hs] at hy'
            refine Or.inl ?_
            rw [List.eq_of_mem_replicate hy', p1.center]
            linarith
        · exact Or.inl (runDecider_best c cp it hdec hm (theBuild c cp it r).log r.state.trustregion (theBuild c cp it r).sub
            r.state.current (theBuild c cp it r).log hbc hdet' p2.value hpoint hrec hrej hy)
      · intro y hy
        rcases p4 y hy with h | h
        · exact Or.inl (by linarith)
        · exact Or.inr (hold y h)
  exact hP.2.2.2

/-- C137 for calls: `mi` is the minimal improvement in force. -/
theorem C137_call_partial [FloorRing K] {O : Type} {m : Nat} {env : PyEnv K O} {ext : Externals K O n m}
    {a : Arguments K O (Option (Piece K n))} {x : Vec K n} {bounds : Bounds K n}
    {r : Run K n (VectorModel K n m) (ScalarModel K n)} (hr : tranquiloCall env ext a x bounds = .ok (some r))
    (hbatch : PositiveBatch env a)
    (hname : a.acceptanceDecider = none ∨ ∃ name, a.acceptanceDecider = some (.str name))
    (hmin : ∀ w, Uses env a.acceptanceDeciderOptions "min_improvement" (num 0) (num w) → 0 ≤ w)
    (hlimits : ∀ nMin nMax : ℕ, Uses env a.acceptanceDeciderOptions "n_min" (.int 4) (.int nMin) →
      Uses env a.acceptanceDeciderOptions "n_max" (.int 50) (.int nMax) → 1 ≤ nMin ∧ nMin ≤ nMax)
    {g : Vec K n → K} (hdet : ∀ k y, ext.oracle k y = .fin (g y)) :
    ∃ c b radius mi, CallUses env ext a x c b radius ∧
      Uses env a.acceptanceDeciderOptions "min_improvement" (num 0) (num mi) ∧
      ∀ y ∈ r.log.xs, g r.state.x ≤ g y + mi ∨ SampledForModel (builtinComponents b) r y := by
  obtain ⟨c, b, radius, hrun, hu⟩ := C118_run_uses_the_arguments env ext a x bounds r hr
  obtain ⟨name, hD⟩ : ∃ name, DeciderIs env ext a.acceptanceDeciderOptions name c.decider := by
    rcases hname with h | ⟨name, h⟩
    · exact ⟨_, hu.decider _ (by rw [h]; rfl)⟩
    · exact ⟨name, hu.decider name (by rw [h]; rfl)⟩
  have hmi : Uses env a.acceptanceDeciderOptions "min_improvement" (num 0) (num c.decider.minImprovement) ∧
      EvaluatesProposals c := by
    unfold EvaluatesProposals
    generalize c.decider = D at hD
    cases hD with
    | classic mi h => exact ⟨h, by simp⟩
    | naiveNoisy mi h => exact ⟨h, by simp⟩
    | noisy mi q1 q2 k l h =>
      refine ⟨h ("min_improvement", num 0, num mi) (by simp), ?_⟩
      rintro _ _ _ _ _ e
      cases e
      exact hlimits k l (h ("n_min", .int 4, .int k) (by simp)) (h ("n_max", .int 50, .int l) (by simp))
    | lineSearch mi f h => exact ⟨h ("min_improvement", num 0, num mi) (by simp), by simp⟩
  exact ⟨c, b, radius, _, hu, hmi.1, C137_better_points_are_samples_partial (builtin_filterSelectsR b)
    (by exact_mod_cast hbatch _ hu.batchSize) hmi.2 (hmin _ hmi.1)
    (fun k y => (congrFun (congrFun hu.criterion.1 k) y).trans (hdet k y)) hrun⟩

/-- The components of the example runs, with a sampler that returns the lower end of the region. -/
def lowerEndComponents : ComponentsR ℚ 1 ℚ ℚ :=
  { toyComponentsR fun _ v => .fin (v 0 ^ 2) with
    sample := fun _ _ _ region k _ => .ok (List.replicate k fun i => region.center i - region.radius) }

/-- **The result is not the best evaluated point**: the point `0`, sampled for the model, has the value `0`; the result is
the proposed point `1` with the value `1`. -/
theorem C137_violated_by_samples :
    ∃ r, tranquiloR (toyConfig 1 100 2 (.classic 0)) lowerEndComponents (fun _ => 2) 2 noBounds = .ok r ∧
      r.state.x 0 = 1 ∧ r.state.fval = .fin 1 ∧ ∃ i, (i, .fin 0) ∈ r.log.evals ∧ r.log.xs[i]? = some fun _ => 0 := by
  have key : (match tranquiloR (toyConfig 1 100 2 (.classic 0)) lowerEndComponents (fun _ => 2) 2 noBounds with
      | .ok r => decide (r.state.x 0 = 1 ∧ r.state.fval = .fin 1 ∧ (1, .fin 0) ∈ r.log.evals ∧
          (r.log.xs[1]?).map (fun v => v 0) = some 0)
      | _ => false) = true := by
    decide +kernel
  split at key
  · rename_i r hr
    obtain ⟨h1, h2, h3, h4⟩ := of_decide_eq_true key
    refine ⟨r, hr, h1, h2, 1, h3, ?_⟩
    obtain ⟨v, hv, h0⟩ := Option.map_eq_some_iff.1 h4
    rw [hv]
    congr 1
    funext i
    rw [Fin.fin_one_eq_zero i]
    exact h0
  · cases key

/-- Not vacuous: the run above meets the hypotheses; its better point is a sample. -/
example : ∃ r, tranquiloR (toyConfig 1 100 2 (.classic 0)) lowerEndComponents (fun _ => 2) 2 noBounds = .ok r ∧
    SampledForModel lowerEndComponents r (fun _ => 0) := by
  obtain ⟨r, hr, h1, -, i, -, h3⟩ := C137_violated_by_samples
  refine ⟨r, hr, ?_⟩
  have hf : FilterSelectsR lowerEndComponents := by
    intro state log target nEvals l r hr
    cases hr
    exact ⟨l, List.subset_cons_self _ _, rfl⟩
  rcases C137_better_points_are_samples_partial hf (by decide) (fun m zc zp a b h => by cases h)
    (by simp [toyConfig, DeciderChoice.minImprovement]) (g := fun v => v 0 ^ 2) (fun k v => rfl) hr _
    (List.mem_of_getElem? h3) with h | h
  · simp only [toyConfig, DeciderChoice.minImprovement] at h
    rw [h1] at h
    norm_num at h
  · exact h

/-- The residual: `1`, `-1/2` and `3/4` at the points `1`, `11/10` and `9/10`, and `9/10` elsewhere. -/
def bumpyResidual (x : ℚ) : ℚ := if x = 1 then 1 else if x = 11 / 10 then -1 / 2 else if x = 9 / 10 then 3 / 4 else 9 / 10

/-- The solver of the normal equations for two coefficients, and Newton's step for the subproblem. -/
def bumpyExternals : Externals ℚ Unit 1 1 :=
  { coresExternals with
    lstsq := fun _ _ a y k =>
      let col : ℕ → _ → ℚ := fun l s => ∑ j, if j.val = l then a s j else 0
      let s0 := ∑ s, col 0 s * col 0 s
      let s1 := ∑ s, col 0 s * col 1 s
      let s2 := ∑ s, col 1 s * col 1 s
      let y0 := ∑ s, col 0 s * y s
      let y1 := ∑ s, col 1 s * y s
      if k.val = 0 then (s2 * y0 - s1 * y1) / (s0 * s2 - s1 * s1) else (s0 * y1 - s1 * y0) / (s0 * s2 - s1 * s1)
    oracle := fun _ x => .fin (bumpyResidual (x 0) ^ 2)
    data := fun log i _ => match log.xs[i]? with
      | some x => .fin (bumpyResidual (x 0))
      | none => .nan
    start := fun _ _ => 1
    solver := fun _ _ model _ => .ok ⟨fun i => match model.squareTerms with
      | some h => max (-1) (min 1 (-(model.linearTerms i) / h i i))
      | none => 0, 1, true⟩ }

/-- The same in a call with default options and a least squares solver that solves the normal equations: the result `16/15`
has the value `81/100`, the sampled point `11/10` the value `1/4`. -/
theorem C137_violated_default_call :
    ∃ r, tranquiloCall plainEnv bumpyExternals { functype := "least_squares", x := [], maxIter := .int 1 } (fun _ => 1)
        ⟨fun _ => none, fun _ => none⟩ = .ok (some r) ∧
      r.state.x 0 = 16 / 15 ∧ r.state.fval = .fin (81 / 100) ∧ r.log.xs.map (fun v => v 0) = [1, 11 / 10, 9 / 10, 16 / 15] ∧
      r.log.evals = [(0, .fin 1), (1, .fin (1 / 4)), (2, .fin (9 / 16)), (3, .fin (81 / 100))] := by
  have key : (match tranquiloCall plainEnv bumpyExternals { functype := "least_squares", x := [], maxIter := .int 1 }
        (fun _ => 1) ⟨fun _ => none, fun _ => none⟩ with
      | .ok (some r) => decide (r.state.x 0 = 16 / 15) && decide (r.state.fval = .fin (81 / 100)) &&
          decide (r.log.xs.map (fun v : Vec ℚ 1 => v 0) = [1, 11 / 10, 9 / 10, 16 / 15]) &&
          decide (r.log.evals = [(0, .fin 1), (1, .fin (1 / 4)), (2, .fin (9 / 16)), (3, .fin (81 / 100))])
      | _ => false) = true := by
    decide +kernel
  split at key
  · rename_i r hr
    simp only [Bool.and_eq_true, decide_eq_true_eq] at key
    exact ⟨r, hr, key.1.1.1, key.1.1.2, key.1.2, key.2⟩
  · cases key

end Tranquilo
