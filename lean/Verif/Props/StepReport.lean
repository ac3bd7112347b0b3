import Verif.Spec.StepReport
import Verif.Props.StateDocs
import Verif.Props.ExactModels
import Verif.Props.CallGuarantees
import Verif.Props.MainLoopWitness

/-!
# C136: rho and the decision of every iteration
-/

namespace Tranquilo

variable {K : Type} [Field K] [LinearOrder K] [IsStrictOrderedRing K] {n : Nat} {VM SM : Type}

theorem calculateRho_isRatio (actual expected : K) : IsRatio actual expected (calculateRho (.fin actual) expected) := by
  unfold calculateRho
  refine ⟨fun h => ⟨actual / expected, ?_, div_mul_cancel₀ _ h⟩, fun h ha => ?_, fun h ha => ?_⟩
  · rw [if_neg (fun h' => h h'.1), if_neg h]
    rfl
  · rw [if_pos ⟨h, by simpa using ha⟩]
  · rw [if_neg (by rintro ⟨-, h'⟩; exact ha (by simpa using h')), if_pos h]

/-- The noisy decider on criteria without noise, if it evaluates the proposal at least once. -/
theorem acceptNoisy_exact [FloorRing K] (nrm : Vec K n → K) (oracle : Oracle K n) (m sigma zc zp : K) {nMin nMax : Nat}
    (h1 : 1 ≤ nMin) (h2 : nMin ≤ nMax) (sub : SubSolution K n) (cur : Current K n) (h : Log K n)
    (hc : h.Consistent oracle) {g : Vec K n → K} (hdet : ∀ k x, oracle k x = .fin (g x))
    (hx : h.xs[cur.index]? = some cur.x) (hv : ∃ v, (cur.index, v) ∈ h.evals) :
    (acceptNoisy nrm oracle m sigma zc zp nMin nMax sub cur h).2.rho
      = calculateRho (.fin (g cur.x - g sub.x)) sub.expectedImprovement ∧
    (m ≤ g cur.x - g sub.x → (acceptNoisy nrm oracle m sigma zc zp nMin nMax sub cur h).2.accepted = true) ∧
    ((acceptNoisy nrm oracle m sigma zc zp nMin nMax sub cur h).2.accepted = true →
      g (acceptNoisy nrm oracle m sigma zc zp nMin nMax sub cur h).2.x ≤ g sub.x) := by
  have hlt := (List.getElem?_eq_some_iff.1 hx).1
  generalize hs : getAcceptanceSampleSizes sigma ((h.addX sub.x).1.fvals cur.index).length sub.expectedImprovement zc zp
    nMin nMax = sizes
  obtain ⟨n1, n2⟩ := sizes
  have hn2 := (C19_sample_sizes_within_limits _ _ _ _ _ _ _ h2 _ _ hs).1
  set req := [(cur.index, n1.toNat), (h.xs.length, n2.toNat)] with hreq
  set h' := (h.addX sub.x).1.evaluate oracle req with hh'
  have hgrow : Grows oracle (fun _ => True) h h' :=
    (Grows.refl.addX trivial).eval _ (by simp [hreq, Log.addX]; omega) (by simp [hreq]; omega)
  have hcons := hgrow.consistent hc
  have hxc : h'.xs[cur.index]? = some cur.x := getElem?_of_prefix hgrow.xs_prefix hx
  have hxs : h'.xs[h.xs.length]? = some sub.x := by
    rw [hh', Log.evaluate_xs]; simp [Log.addX]
  have hnil : h'.fvals h.xs.length ≠ [] := by
    have e2 := Log.fvals_length_evaluate oracle (h.addX sub.x).1 req h.xs.length (by simp [Log.addX])
    have e3 := count_flatMap_ge req h.xs.length n2.toNat (by simp [hreq])
    intro h0
    rw [← hh', h0, List.length_nil] at e2
    omega
  have hnilc : h'.fvals cur.index ≠ [] := by
    obtain ⟨v, hv⟩ := hv
    have e1 : 0 < (h.fvals cur.index).length := by
      unfold Log.fvals
      rw [List.length_map]
      exact List.length_pos_of_mem (List.mem_filter.2 ⟨hv, by simp⟩)
    have e2 := Log.fvals_length_evaluate oracle (h.addX sub.x).1 req cur.index (by simp [Log.addX]; omega)
    have e3 : (h.addX sub.x).1.fvals cur.index = h.fvals cur.index := rfl
    intro h0
    rw [← hh', h0, List.length_nil, e3] at e2
    omega
  have m1 : XVal.mean (h'.fvals h.xs.length) = .fin (g sub.x) :=
    mean_const _ _ hnil (hcons.fvals_eq (f := fun x => .fin (g x)) hdet hxs)
  have m2 : XVal.mean (h'.fvals cur.index) = .fin (g cur.x) :=
    mean_const _ _ hnilc (hcons.fvals_eq (f := fun x => .fin (g x)) hdet hxc)
  have hres : (acceptNoisy nrm oracle m sigma zc zp nMin nMax sub cur h).2 = finishDecision nrm sub.x
      (XVal.mean (h'.fvals h.xs.length)) h.xs.length
      (calculateRho (-(XVal.mean (h'.fvals h.xs.length) - XVal.mean (h'.fvals cur.index))) sub.expectedImprovement)
      (decide (XVal.fin m ≤ -(XVal.mean (h'.fvals h.xs.length) - XVal.mean (h'.fvals cur.index)))) cur n2 := by
    unfold acceptNoisy
    dsimp only
    rw [hs]
    rfl
  have hact : -(XVal.mean (h'.fvals h.xs.length) - XVal.mean (h'.fvals cur.index)) = .fin (g cur.x - g sub.x) := by
    rw [m1, m2]
    show XVal.fin (-(g sub.x + -g cur.x)) = _
    congr 1; ring
  rw [hact, m1] at hres
  obtain ⟨f1, f2, -, -, f5, -⟩ := finish_spec nrm sub.x (.fin (g sub.x)) h.xs.length
    (calculateRho (.fin (g cur.x - g sub.x)) sub.expectedImprovement)
    (decide (XVal.fin m ≤ .fin (g cur.x - g sub.x))) cur n2
  rw [← hres] at f1 f2 f5
  refine ⟨(f5 rfl).1, fun hm => f1.2 ⟨by simpa using hm, rfl⟩, fun ha => ?_⟩
  rw [(f2 ha).1]

/-- The decision of an iteration on criteria without noise, for all deciders. -/
theorem runDecider_reports [FloorRing K] (c : Config K) (cp : Components K n VM SM) (it : Nat) (hd : EvaluatesProposals c)
    (log : Log K n) (region : Region K n) (sub : SubSolution K n) (cur : Current K n) (h : Log K n)
    (hc : h.Consistent cp.oracle) {g : Vec K n → K} (hdet : ∀ k x, cp.oracle k x = .fin (g x))
    (hcur : cur.fval = .fin (g cur.x)) (hx : h.xs[cur.index]? = some cur.x) (hv : ∃ v, (cur.index, v) ∈ h.evals) :
    (runDecider c cp it log region sub cur h).2.rho
      = calculateRho (.fin (g cur.x - g sub.x)) sub.expectedImprovement ∧
    (c.decider.minImprovement ≤ g cur.x - g sub.x →
      (runDecider c cp it log region sub cur h).2.accepted = true) ∧
    ((runDecider c cp it log region sub cur h).2.accepted = true →
      g (runDecider c cp it log region sub cur h).2.x ≤ g sub.x) := by
  by_cases hdec : ∀ m zc zp a b, c.decider ≠ .noisy m zc zp a b
  · obtain ⟨d1, d2, d3, -⟩ := runDecider_exact c cp it hdec log region sub cur h hc hdet hcur
    exact ⟨d1, d2, d3⟩
  · push Not at hdec
    obtain ⟨m, zc, zp, a, b, e⟩ := hdec
    obtain ⟨h1, h2⟩ := hd _ _ _ _ _ e
    unfold runDecider
    rw [e]
    exact acceptNoisy_exact cp.nrm cp.oracle m _ zc zp h1 h2 sub cur h hc hdet hx hv

/-- The proposals, the decisions about them and the values of accepted points. -/
theorem tranquiloR_reports [FloorRing K] {c : Config K} {ce : ComponentsR K n VM SM} (hf : FilterSelectsR ce)
    (hb : 1 ≤ c.batchSize) (hdec : EvaluatesProposals c) {g : Vec K n → K}
    (hdet : ∀ k x, ce.oracle k x = .fin (g x)) {x : Vec K n} {radius : K} {bounds : Bounds K n} {r : Run K n VM SM}
    (hr : tranquiloR c ce x radius bounds = .ok r) :
    ∀ s ∈ r.states.tail, ∃ sub, ce.solve s.model s.trustregion = .ok sub ∧
      s.rho = calculateRho (.fin (g s.trustregion.center - g sub.x)) sub.expectedImprovement ∧
      s.fval = .fin (g s.x) ∧
      (c.decider.minImprovement ≤ g s.trustregion.center - g sub.x → s.accepted = true) ∧
      (s.accepted = true → g s.x ≤ g sub.x ∧
        ImprovesBy c.decider.minImprovement (.fin (g s.trustregion.center)) s.fval) := by
  set cp := ce.total (fallbackComponents ce r.state.model) with hcp
  have hreal : Realizes ce cp := ce.total_realizes _
  have hfil : FilterSelects cp := total_filterSelects _ hf
  have hdet' : ∀ k x, cp.oracle k x = .fin (g x) := hdet
  let P : Run K n VM SM → Prop := fun r => RunOk cp bounds r ∧
    DetOk cp (fun y => .fin (g y)) c.decider.minImprovement r ∧ r.states ≠ [] ∧
    ∀ s ∈ r.states.tail, ∃ sub, ce.solve s.model s.trustregion = .ok sub ∧
      s.rho = calculateRho (.fin (g s.trustregion.center - g sub.x)) sub.expectedImprovement ∧
      s.fval = .fin (g s.x) ∧
      (c.decider.minImprovement ≤ g s.trustregion.center - g sub.x → s.accepted = true) ∧
      (s.accepted = true → g s.x ≤ g sub.x ∧
        ImprovesBy c.decider.minImprovement (.fin (g s.trustregion.center)) s.fval)
  have hP : P r := by
    refine tranquiloR_invariant P ?_ ?_ hr
    · intro r0 h0
      have := startRunR_ok hreal h0
      rw [← this]
      exact ⟨startRun_ok c cp x radius bounds, startRun_det c cp hb hdet' x radius bounds, by simp [startRun],
        by simp [startRun]⟩
    · rintro it r r' ⟨p1, p2, p3, p4⟩ hit
      have heq := iterationR_ok hreal hit
      have hbuild : ce.solve (theBuild c cp it r).model r.state.trustregion = .ok (theBuild c cp it r).sub := by
        unfold iterationR at hit
        obtain ⟨p, h1, -⟩ := bindOk hit
        have h2 := buildPhaseR_ok hreal h1
        have h3 := (buildPhaseR_solved h1).1
        rw [← h2] at h3
        exact h3
      rw [← heq]
      have hnext := iteration_det c cp hfil hb hdet' bounds it r p1 p2
      refine ⟨iteration_ok c cp hfil bounds it r p1, hnext, ?_, ?_⟩
      · rw [iteration_eq]; simp
      · intro s hs
        have hmem := hs
        have hs' : s ∈ r.states.tail ∨ s = theState c cp it r := by
          rw [iteration_eq] at hs
          simp only at hs
          rw [List.tail_append_of_ne_nil p3] at hs
          simpa using hs
        rcases hs' with hs | rfl
        · exact p4 s hs
        · have hbg := (buildPhase_ok c cp it r.state r.log r.nEvals hfil p1.point).grows
          have hbc : (theBuild c cp it r).log.Consistent cp.oracle := hbg.consistent p1.consistent
          have hpoint := getElem?_of_prefix hbg.xs_prefix p1.point
          have hrec : ∃ v, (r.state.current.index, v) ∈ (theBuild c cp it r).log.evals :=
            ⟨_, hbg.evals_prefix.subset p2.recorded⟩
          obtain ⟨d1, d2, d3⟩ := runDecider_reports c cp it hdec (theBuild c cp it r).log r.state.trustregion
            (theBuild c cp it r).sub r.state.current (theBuild c cp it r).log hbc hdet' p2.value hpoint hrec
          have hcur : r.state.current.x = r.state.trustregion.center := p1.center.symm
          have hv : r.state.current.fval = .fin (g r.state.trustregion.center) := by
            rw [← hcur]
            exact p2.value
          rw [hcur] at d1 d2
          refine ⟨(theBuild c cp it r).sub, hbuild, d1, (hnext.values _ (List.mem_of_mem_tail hmem)).1, d2,
            fun hacc => ⟨d3 hacc, ?_⟩⟩
          have := decision_improves_det c cp it hb (theBuild c cp it r).log r.state.trustregion (theBuild c cp it r).sub
            r.state.current (theBuild c cp it r).log hbc hdet'
            hpoint p2.value hacc
          rw [hv] at this
          exact this
  exact hP.2.2.2

/-- C136 for runs with any components: on a criterion without noise, with finite values, every state after the first one
reports the ratio of actual and expected improvement, the value at its point and the decision. -/
theorem C136_states_report_the_steps [FloorRing K] {c : Config K} {ce : ComponentsR K n VM SM} (hf : FilterSelectsR ce)
    (hb : 1 ≤ c.batchSize) (hdec : EvaluatesProposals c) {g : Vec K n → K}
    (hdet : ∀ k x, ce.oracle k x = .fin (g x)) {x : Vec K n} {radius : K} {bounds : Bounds K n} {r : Run K n VM SM}
    (hr : tranquiloR c ce x radius bounds = .ok r) :
    ∀ s ∈ r.states.tail, ∃ sub, ce.solve s.model s.trustregion = .ok sub ∧
      StepReport c.decider.minImprovement g sub s := by
  intro s hs
  obtain ⟨sub, h1, h2, h3, h4, h5⟩ := tranquiloR_reports hf hb hdec hdet hr s hs
  refine ⟨sub, h1, ?_, h3, h4, fun hacc => ⟨?_, (h5 hacc).1⟩, fun hrej => ?_⟩
  · rw [h2]; exact calculateRho_isRatio _ _
  · have := (h5 hacc).2
    rw [h3] at this
    simpa [ImprovesBy] using this
  · obtain ⟨k, hk⟩ := List.mem_iff_getElem?.1 hs
    rw [List.getElem?_tail] at hk
    have hlt := (List.getElem?_eq_some_iff.1 hk).1
    obtain ⟨hd, -⟩ := C134_states_describe_iterations_partial hr (List.getElem?_eq_getElem (by omega)) hk
    rw [hd.region.1]
    exact (hd.rejected hrej).1

/-- Without the line search the step is accepted exactly if the proposal improves enough, and then it is taken. -/
theorem C136_accepted_iff [FloorRing K] {c : Config K} {ce : ComponentsR K n VM SM} (hf : FilterSelectsR ce)
    (hb : 1 ≤ c.batchSize) (hdec : EvaluatesProposals c)
    (hline : (∀ m rf, c.decider ≠ .lineSearch m rf) ∨ c.batchSize = 1) {g : Vec K n → K}
    (hdet : ∀ k x, ce.oracle k x = .fin (g x)) {x : Vec K n} {radius : K} {bounds : Bounds K n} {r : Run K n VM SM}
    (hr : tranquiloR c ce x radius bounds = .ok r) :
    ∀ s ∈ r.states.tail, ∃ sub, ce.solve s.model s.trustregion = .ok sub ∧
      (s.accepted = true ↔ c.decider.minImprovement ≤ g s.trustregion.center - g sub.x) ∧
      (s.accepted = true → s.x = sub.x) := by
  intro s hs
  obtain ⟨sub, h1, h2⟩ := C136_states_report_the_steps hf hb hdec hdet hr s hs
  have hx : s.accepted = true → s.x = sub.x := by
    intro hacc
    obtain ⟨k, hk⟩ := List.mem_iff_getElem?.1 hs
    rw [List.getElem?_tail] at hk
    have hlt := (List.getElem?_eq_some_iff.1 hk).1
    obtain ⟨hd, hcand⟩ := C134_states_describe_iterations_partial hr (List.getElem?_eq_getElem (by omega)) hk
    rcases hcand hline with ⟨sub', e1, e2⟩ | ⟨-, -, h⟩
    · rw [h1] at e1
      injection e1 with e1
      rw [(hd.accepted hacc).1, e2, e1]
    · rw [hacc] at h; cases h
  refine ⟨sub, h1, ⟨fun hacc => ?_, h2.taken⟩, hx⟩
  have := (h2.accepted hacc).1
  rwa [hx hacc] at this

/-- C136 for calls: with a named acceptance decider, on a criterion without noise, the states report the steps, with the
`min_improvement` that the user passed (default zero). The noisy decider needs `1 <= n_min <= n_max`. -/
theorem C136_call [FloorRing K] {O : Type} {m : Nat} {env : PyEnv K O} {ext : Externals K O n m}
    {a : Arguments K O (Option (Piece K n))} {x : Vec K n} {bounds : Bounds K n}
    {r : Run K n (VectorModel K n m) (ScalarModel K n)} (hr : tranquiloCall env ext a x bounds = .ok (some r))
    (hbatch : PositiveBatch env a)
    (hname : a.acceptanceDecider = none ∨ ∃ name, a.acceptanceDecider = some (.str name))
    (hlimits : ∀ nMin nMax : ℕ, Uses env a.acceptanceDeciderOptions "n_min" (.int 4) (.int nMin) →
      Uses env a.acceptanceDeciderOptions "n_max" (.int 50) (.int nMax) → 1 ≤ nMin ∧ nMin ≤ nMax) {g : Vec K n → K} (hdet : ∀ k y, ext.oracle k y = .fin (g y)) :
    ∃ c b radius mi, CallUses env ext a x c b radius ∧
      Uses env a.acceptanceDeciderOptions "min_improvement" (num 0) (num mi) ∧
      ∀ s ∈ r.states.tail, ∃ sub, (builtinComponents b).solve s.model s.trustregion = .ok sub ∧
        StepReport mi g sub s ∧
        ((a.acceptanceDecider ≠ some (.str "classic_line_search") ∨ c.batchSize = 1) →
          (s.accepted = true ↔ mi ≤ g s.trustregion.center - g sub.x) ∧ (s.accepted = true → s.x = sub.x)) := by
  obtain ⟨c, b, radius, hrun, hu⟩ := C118_run_uses_the_arguments env ext a x bounds r hr
  obtain ⟨name, hD, hl⟩ : ∃ name, DeciderIs env ext a.acceptanceDeciderOptions name c.decider ∧
      (a.acceptanceDecider ≠ some (.str "classic_line_search") → name ≠ "classic_line_search") := by
    rcases hname with h | ⟨name, h⟩
    · exact ⟨_, hu.decider _ (by rw [h]; rfl), fun _ => by split <;> decide⟩
    · exact ⟨name, hu.decider name (by rw [h]; rfl), fun h' e => h' (by rw [h, e])⟩
  have hmi : Uses env a.acceptanceDeciderOptions "min_improvement" (num 0) (num c.decider.minImprovement) ∧
      (∀ m zc zp a b, c.decider = .noisy m zc zp a b → 1 ≤ a ∧ a ≤ b) ∧
      (name ≠ "classic_line_search" → ∀ m rf, c.decider ≠ .lineSearch m rf) := by
    generalize c.decider = D at hD
    cases hD with
    | classic mi h => exact ⟨h, by simp, by simp⟩
    | naiveNoisy mi h => exact ⟨h, by simp, by simp⟩
    | noisy mi q1 q2 k l h =>
      refine ⟨h ("min_improvement", num 0, num mi) (by simp), ?_, by simp⟩
      rintro _ _ _ _ _ e
      cases e
      exact hlimits k l (h ("n_min", .int 4, .int k) (by simp)) (h ("n_max", .int 50, .int l) (by simp))
    | lineSearch mi f h => exact ⟨h ("min_improvement", num 0, num mi) (by simp), by simp, by simp⟩
  have hb : 1 ≤ c.batchSize := by exact_mod_cast hbatch _ hu.batchSize
  have hdet' : ∀ k y, (builtinComponents b).oracle k y = .fin (g y) := by
    intro k y
    show b.oracle k y = _
    rw [hu.criterion.1]
    exact hdet k y
  refine ⟨c, b, radius, _, hu, hmi.1, fun s hs => ?_⟩
  obtain ⟨sub, h1, h2⟩ := C136_states_report_the_steps (builtin_filterSelectsR b) hb hmi.2.1 hdet' hrun s hs
  refine ⟨sub, h1, h2, fun hl' => ?_⟩
  obtain ⟨sub', e1, e2⟩ := C136_accepted_iff (builtin_filterSelectsR b) hb hmi.2.1 (hl'.imp (fun h => hmi.2.2 (hl h)) id) hdet' hrun s hs
  rw [h1] at e1
  injection e1 with e1
  rw [e1]
  exact e2

/-- A case of C136: from `2` to `1` on `x ^ 2`, expected improvement `1`, actual improvement and `rho` are `3`; with a required
improvement of `4` the same step is rejected. -/
example : (∃ r s, tranquiloR (toyConfig 2 100 2 (.classic 0)) (toyComponentsR fun _ v => .fin (v 0 ^ 2)) (fun _ => 2) 1
      noBounds = .ok r ∧ r.states[1]? = some s ∧ s.accepted = true ∧ s.rho = .fin 3 ∧ s.fval = .fin 1) ∧
    (∃ r s, tranquiloR (toyConfig 2 100 2 (.classic 4)) (toyComponentsR fun _ v => .fin (v 0 ^ 2)) (fun _ => 2) 1
      noBounds = .ok r ∧ r.states[1]? = some s ∧ s.accepted = false ∧ s.rho = .fin 3 ∧ s.fval = .fin 4) ∧
    FilterSelectsR (toyComponentsR fun _ v => .fin (v 0 ^ 2)) := by
  have key : ∀ b : Bool, (match tranquiloR (toyConfig 2 100 2 (.classic (if b then 0 else 4)))
        (toyComponentsR fun _ v => .fin (v 0 ^ 2)) (fun _ => 2) 1 noBounds with
      | .ok r => match r.states[1]? with
        | some s => decide (s.accepted = b ∧ s.rho = .fin 3 ∧ s.fval = .fin (if b then 1 else 4))
        | none => false
      | _ => false) = true := by
    decide +kernel
  have get : ∀ b : Bool, ∃ r s, tranquiloR (toyConfig 2 100 2 (.classic (if b then 0 else 4)))
      (toyComponentsR fun _ v => .fin (v 0 ^ 2)) (fun _ => 2) 1 noBounds = .ok r ∧ r.states[1]? = some s ∧
      s.accepted = b ∧ s.rho = .fin 3 ∧ s.fval = .fin (if b then 1 else 4) := by
    intro b
    have key := key b
    split at key
    · rename_i r hr
      split at key
      · rename_i s hs
        exact ⟨r, s, hr, hs, of_decide_eq_true key⟩
      · cases key
    · cases key
  refine ⟨get true, get false, ?_⟩
  intro state log target nEvals l r hr
  cases hr
  exact ⟨l, List.subset_cons_self _ _, rfl⟩

/-- The example components for the noisy decider: the estimated noise is zero. -/
def quietComponents : ComponentsR ℚ 1 ℚ ℚ :=
  { toyComponentsR fun _ v => .fin (v 0 ^ 2) with
    noiseSigma := fun _ _ => .ok (some 0)
    rhoNoise := fun _ _ _ _ _ _ => .ok [.fin 1] }

/-- The noisy decider needs the limits: the same step with the default limits is accepted with `rho = 3`, with the limit
of zero evaluations the proposal is never evaluated, rejected, and `rho` is minus infinity. -/
theorem C136_noisy_decider_needs_evaluations :
    (∃ r s, tranquiloR { toyConfig 1 100 2 (.noisy 0 1 1 4 50) with noisy := true } quietComponents (fun _ => 2) 1
      noBounds = .ok r ∧ r.states[1]? = some s ∧ s.accepted = true ∧ s.rho = .fin 3 ∧ s.fval = .fin 1) ∧
    (∃ r s, tranquiloR { toyConfig 1 100 2 (.noisy 0 1 1 0 0) with noisy := true } quietComponents (fun _ => 2) 1
      noBounds = .ok r ∧ r.states[1]? = some s ∧ s.accepted = false ∧ s.rho = .ninf ∧ s.fval = .fin 4) := by
  have key : ∀ b : Bool, (match tranquiloR { toyConfig 1 100 2 (.noisy 0 1 1 (if b then 4 else 0) (if b then 50 else 0))
        with noisy := true } quietComponents (fun _ => 2) 1 noBounds with
      | .ok r => match r.states[1]? with
        | some s => decide (s.accepted = b ∧ s.rho = (if b then .fin 3 else .ninf) ∧ s.fval = .fin (if b then 1 else 4))
        | none => false
      | _ => false) = true := by
    decide +kernel
  have get : ∀ b : Bool, ∃ r s, tranquiloR { toyConfig 1 100 2
        (.noisy 0 1 1 (if b then 4 else 0) (if b then 50 else 0)) with noisy := true } quietComponents (fun _ => 2) 1
      noBounds = .ok r ∧ r.states[1]? = some s ∧ s.accepted = b ∧ s.rho = (if b then .fin 3 else .ninf) ∧
      s.fval = .fin (if b then 1 else 4) := by
    intro b
    have key := key b
    split at key
    · rename_i r hr
      split at key
      · rename_i s hs
        exact ⟨r, s, hr, hs, of_decide_eq_true key⟩
      · cases key
    · cases key
  exact ⟨get true, get false⟩

end Tranquilo
