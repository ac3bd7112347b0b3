import Verif.Spec.StateDocs
import Verif.Lemmas.RunsLonger
import Verif.Lemmas.Steps
import Verif.Props.MainLoopRaise
import Verif.Props.CallGuarantees

/-!
# C134: the states of the result describe the iterations as documented
-/

namespace Tranquilo

variable {K : Type} [Field K] [LinearOrder K] {n : Nat} {VM SM : Type}

section step

variable [FloorRing K] {c : Config K} {comp : ComponentsR K n VM SM}

omit [FloorRing K] in
theorem acceptSimple_candidate (nrm : Vec K n → K) (oracle : Oracle K n) (m : K) (ne : Nat) (sub : SubSolution K n)
    (old : Current K n) (h : Log K n) :
    ∃ cf ci rho acc, (acceptSimple nrm oracle m ne sub old h).2 = finishDecision nrm sub.x cf ci rho acc old ne := by
  unfold acceptSimple
  exact ⟨_, _, _, _, rfl⟩

theorem acceptNoisy_candidate (nrm : Vec K n → K) (oracle : Oracle K n) (m s zc zp : K) (n1 n2 : Nat)
    (sub : SubSolution K n) (old : Current K n) (h : Log K n) :
    ∃ cf ci rho acc ne, (acceptNoisy nrm oracle m s zc zp n1 n2 sub old h).2
      = finishDecision nrm sub.x cf ci rho acc old ne := by
  unfold acceptNoisy
  exact ⟨_, _, _, _, _, rfl⟩

/-- How a decision ends. -/
theorem runDeciderR_finish {it : Nat} {sigma : Option (Option K)} {sub : SubSolution K n} {cur : Current K n}
    {log : Log K n} {d : Log K n × AcceptanceResult K n} (h : runDeciderR c comp it sigma sub cur log = .ok d) :
    ∃ cx cf ci rho acc ne, d.2 = finishDecision comp.nrm cx cf ci rho acc cur ne ∧
      (((∀ m rf, c.decider ≠ .lineSearch m rf) ∨ c.batchSize = 1) → cx = sub.x) := by
  unfold runDeciderR at h
  split at h
  · rename_i m hdec
    injection h with h
    unfold acceptClassic at h
    obtain ⟨cf, ci, rho, acc, e⟩ := acceptSimple_candidate comp.nrm comp.oracle m 1 sub cur log
    exact ⟨_, cf, ci, rho, acc, _, h ▸ e, fun _ => rfl⟩
  · rename_i m hdec
    injection h with h
    unfold acceptNaiveNoisy at h
    obtain ⟨cf, ci, rho, acc, e⟩ := acceptSimple_candidate comp.nrm comp.oracle m _ sub cur log
    exact ⟨_, cf, ci, rho, acc, _, h ▸ e, fun _ => rfl⟩
  · split at h
    · injection h with h
      obtain ⟨cf, ci, rho, acc, ne, e⟩ := acceptNoisy_candidate comp.nrm comp.oracle _ _ _ _ _ _ sub cur log
      exact ⟨_, cf, ci, rho, acc, ne, h ▸ e, fun _ => rfl⟩
    · cases h
    · cases h
  · rename_i m rf hdec
    unfold acceptLineSearchR at h
    split at h
    · injection h with h
      unfold acceptClassic at h
      obtain ⟨cf, ci, rho, acc, e⟩ := acceptSimple_candidate comp.nrm comp.oracle m 1 sub cur log
      exact ⟨_, cf, ci, rho, acc, _, h ▸ e, fun _ => rfl⟩
    · rename_i hb
      obtain ⟨xs, -, h⟩ := bindOk h
      unfold finishLineSearchR at h
      obtain ⟨q, -, h⟩ := bindOk h
      injection h with h
      refine ⟨_, _, _, _, _, _, (congrArg Prod.snd h).symm, fun h => ?_⟩
      rcases h with h | h
      · exact absurd hdec (h _ _)
      · exact absurd h hb

/-- The model of an iteration with the points and the history that were used. -/
theorem buildPhaseR_fitted {it : Nat} {state : LoopState K n VM SM} {log : Log K n} {nEvals : Int}
    {p : List Nat × Build K n VM SM} (h : buildPhaseR c comp it state log nEvals = .ok p) :
    comp.solve p.2.model state.trustregion = .ok p.2.sub ∧ ∃ vm,
      comp.fit p.2.log p.2.modelIndices state.trustregion state.vectorModel = .ok vm ∧
      comp.aggregate vm = .ok p.2.model := by
  refine buildPhaseR_property (Q := fun b => comp.solve b.model state.trustregion = .ok b.sub ∧ ∃ vm,
    comp.fit b.log b.modelIndices state.trustregion state.vectorModel = .ok vm ∧ comp.aggregate vm = .ok b.model) ?_ h
  intro log xs is b h
  unfold buildModelR at h
  obtain ⟨vm, h1, h⟩ := bindOk h
  obtain ⟨sm, h2, h⟩ := bindOk h
  obtain ⟨sub, h3, h⟩ := bindOk h
  cases h
  exact ⟨h3, _, h1, h2⟩

/-- What an iteration adds to the list of states. -/
theorem iterationR_describes {it : Nat} {r r' : Run K n VM SM} {last : LoopState K n VM SM}
    (hx : r.state.x = last.x) (hi : r.state.index = last.index) (hv : r.state.fval = last.fval)
    (hc : r.state.trustregion.center = last.x) (hB : r.state.trustregion.bounds = last.trustregion.bounds)
    (h : iterationR c comp it r = .ok r') :
    ∃ s, r'.states = r.states ++ [s] ∧ DescribesIteration comp r'.log last s ∧
      (((∀ m rf, c.decider ≠ .lineSearch m rf) ∨ c.batchSize = 1) → CandidateSolves comp s ∨
        (s.candidateX = last.x ∧ s.rho = .ninf ∧ s.accepted = false)) ∧
      r'.state.x = s.x ∧ r'.state.index = s.index ∧ r'.state.fval = s.fval ∧
      r'.state.trustregion.center = s.x ∧ r'.state.trustregion.bounds = s.trustregion.bounds := by
  unfold iterationR at h
  obtain ⟨p, h1, h⟩ := bindOk h
  obtain ⟨sigma, -, h⟩ := bindOk h
  obtain ⟨d, h3, h⟩ := bindOk h
  dsimp only at h
  obtain ⟨next, -, h⟩ := bindOk h
  cases h
  obtain ⟨hsol, vm, hfit, hagg⟩ := buildPhaseR_fitted h1
  obtain ⟨cx, cf, ci, rho, acc, ne, hd, hcx⟩ := runDeciderR_finish h3
  have hlog := runDeciderR_log h3
  have hcur : r.state.current.x = last.x ∧ r.state.current.index = last.index ∧ r.state.current.fval = last.fval ∧
      r.state.current.trustregion = r.state.trustregion := ⟨hx, hi, hv, rfl⟩
  have hend : ∀ q, (endIterationR c comp r.state (stateR r.state r.nEvals p.1 p.2 d.2)
        (r.states ++ [stateR r.state r.nEvals p.1 p.2 d.2]) d.1 d.2 next) = q →
      q.log = d.1 ∧ q.states = r.states ++ [stateR r.state r.nEvals p.1 p.2 d.2] ∧ q.state.x = d.2.x ∧
      q.state.index = d.2.index ∧ q.state.fval = d.2.fval ∧ q.state.trustregion.center = d.2.x ∧
      q.state.trustregion.bounds = r.state.trustregion.bounds := by
    rintro q rfl
    unfold endIterationR
    dsimp only
    split
    · exact ⟨rfl, rfl, rfl, rfl, rfl, rfl, rfl⟩
    · split_ifs <;> exact ⟨rfl, rfl, rfl, rfl, rfl, rfl, rfl⟩
  obtain ⟨e1, e2, e3, e4, e5, e6, e7⟩ := hend _ rfl
  refine ⟨_, e2, ⟨⟨hc, hB⟩, ?_, ?_, ?_, ?_, ?_⟩, ?_, e3, e4, e5, e6, e7⟩
  · rw [e1]
    exact ⟨p.2.log, vm, hlog.1, hlog.2, hfit, hagg⟩
  · show d.2.accepted = true → d.2.x = d.2.candidateX ∧ d.2.index = d.2.candidateIndex
    rw [hd]
    unfold finishDecision
    split
    · intro h; simp only [getAcceptanceResult] at h ⊢; simp [h]
    · intro h; cases h
  · show d.2.accepted = false → d.2.x = last.x ∧ d.2.index = last.index ∧ d.2.fval = last.fval
    rw [hd, ← hcur.1, ← hcur.2.1, ← hcur.2.2.1]
    unfold finishDecision
    split
    · intro h; simp only [getAcceptanceResult] at h ⊢; simp [h]
    · intro _; simp [getAcceptanceResult]
  · show some d.2.stepLength = some (comp.nrm fun i => d.2.x i - r.state.trustregion.center i)
    rw [hd, hc, ← hcur.1]
    unfold finishDecision
    split <;> rfl
  · show r.state.trustregion.radius ≠ 0 → ∃ q, some d.2.relativeStepLength = some (.fin q) ∧
      some d.2.stepLength = some (q * r.state.trustregion.radius)
    intro h0
    have : d.2.relativeStepLength = XVal.divFin d.2.stepLength r.state.trustregion.radius := by
      rw [hd]
      unfold finishDecision
      split <;> rfl
    refine ⟨d.2.stepLength / r.state.trustregion.radius, ?_, ?_⟩
    · rw [this]; simp [XVal.divFin, h0]
    · rw [div_mul_cancel₀ _ h0]
  · intro hno
    have hcand : d.2.candidateX = cx ∨ (d.2.candidateX = last.x ∧ d.2.rho = .ninf ∧ d.2.accepted = false) := by
      rw [hd, ← hcur.1]
      unfold finishDecision
      split
      · exact Or.inl rfl
      · exact Or.inr ⟨rfl, rfl, rfl⟩
    rcases hcand with h | h
    · exact Or.inl ⟨p.2.sub, hsol, h.trans (hcx hno)⟩
    · exact Or.inr h

end step

/-- C134 for runs with any components: every state that follows another one describes its iteration. Without line search
(or with batch size one), the candidate is the solution of the subproblem, or the criterion is not finite there; then
the state holds the old point as candidate. -/
theorem C134_states_describe_iterations_partial [FloorRing K] {c : Config K} {ce : ComponentsR K n VM SM}
    {x : Vec K n} {radius : K} {bounds : Bounds K n} {r : Run K n VM SM}
    (hr : tranquiloR c ce x radius bounds = .ok r) {k : Nat} {old new : LoopState K n VM SM}
    (h0 : r.states[k]? = some old) (h1 : r.states[k + 1]? = some new) :
    DescribesIteration ce r.log old new ∧
    (((∀ m rf, c.decider ≠ .lineSearch m rf) ∨ c.batchSize = 1) → CandidateSolves ce new ∨
      (new.candidateX = old.x ∧ new.rho = .ninf ∧ new.accepted = false)) := by
  let P : Run K n VM SM → Prop := fun r =>
    (∃ pre last, r.states = pre ++ [last] ∧ r.state.x = last.x ∧ r.state.index = last.index ∧
      r.state.fval = last.fval ∧ r.state.trustregion.center = last.x ∧
      r.state.trustregion.bounds = last.trustregion.bounds) ∧
    ∀ (k : Nat) old new, r.states[k]? = some old → r.states[k + 1]? = some new →
      DescribesIteration ce r.log old new ∧
      (((∀ m rf, c.decider ≠ .lineSearch m rf) ∨ c.batchSize = 1) → CandidateSolves ce new ∨
        (new.candidateX = old.x ∧ new.rho = .ninf ∧ new.accepted = false))
  have hP : P r := by
    refine tranquiloR_invariant P ?_ ?_ hr
    · intro r0 h0
      unfold startRunR at h0
      obtain ⟨sm, -, h0⟩ := bindOk h0
      cases h0
      refine ⟨⟨[], _, rfl, rfl, rfl, rfl, rfl, rfl⟩, ?_⟩
      intro k old new _ h
      simp at h
    · rintro it r r' ⟨⟨pre, last, p1, p2, p3, p4, p5, p6⟩, p7⟩ hit
      have hgrow := iterationR_begins hit
      obtain ⟨s, e1, e2, e3, e4⟩ := iterationR_describes p2 p3 p4 p5 p6 hit
      refine ⟨⟨_, s, e1, e4⟩, ?_⟩
      intro k old new h h'
      rw [e1] at h h'
      by_cases hk : k + 1 < r.states.length
      · rw [List.getElem?_append_left (by omega)] at h h'
        obtain ⟨d, dc⟩ := p7 k old new h h'
        obtain ⟨log', vm, q1, q2, q3⟩ := d.model
        exact ⟨⟨d.region, ⟨log', vm, q1.trans hgrow.points, q2.trans hgrow.evaluations, q3⟩, d.accepted, d.rejected,
          d.step, d.relative⟩, dc⟩
      · have hlen : r.states.length = pre.length + 1 := by rw [p1]; simp
        have hk' : k = pre.length := by
          have := (List.getElem?_eq_some_iff.1 h').1
          simp at this
          omega
        subst hk'
        have hnew : new = s := by
          rw [← hlen] at h'
          simpa using h'.symm
        have hold : old = last := by
          rw [List.getElem?_append_left (by omega), p1] at h
          simpa using h.symm
        rw [hnew, hold]
        exact ⟨e2, e3⟩
  exact hP.2 k old new h0 h1

/-- C134 for calls: with arbitrary arguments, every state of the result that follows another one describes its iteration;
`b` are the built-in components that the arguments choose. -/
theorem C134_call_partial [IsStrictOrderedRing K] [FloorRing K] {O : Type} {m : Nat} {env : PyEnv K O}
    {ext : Externals K O n m} {a : Arguments K O (Option (Piece K n))} {x : Vec K n} {bounds : Bounds K n}
    {r : Run K n (VectorModel K n m) (ScalarModel K n)} (hr : tranquiloCall env ext a x bounds = .ok (some r)) :
    ∃ c b radius, CallUses env ext a x c b radius ∧
      ∀ (k : Nat) old new, r.states[k]? = some old → r.states[k + 1]? = some new →
        DescribesIteration (builtinComponents b) r.log old new ∧
        (((∀ m rf, c.decider ≠ .lineSearch m rf) ∨ c.batchSize = 1) → CandidateSolves (builtinComponents b) new ∨
          (new.candidateX = old.x ∧ new.rho = .ninf ∧ new.accepted = false)) := by
  obtain ⟨c, b, radius, hrun, hu⟩ := C118_run_uses_the_arguments env ext a x bounds r hr
  exact ⟨c, b, radius, hu, fun k old new h0 h1 => C134_states_describe_iterations_partial hrun h0 h1⟩

/-- The solutions of the subproblems of the example runs. -/
theorem toy_candidate {oracle : Oracle ℚ 1} {s : LoopState ℚ 1 ℚ ℚ} (h : CandidateSolves (toyComponentsR oracle) s) :
    s.candidateX 0 = s.trustregion.center 0 / 2 := by
  obtain ⟨sub, h1, h2⟩ := h
  rw [h2]
  simp only [toyComponentsR] at h1
  split at h1
  · cases h1; rfl
  · cases h1

/-- The documentation is wrong about the candidate with the line search: the candidate is the best point on the line
through the solution of the subproblem (the solution is `1`, the candidate `0`). -/
theorem C134_violated_by_line_search :
    ∃ r s, tranquiloR (toyConfig 2 100 2 (.lineSearch 0 1)) (toyComponentsR fun _ v => .fin (v 0 ^ 2)) (fun _ => 2) 1
        noBounds = .ok r ∧ r.states[1]? = some s ∧ s.accepted = true ∧
      ¬ CandidateSolves (toyComponentsR fun _ v => .fin (v 0 ^ 2)) s := by
  have key : (match tranquiloR (toyConfig 2 100 2 (.lineSearch 0 1)) (toyComponentsR fun _ v => .fin (v 0 ^ 2))
        (fun _ => 2) 1 noBounds with
      | .ok r => match r.states[1]? with
        | some s => decide (s.accepted = true ∧ s.candidateX 0 = 0 ∧ s.trustregion.center 0 = 2)
        | none => false
      | _ => false) = true := by
    decide +kernel
  split at key
  · rename_i r hr
    split at key
    · rename_i s hs
      simp only [decide_eq_true_eq] at key
      refine ⟨r, s, hr, hs, key.1, fun h => ?_⟩
      have := toy_candidate h
      rw [key.2.1, key.2.2] at this
      norm_num at this
    · cases key
  · cases key

/-- The documentation is wrong about the candidate if the criterion is not finite at the solution of the subproblem: the
state then holds the current point as candidate (the solution is `1`, the stored candidate `2`). -/
theorem C134_violated_by_failed_evaluation :
    ∃ r s, tranquiloR (toyConfig 2 100 2 (.classic 0))
        (toyComponentsR fun _ v => if v 0 = 1 then .nan else .fin (v 0 ^ 2)) (fun _ => 2) 1 noBounds = .ok r ∧
      r.states[1]? = some s ∧ s.candidateX 0 = s.trustregion.center 0 ∧
      ¬ CandidateSolves (toyComponentsR fun _ v => if v 0 = 1 then .nan else .fin (v 0 ^ 2)) s := by
  have key : (match tranquiloR (toyConfig 2 100 2 (.classic 0))
        (toyComponentsR fun _ v => if v 0 = 1 then .nan else .fin (v 0 ^ 2)) (fun _ => 2) 1 noBounds with
      | .ok r => match r.states[1]? with
        | some s => decide (s.candidateX 0 = 2 ∧ s.trustregion.center 0 = 2)
        | none => false
      | _ => false) = true := by
    decide +kernel
  split at key
  · rename_i r hr
    split at key
    · rename_i s hs
      simp only [decide_eq_true_eq] at key
      refine ⟨r, s, hr, hs, key.1.trans key.2.symm, fun h => ?_⟩
      have := toy_candidate h
      rw [key.1, key.2] at this
      norm_num at this
    · cases key
  · cases key

/-- C134 applies to this run without line search: the states of an accepted step exist, and the candidate of the second
one is the solution of its subproblem. -/
example : ∃ r old new, tranquiloR (toyConfig 2 100 2 (.classic 0)) (toyComponentsR fun _ v => .fin (v 0 ^ 2))
      (fun _ => 2) 1 noBounds = .ok r ∧ r.states[0]? = some old ∧ r.states[1]? = some new ∧ new.accepted = true ∧
    new.x = new.candidateX ∧ CandidateSolves (toyComponentsR fun _ v => .fin (v 0 ^ 2)) new ∧
    new.stepLength = some |new.x 0 - old.x 0| := by
  have key : (match tranquiloR (toyConfig 2 100 2 (.classic 0)) (toyComponentsR fun _ v => .fin (v 0 ^ 2))
        (fun _ => 2) 1 noBounds with
      | .ok r => match r.states[0]?, r.states[1]? with
        | some _, some new => new.accepted
        | _, _ => false
      | _ => false) = true := by
    decide +kernel
  split at key
  · rename_i r hr
    split at key
    · rename_i old new h0 h1
      obtain ⟨d, dc⟩ := C134_states_describe_iterations_partial hr h0 h1
      refine ⟨r, old, new, hr, h0, h1, key, (d.accepted key).1, ?_, ?_⟩
      · rcases dc (Or.inl (fun m rf h => by cases h)) with h | h
        · exact h
        · rw [key] at h; cases h.2.2
      · rw [d.step, d.region.1]; rfl
    · cases key
  · cases key

end Tranquilo
