import Verif.Props.StateDocs
import Verif.Props.Batches

/-!
# C134: the numbers of evaluations that the states report
-/

namespace Tranquilo

variable {K : Type} [Field K] [LinearOrder K] [IsStrictOrderedRing K] [FloorRing K] {n : Nat} {VM SM : Type}
  {c : Config K} {ce : ComponentsR K n VM SM}

omit [IsStrictOrderedRing K] [FloorRing K] in
theorem fvals_length_mono {a b : Log K n} (h : a.Ext b) (i : Nat) : (a.fvals i).length ≤ (b.fvals i).length := by
  obtain ⟨t, ht⟩ := h.2
  unfold Log.fvals
  rw [← ht, List.filter_append, List.map_append, List.length_append]
  omega

/-- The decider evaluates the proposal as often as it reports. -/
theorem runDeciderR_evals {it : Nat} {sigma : Option (Option K)} {sub : SubSolution K n} {cur : Current K n}
    {log : Log K n} {d : Log K n × AcceptanceResult K n} (h : runDeciderR c ce it sigma sub cur log = .ok d) :
    AcceptanceEvals c d.2.nEvalsAcceptance ∧ ∃ i, d.1.xs[i]? = some sub.x ∧
      d.2.nEvalsAcceptance ≤ (d.1.fvals i).length := by
  have heval : ∀ (req : List (Nat × Nat)) (pts : List (Vec K n)) (k : Nat), (log.xs.length, k) ∈ req →
      (((log.addX sub.x).1.addXs pts).1.evaluate ce.oracle req).xs[log.xs.length]? = some sub.x ∧
      k ≤ ((((log.addX sub.x).1.addXs pts).1.evaluate ce.oracle req).fvals log.xs.length).length := by
    intro req pts k hk
    refine ⟨by rw [Log.evaluate_xs]; simp [Log.addX, Log.addXs], ?_⟩
    rw [Log.fvals_length_evaluate _ _ _ _ (by simp [Log.addX, Log.addXs])]
    have := count_flatMap_ge req log.xs.length k hk
    omega
  have hnil : ∀ l : Log K n, (l.addXs []).1 = l := fun l => by simp [Log.addXs]
  have hsimple : ∀ m (ne : Nat), (acceptSimple ce.nrm ce.oracle m ne sub cur log).2.nEvalsAcceptance = ne ∧
      ∃ i, (acceptSimple ce.nrm ce.oracle m ne sub cur log).1.xs[i]? = some sub.x ∧
        (ne : ℤ) ≤ ((acceptSimple ce.nrm ce.oracle m ne sub cur log).1.fvals i).length := by
    intro m ne
    have := heval [(log.xs.length, ne)] [] ne (by simp)
    rw [hnil] at this
    refine ⟨?_, log.xs.length, this.1, by exact_mod_cast this.2⟩
    unfold acceptSimple
    exact (finish_spec _ _ _ _ _ _ _ _).2.2.2.2.2
  unfold runDeciderR at h
  unfold AcceptanceEvals
  split at h
  · rename_i m hdec
    injection h with h
    rw [← h]
    obtain ⟨h1, i, h2, h3⟩ := hsimple m 1
    exact ⟨by rw [hdec]; exact h1, i, h2, by rw [show (acceptClassic ce.nrm ce.oracle m sub cur log).2.nEvalsAcceptance = _ from h1]; exact h3⟩
  · rename_i m hdec
    injection h with h
    rw [← h]
    obtain ⟨h1, i, h2, h3⟩ := hsimple m 10
    exact ⟨by rw [hdec]; exact h1, i, h2, by rw [show (acceptNaiveNoisy ce.nrm ce.oracle m sub cur log).2.nEvalsAcceptance = _ from h1]; exact h3⟩
  · rename_i m zc zp nMin nMax hdec
    split at h
    · rename_i s
      injection h with h
      generalize hs : getAcceptanceSampleSizes s ((log.addX sub.x).1.fvals cur.index).length sub.expectedImprovement zc zp
        nMin nMax = sizes at *
      obtain ⟨n1, n2⟩ := sizes
      have e : d = (((log.addX sub.x).1.evaluate ce.oracle [(cur.index, n1.toNat), (log.xs.length, n2.toNat)]), d.2) ∧
          d.2.nEvalsAcceptance = n2 := by
        rw [← h]
        unfold acceptNoisy
        dsimp only
        rw [hs]
        exact ⟨rfl, (finish_spec _ _ _ _ _ _ _ _).2.2.2.2.2⟩
      have := heval [(cur.index, n1.toNat), (log.xs.length, n2.toNat)] [] n2.toNat (by simp)
      rw [hnil] at this
      refine ⟨?_, log.xs.length, ?_⟩
      · rw [hdec, e.2]
        intro hlim
        have := C19_sample_sizes_within_limits _ _ _ _ _ _ _ hlim _ _ hs
        exact ⟨this.1, this.2.1⟩
      · rw [e.2, e.1]
        exact ⟨this.1, by have := this.2; dsimp only; omega⟩
    · cases h
    · cases h
  · rename_i m rf hdec
    rw [hdec]
    unfold acceptLineSearchR at h
    split at h
    · injection h with h
      rw [← h]
      obtain ⟨h1, i, h2, h3⟩ := hsimple m 1
      exact ⟨h1, i, h2, by rw [show (acceptClassic ce.nrm ce.oracle m sub cur log).2.nEvalsAcceptance = _ from h1]; exact h3⟩
    · obtain ⟨newXs, g1, h⟩ := bindOk h
      unfold finishLineSearchR at h
      obtain ⟨q, -, h⟩ := bindOk h
      injection h with h
      rw [← h]
      have e := (finish_spec ce.nrm ((((((log.addX sub.x).1.addXs newXs).1.evaluate ce.oracle
        (((log.addX sub.x).2, 1) :: ((log.addX sub.x).1.addXs newXs).2.map fun i => (i, 1)))).xs[log.xs.length]?).getD sub.x)
        .nan 0 .nan true cur 1).2.2.2.2.2
      have := heval (((log.addX sub.x).2, 1) :: ((log.addX sub.x).1.addXs newXs).2.map fun i => (i, 1)) newXs 1
        (by simp [Log.addX])
      dsimp only
      rw [(finish_spec _ _ _ _ _ _ _ _).2.2.2.2.2]
      exact ⟨rfl, log.xs.length, this.1, by exact_mod_cast this.2⟩

/-- C134 for the number of evaluations: the number that a state reports for the acceptance step is the one of the decider,
and the solution of its subproblem has at least as many evaluations. -/
theorem C134_states_report_evaluations {x : Vec K n} {radius : K} {bounds : Bounds K n} {r : Run K n VM SM}
    (hr : tranquiloR c ce x radius bounds = .ok r) : ∀ s ∈ r.states.tail, ReportsEvaluations c ce r.log s := by
  refine (tranquiloR_invariant (fun r : Run K n VM SM => r.states ≠ [] ∧
    ∀ s ∈ r.states.tail, ReportsEvaluations c ce r.log s) ?_ ?_ hr).2
  · intro r h
    unfold startRunR at h
    obtain ⟨sm, -, h⟩ := bindOk h
    cases h
    exact ⟨by simp, by simp⟩
  · rintro it r r' ⟨p1, p2⟩ h
    have hb := iterationR_begins h
    unfold iterationR at h
    obtain ⟨p, h1, h⟩ := bindOk h
    obtain ⟨sigma, -, h⟩ := bindOk h
    obtain ⟨d, h3, h⟩ := bindOk h
    dsimp only at h
    obtain ⟨next, -, h⟩ := bindOk h
    injection h with h
    have e1 : r'.log = d.1 := by
      rw [← h]; unfold endIterationR; dsimp only; split
      · rfl
      · split <;> rfl
    have e2 : r'.states = r.states ++ [stateR r.state r.nEvals p.1 p.2 d.2] := by
      rw [← h]; unfold endIterationR; dsimp only; split
      · rfl
      · split <;> rfl
    rw [e2, List.tail_append_of_ne_nil p1]
    refine ⟨by simp, fun s hs => ?_⟩
    rcases List.mem_append.1 hs with hs | hs
    · obtain ⟨k, sub, i, a1, a2, a3, a4, a5⟩ := p2 s hs
      exact ⟨k, sub, i, a1, a2, a3, getElem?_of_prefix hb.points a4,
        a5.trans (by exact_mod_cast fvals_length_mono (a := r.log) (b := r'.log) ⟨hb.points, hb.evaluations⟩ i)⟩
    · obtain rfl := List.mem_singleton.1 hs
      obtain ⟨f1, i, f2, f3⟩ := runDeciderR_evals h3
      refine ⟨_, p.2.sub, i, rfl, f1, (buildPhaseR_solved h1).1, ?_⟩
      rw [e1]
      exact ⟨f2, f3⟩

/-- C134 for the number of evaluations in calls. -/
theorem C134_call_reports_evaluations {O : Type} {m : Nat} {env : PyEnv K O} {ext : Externals K O n m}
    {a : Arguments K O (Option (Piece K n))} {x : Vec K n} {bounds : Bounds K n}
    {r : Run K n (VectorModel K n m) (ScalarModel K n)} (hr : tranquiloCall env ext a x bounds = .ok (some r)) :
    ∃ c b radius, CallUses env ext a x c b radius ∧
      ∀ s ∈ r.states.tail, ReportsEvaluations c (builtinComponents b) r.log s := by
  obtain ⟨c, b, radius, hrun, hu⟩ := C118_run_uses_the_arguments env ext a x bounds r hr
  exact ⟨c, b, radius, hu, C134_states_report_evaluations hrun⟩

/-- Not vacuous: with the naive decider the second state of a run reports ten evaluations of its candidate, and the
history has a point with at least ten evaluations. -/
example : ∃ r s, tranquiloR (toyConfig 2 100 2 (.naiveNoisy 0)) (toyComponentsR fun _ v => .fin (v 0 ^ 2))
      (fun _ => 2) 1 noBounds = .ok r ∧ r.states[1]? = some s ∧ s.nEvalsAcceptance = some 10 ∧
    ∃ i, 10 ≤ (r.log.fvals i).length := by
  have key : (match tranquiloR (toyConfig 2 100 2 (.naiveNoisy 0)) (toyComponentsR fun _ v => .fin (v 0 ^ 2))
        (fun _ => 2) 1 noBounds with
      | .ok r => match r.states with
        | _ :: _ :: _ => true
        | _ => false
      | _ => false) = true := by
    decide +kernel
  split at key
  · rename_i r hr
    split at key
    · rename_i a s l hs
      obtain ⟨k, sub, i, h1, h2, -, -, h5⟩ := C134_states_report_evaluations hr s (by rw [hs]; simp)
      obtain rfl : k = 10 := h2
      exact ⟨r, s, hr, by rw [hs]; rfl, h1, i, by exact_mod_cast h5⟩
    · cases key
  · cases key

end Tranquilo
