import Verif.Lemmas.InOrder
import Verif.Props.CallUses
import Verif.Props.Cores
import Verif.Props.NoisyLimits

/-!
# Guarantees of whole calls, for arbitrary arguments
-/

namespace Tranquilo

variable {K O : Type} [Field K] [LinearOrder K] {n m : Nat}

/-! ## The filters select points, whatever their options are -/

theorem dropClose_selects (nrm : Vec K n → K) (x : Vec K n) (index k : Nat) (l : List (Vec K n × Nat))
    (p : Points K n) (h : dropClose index k (ofPairs nrm x l) (pairDists nrm (l.map Prod.fst)) = .ok p) :
    ∃ kept : List (Vec K n × Nat), kept ⊆ l ∧ p = ofPairs nrm x kept := by
  induction k generalizing l with
  | zero =>
    rw [dropClose] at h
    cases h
    exact ⟨l, List.Subset.refl _, rfl⟩
  | succ k ih =>
    rw [dropClose] at h
    split at h
    · cases h
    · dsimp only at h
      rw [delete_ofPairs, deleteCross_pairDists, eraseIdx_map'] at h
      obtain ⟨kept, h1, h2⟩ := ih _ h
      exact ⟨kept, fun q hq => List.mem_of_mem_eraseIdx (h1 hq), h2⟩

theorem dropWorst_selects (nrm : Vec K n → K) (x : Vec K n) (index : Nat) (radius : K)
    (l : List (Vec K n × Nat)) (k : Nat) (r : List (Vec K n) × List Nat)
    (h : dropWorst nrm x index radius (l.map Prod.fst) (l.map Prod.snd) k = .ok r) :
    ∃ kept : List (Vec K n × Nat), kept ⊆ l ∧ r = (kept.map Prod.fst, kept.map Prod.snd) := by
  unfold dropWorst at h
  split at h
  · have hof : (⟨l.map Prod.fst, l.map Prod.snd,
        (l.map Prod.fst).map fun y => nrm fun k => y k - x k⟩ : Points K n) = ofPairs nrm x l := by
      simp [ofPairs]
    rw [hof] at h
    obtain ⟨kept, -, left, h1, h2, -⟩ := dropOutside_spec nrm x radius k l
    rw [h1] at h
    dsimp only at h
    split at h
    · rw [except_bind_ok] at h
      obtain ⟨p, hp, h⟩ := h
      cases h
      obtain ⟨kept', h3, rfl⟩ := dropClose_selects nrm x index left kept p hp
      exact ⟨kept', fun q hq => h2.subset (h3 hq), rfl⟩
    · cases h
      exact ⟨kept, h2.subset, rfl⟩
  · cases h
    exact ⟨l, List.Subset.refl _, rfl⟩

/-- The built in filters select points with their indices if they return, also with senseless options. -/
theorem builtin_filterSelectsR [FloorRing K] (b : BuiltinSettings K n m) : FilterSelectsR (builtinComponents b) := by
  intro state log target nEvals l r h
  have h' : builtinFilter b state target (l.map Prod.fst) (l.map Prod.snd) = .ok r := h
  unfold builtinFilter at h'
  split at h'
  · cases h'
    exact ⟨[(state.x, state.index)], by simp, rfl⟩
  · cases h'
    exact ⟨l, List.subset_cons_self _ _, rfl⟩
  · obtain ⟨kept, h1, h2⟩ := keepClusterCenters_selects _ _ _ _ _ _ _ h'
    exact ⟨kept, List.subset_cons_of_subset _ h1, h2⟩
  · unfold dropExcess at h'
    dsimp only at h'
    split at h'
    · obtain ⟨kept, h1, h2⟩ := dropWorst_selects _ _ _ _ _ _ _ h'
      exact ⟨kept, List.subset_cons_of_subset _ h1, h2⟩
    · cases h'
      exact ⟨l, List.subset_cons_self _ _, rfl⟩

/-! ## Calls -/

section calls

variable [IsStrictOrderedRing K] [FloorRing K] {env : PyEnv K O} {ext : Externals K O n m}
  {a : Arguments K O (Option (Piece K n))} {x : Vec K n} {bounds : Bounds K n}
  {r : Run K n (VectorModel K n m) (ScalarModel K n)}

/-- Specification: whatever number of points the call takes as one batch, it is positive. -/
def PositiveBatch (env : PyEnv K O) (a : Arguments K O (Option (Piece K n))) : Prop :=
  ∀ k : ℤ, (a.batchSize = .none ∧ ReadsInt env a.nCores k) ∨ ReadsInt env a.batchSize k → 1 ≤ k

/-- C62 for calls: every state of a call that returns refers to stored points, the solution is the point of the last
state, and the final region is centred at the solution. For arbitrary arguments. -/
theorem C62_call (hr : tranquiloCall env ext a x bounds = .ok (some r)) :
    (∀ s ∈ r.states, r.log.xs[s.index]? = some s.x ∧ r.log.xs[s.candidateIndex]? = some s.candidateX) ∧
    r.log.xs[r.state.index]? = some r.state.x ∧
    (∃ s, r.states.getLast? = some s ∧ r.state.x = s.x ∧ r.state.fval = s.fval ∧
      r.state.index = s.index) ∧
    r.state.trustregion.center = r.state.x := by
  obtain ⟨c, b, radius, hrun, -⟩ := C118_run_uses_the_arguments env ext a x bounds r hr
  exact C62_states_of_a_run_that_returns (builtin_filterSelectsR b) hrun

/-- C61 for calls: for a criterion without noise the accepted points never get worse, and the solution is the best of them
and not worse than the start. For arbitrary arguments with a positive batch size and an acceptance decider
that is chosen by name and does not ask for a negative improvement (the default is zero). -/
theorem C61_call (hr : tranquiloCall env ext a x bounds = .ok (some r)) (hbatch : PositiveBatch env a)
    (hname : a.acceptanceDecider = none ∨ ∃ s, a.acceptanceDecider = some (.str s))
    (hmin : ∀ w, Uses env a.acceptanceDeciderOptions "min_improvement" (num 0) (num w) → 0 ≤ w)
    {f : Vec K n → XVal K} (hdet : ∀ k y, ext.oracle k y = f y) (hx : f x ≠ .nan) :
    (r.states.Pairwise fun s t => f t.x ≤ f s.x) ∧ (∀ s ∈ r.states, f r.state.x ≤ f s.x) ∧
    (∃ s ∈ r.states, r.state.x = s.x) ∧ f r.state.x ≤ f x ∧ r.state.fval = f r.state.x := by
  obtain ⟨c, b, radius, hrun, hu⟩ := C118_run_uses_the_arguments env ext a x bounds r hr
  refine C61_run_that_returns_is_never_worse (builtin_filterSelectsR b)
    (by exact_mod_cast hbatch _ hu.batchSize) ?_ (fun k y => ?_) hx hrun
  · obtain ⟨s, hD⟩ : ∃ s, DeciderIs env ext a.acceptanceDeciderOptions s c.decider := by
      rcases hname with h | ⟨s, h⟩
      · exact ⟨_, hu.decider _ (by rw [h]; rfl)⟩
      · exact ⟨s, hu.decider s (by rw [h]; rfl)⟩
    generalize c.decider = D at hD
    cases hD with
    | classic mi h => exact hmin _ h
    | naiveNoisy mi h => exact hmin _ h
    | noisy mi q1 q2 k l h => exact hmin _ (h ("min_improvement", num 0, num mi) (by simp))
    | lineSearch mi f h => exact hmin _ (h ("min_improvement", num 0, num mi) (by simp))
  · show b.oracle k y = f y
    rw [hu.criterion.1]
    exact hdet k y

/-- C65 for calls: without a message all iterations were used; the message about evaluations is only given if the limit is
reached; the messages about convergence only if convergence is not disabled, the last step was accepted, and
the criterion with the tolerance that the user passed holds between the last two states. -/
theorem C65_call (hr : tranquiloCall env ext a x bounds = .ok (some r)) :
    ∃ (c : Config K) (b : BuiltinSettings K n m) (radius : K), CallUses env ext a x c b radius ∧
      (r.msg = none → r.states.length = c.maxIter + 1) ∧
      (r.msg = some .maxEval → c.maxEval ≤ r.log.nFun) ∧
      (∀ t, t ≠ .maxEval → r.msg = some t → c.conv.disable = false ∧
        ∃ pre old new, r.states = pre ++ [old, new] ∧ new.accepted = true ∧
          MessageHolds ext.nrm (fun model : ScalarModel K n => ext.nrm model.linearTerms) c.conv old new t) := by
  obtain ⟨c, b, radius, hrun, hu⟩ := C118_run_uses_the_arguments env ext a x bounds r hr
  have h := C65_messages_of_a_run_that_returns (builtin_filterSelectsR b) hrun
  have h1 : (builtinComponents b).nrm = ext.nrm := hu.numpy.1
  have h2 : (builtinComponents b).gradNorm = fun model => ext.nrm model.linearTerms := by
    rw [← hu.numpy.1]; rfl
  rw [h1, h2] at h
  exact ⟨c, b, radius, hu, h⟩

/-! ## C133 -/

omit [IsStrictOrderedRing K] [FloorRing K] in
theorem inOrder_facts {log : Log K n} {oracle : Oracle K n} (ho : log.InOrder) (hc : log.Consistent oracle) :
    log.nFun = log.xs.length ∧ (∀ i < log.xs.length, (log.fvals i).length = 1) ∧
    (∀ (k : Nat) y, log.xs[k]? = some y → ∃ j, log.evals[k]? = some (k, oracle j y)) := by
  refine ⟨ho.length, fun i hi => ?_, fun k y hy => ?_⟩
  · rw [← ho.length] at hi
    rw [ho.fvals (List.getElem?_eq_getElem hi)]
    rfl
  · have hlt : k < log.evals.length := by
      rw [ho.length]; exact (List.getElem?_eq_some_iff.1 hy).1
    have he := List.getElem?_eq_getElem hlt
    have hk := ho.fst he
    obtain ⟨j, z, hz, hv⟩ := hc _ (List.mem_of_getElem? he)
    rw [hk, hy] at hz
    cases hz
    exact ⟨j, by rw [he]; congr 1; exact Prod.ext hk hv⟩

/-- C133 for runs: without noise and with one evaluation per point, the k-th evaluation is the evaluation of the k-th
stored point, and there are no others. -/
theorem C133_every_point_once_partial {VM SM : Type} {c : Config K} {ce : ComponentsR K n VM SM} {radius : K}
    {r : Run K n VM SM} (hf : FilterSelectsR ce)
    (hdec : (∃ m, c.decider = .classic m) ∨ ∃ m rf, c.decider = .lineSearch m rf)
    (hnoisy : c.noisy = false) (hone : c.nEvalsPerPoint = 1) (hstart : c.nEvalsAtStart ≤ 1)
    (hr : tranquiloR c ce x radius bounds = .ok r) :
    r.log.nFun = r.log.xs.length ∧ (∀ i < r.log.xs.length, (r.log.fvals i).length = 1) ∧
    (∀ (k : Nat) y, r.log.xs[k]? = some y → ∃ j, r.log.evals[k]? = some (k, ce.oracle j y)) := by
  obtain ⟨cp, rfl, -, ho, -, h, -⟩ := tranquiloR_run hr
  have hrun := tranquilo_inOrder c cp (h hf) hdec hnoisy hone hstart x radius bounds
  rw [← ho]
  exact inOrder_facts hrun.order hrun.ok.consistent

/-- C133 for calls: a call without noise, with the default decider or one of the two classic deciders and one evaluation
per point, evaluates every stored point exactly once, in the order in which the points are stored. -/
theorem C133_call_partial (hr : tranquiloCall env ext a x bounds = .ok (some r))
    (hnoisy : ¬ ReadsBool env a.noisy true)
    (hdec : a.acceptanceDecider = none ∨ a.acceptanceDecider = some (.str "classic") ∨
      a.acceptanceDecider = some (.str "classic_line_search"))
    (hper : ∀ k, ReadsInt env a.nEvalsPerPoint k → k = 1) (hstart : ∀ k, ReadsInt env a.nEvalsAtStart k → k ≤ 1) :
    r.log.nFun = r.log.xs.length ∧ (∀ i < r.log.xs.length, (r.log.fvals i).length = 1) ∧
    (∀ (k : Nat) y, r.log.xs[k]? = some y → ∃ j, r.log.evals[k]? = some (k, ext.oracle j y)) := by
  obtain ⟨c, b, radius, hrun, hu⟩ := C118_run_uses_the_arguments env ext a x bounds r hr
  have hn : c.noisy = false := by
    cases hc : c.noisy with
    | false => rfl
    | true => exact absurd (hc ▸ hu.noisy) hnoisy
  have h := C133_every_point_once_partial (builtin_filterSelectsR b) ?_ hn ?_ ?_ hrun
  · have ho : (builtinComponents b).oracle = ext.oracle := hu.criterion.1
    rw [ho] at h
    exact h
  · obtain ⟨s, hs, hD⟩ : ∃ s, (s = "classic" ∨ s = "classic_line_search") ∧
        DeciderIs env ext a.acceptanceDeciderOptions s c.decider := by
      rcases hdec with h | h | h
      · exact ⟨"classic", Or.inl rfl, hu.decider _ (by rw [h, hn]; rfl)⟩
      · exact ⟨_, Or.inl rfl, hu.decider _ (by rw [h]; rfl)⟩
      · exact ⟨_, Or.inr rfl, hu.decider _ (by rw [h]; rfl)⟩
    generalize c.decider = D at hD
    cases hD with
    | classic mi => exact Or.inl ⟨mi, rfl⟩
    | naiveNoisy mi => exact absurd hs (by decide)
    | noisy mi => exact absurd hs (by decide)
    | lineSearch mi f => exact Or.inr ⟨mi, f, rfl⟩
  · rcases hu.perPoint with ⟨-, h⟩ | h
    · rw [h, hn]; rfl
    · exact hper _ h
  · rcases hu.atStart with ⟨-, h⟩ | h
    · rw [h, hn]; simp
    · exact_mod_cast hstart _ h

end calls

/-- **C133 is false for vectors**: in this call without noise the sampler draws the point `9/10`, the subsolver returns the
same point, and the criterion is evaluated there a second time. -/
theorem C133_violated_same_vector :
    evaluated (tranquiloCall plainEnv coresExternals
      { functype := "least_squares", x := [], maxIter := .int 1 } (fun _ => 1)
      ⟨fun _ => none, fun _ => none⟩) = some ([1, 11 / 10, 9 / 10, 9 / 10], 4) := by
  decide +kernel

/-- Without options of the user the default is in force. -/
theorem uses_default_num {env : PyEnv K O} {name : String} {q w : K} (h : Uses env none name (num q) (num w)) : w = q := by
  rcases h with h | ⟨i, h, h'⟩
  · rcases h with ⟨h, -⟩ | ⟨d, v, hd, -⟩
    · exact (XVal.fin.inj (PyVal.flt.inj h))
    · rcases hd with hd | hd <;> cases hd
  · rcases h with ⟨h, -⟩ | ⟨d, v, hd, -⟩
    · cases h
    · rcases hd with hd | hd <;> cases hd

/-- The guarantees apply to this call: two iterations for the residual `x`, from `1`. -/
example : ∃ r, tranquiloCall plainEnv coresExternals
      { functype := "least_squares", x := [], maxIter := .int 2 } (fun _ => 1)
      ⟨fun _ => none, fun _ => none⟩ = .ok (some r) ∧ r.states.length = 3 ∧
    r.state.x 0 ^ 2 ≤ 1 ∧ r.log.nFun = r.log.xs.length := by
  have key : (match tranquiloCall plainEnv coresExternals
        { functype := "least_squares", x := [], maxIter := .int 2 } (fun _ => 1)
        ⟨fun _ => none, fun _ => none⟩ with
      | .ok (some r) => decide (r.states.length = 3)
      | _ => false) = true := by
    decide +kernel
  split at key
  · rename_i r hr
    simp only [decide_eq_true_eq] at key
    refine ⟨r, hr, key, ?_, ?_⟩
    · have h := C61_call (f := fun x : Vec ℚ 1 => .fin (x 0 ^ 2)) hr (fun k hk => ?_) (Or.inl rfl)
        (fun w hw => (uses_default_num hw).ge) (fun _ _ => rfl) (by simp)
      · simpa using h.2.2.2.1
      · rcases hk with ⟨-, hk | hk | hk⟩ | hk | hk | hk
        · cases hk; rfl
        · cases hk.1
        · cases hk.1
        · cases hk
        · cases hk.1
        · cases hk.1
    · refine (C133_call_partial hr (fun h => by cases h) (Or.inl rfl) (fun k hk => ?_) (fun k hk => ?_)).1
      · rcases hk with hk | hk | hk
        · cases hk
        · cases hk.1
        · cases hk.1
      · rcases hk with hk | hk | hk
        · cases hk
        · cases hk.1
        · cases hk.1
  · cases key

end Tranquilo
