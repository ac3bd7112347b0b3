import Verif.Lemmas.Budget

/-!
# Lemmas on runs with criteria without noise
-/

namespace Tranquilo

variable {K : Type} [Field K] [LinearOrder K] [IsStrictOrderedRing K] [FloorRing K] {n : Nat}
  {VM SM : Type}

/-- The values of the states for criteria without noise. -/
structure DetOk (comp : Components K n VM SM) (f : Vec K n → XVal K) (m : K)
    (r : Run K n VM SM) : Prop where
  value : r.state.fval = f r.state.x
  recorded : (r.state.index, r.state.fval) ∈ r.log.evals
  values : ∀ s ∈ r.states, s.fval = f s.x ∧ (s.index, s.fval) ∈ r.log.evals
  descent : 0 ≤ m → (∀ s ∈ r.states, s.fval ≠ .nan → r.state.fval ≤ s.fval) ∧
    r.states.Pairwise fun s t => s.fval ≠ .nan → t.fval ≤ s.fval

omit [FloorRing K] in
theorem fvals_mem {h : Log K n} {i : Nat} {v : XVal K} (hv : v ∈ h.fvals i) : (i, v) ∈ h.evals := by
  unfold Log.fvals at hv
  obtain ⟨p, hp, rfl⟩ := List.mem_map.1 hv
  rw [List.mem_filter] at hp
  obtain ⟨h1, h2⟩ := hp
  have : p.1 = i := by simpa using h2
  rw [← this]
  exact h1

theorem startRun_evals (c : Config K) (comp : Components K n VM SM) (hb : 1 ≤ c.batchSize) (x : Vec K n)
    (radius : K) (bounds : Bounds K n) : (startRun c comp x radius bounds).log.fvals 0 ≠ [] := by
  have h1 : 1 ≤ (if 1 < c.nEvalsAtStart then
      (nextMultiple (K := K) c.nEvalsAtStart c.batchSize).toNat else 1) := by
    split
    · have := (C60_next_multiple (K := K) c.nEvalsAtStart c.batchSize hb).2.1
      omega
    · exact le_rfl
  have h2 := Log.fvals_length_evaluate comp.oracle (⟨[x], []⟩ : Log K n)
    [(0, if 1 < c.nEvalsAtStart then
      (nextMultiple (K := K) c.nEvalsAtStart c.batchSize).toNat else 1)] 0 (by simp)
  have h3 := count_flatMap_ge [(0, if 1 < c.nEvalsAtStart then
      (nextMultiple (K := K) c.nEvalsAtStart c.batchSize).toNat else 1)] 0 _ (List.mem_singleton.2 rfl)
  intro hnil
  have h4 : (startRun c comp x radius bounds).log = (⟨[x], []⟩ : Log K n).evaluate comp.oracle
    [(0, if 1 < c.nEvalsAtStart then
      (nextMultiple (K := K) c.nEvalsAtStart c.batchSize).toNat else 1)] := rfl
  rw [← h4, hnil, List.length_nil] at h2
  omega

theorem xval_le_refl {v : XVal K} (hv : v ≠ .nan) : v ≤ v := by cases v <;> simp at hv ⊢

theorem xval_le_trans {u v w : XVal K} (h1 : u ≤ v) (h2 : v ≤ w) : u ≤ w := by
  cases u <;> cases v <;> cases w <;> simp at h1 h2 ⊢
  exact h1.trans h2

theorem startRun_det (c : Config K) (comp : Components K n VM SM) (hb : 1 ≤ c.batchSize)
    {f : Vec K n → XVal K} (hdet : ∀ k x, comp.oracle k x = f x) (x : Vec K n)
    (radius : K) (bounds : Bounds K n) :
    DetOk comp f c.decider.minImprovement (startRun c comp x radius bounds) := by
  have hok := startRun_ok c comp x radius bounds
  have hne := startRun_evals c comp hb x radius bounds
  have hall := hok.consistent.fvals_eq hdet hok.point
  have hval : (startRun c comp x radius bounds).state.fval = f x := mean_const _ _ hne hall
  have hrec : (0, (startRun c comp x radius bounds).state.fval) ∈
      (startRun c comp x radius bounds).log.evals := by
    apply fvals_mem
    obtain ⟨a, ha⟩ := List.exists_mem_of_ne_nil _ hne
    have : a = f x := hall a ha
    rw [hval, ← this]
    exact ha
  refine ⟨hval, hrec, ?_, fun _ => ⟨?_, List.pairwise_singleton _ _⟩⟩
  · intro s hs
    obtain rfl := List.mem_singleton.1 hs
    exact ⟨hval, hrec⟩
  · intro s hs hn
    obtain rfl := List.mem_singleton.1 hs
    exact xval_le_refl hn

theorem iteration_det (c : Config K) (comp : Components K n VM SM) (hf : FilterSelects comp)
    (hb : 1 ≤ c.batchSize) {f : Vec K n → XVal K} (hdet : ∀ k x, comp.oracle k x = f x)
    (bounds : Bounds K n) (it : Nat) (r : Run K n VM SM) (hr : RunOk comp bounds r)
    (hd : DetOk comp f c.decider.minImprovement r) :
    DetOk comp f c.decider.minImprovement (iteration c comp it r) := by
  have hg := iteration_grows c comp hf it r hr.point
  have hbg := (buildPhase_ok c comp it r.state r.log r.nEvals hf hr.point).grows
  have hbc : (theBuild c comp it r).log.Consistent comp.oracle := hbg.consistent hr.consistent
  have hok := iteration_ok c comp hf bounds it r hr
  have hlog : (iteration c comp it r).log = (theDecision c comp it r).1 := by rw [iteration_eq]
  have hxb : (theBuild c comp it r).log.xs[r.state.index]? = some r.state.x :=
    getElem?_of_prefix hbg.xs_prefix hr.point
  have hdd := theDecision_decides c comp it r
  -- value and improvement of the decision
  have hval : (theDecision c comp it r).2.fval = f (theDecision c comp it r).2.x ∧
      ((theDecision c comp it r).2.index, (theDecision c comp it r).2.fval)
        ∈ (theDecision c comp it r).1.evals ∧
      (0 ≤ c.decider.minImprovement → r.state.fval ≠ .nan →
        (theDecision c comp it r).2.fval ≤ r.state.fval) := by
    cases hacc : (theDecision c comp it r).2.accepted with
    | true =>
      obtain ⟨⟨a, ha⟩, h2, h3, -⟩ := C13_accepted_is_finite hbc.wf hdd hacc
      have hne : (theDecision c comp it r).1.fvals (theDecision c comp it r).2.index ≠ [] := by
        intro hnil
        rw [hnil, ha] at h2
        simp [XVal.mean] at h2
      have hall : ∀ v ∈ (theDecision c comp it r).1.fvals (theDecision c comp it r).2.index,
          v = f (theDecision c comp it r).2.x := by
        rw [← hlog]
        refine hok.consistent.fvals_eq hdet ?_
        rw [hlog]; exact h3
      have hv : (theDecision c comp it r).2.fval = f (theDecision c comp it r).2.x := by
        rw [h2]; exact mean_const _ _ hne hall
      refine ⟨hv, ?_, fun hm _ => ?_⟩
      · apply fvals_mem
        obtain ⟨v, hv'⟩ := List.exists_mem_of_ne_nil _ hne
        rw [hv, ← hall v hv']
        exact hv'
      · exact improves_le hm (decision_improves_det c comp it hb _ _ _ _ _ hbc hdet hxb hd.value hacc)
    | false =>
      obtain ⟨cx, ci, rho, acc, ne, -, -, hres⟩ := decides_finish hbc.wf hdd
      obtain ⟨-, -, f3, -⟩ := finish_spec comp.nrm cx
        (XVal.mean ((theDecision c comp it r).1.fvals ci)) ci rho acc r.state.current ne
      rw [← hres] at f3
      obtain ⟨e1, e2, e3, -⟩ := f3 hacc
      have e1' : (theDecision c comp it r).2.x = r.state.x := e1
      have e2' : (theDecision c comp it r).2.fval = r.state.fval := e2
      have e3' : (theDecision c comp it r).2.index = r.state.index := e3
      rw [e1', e2', e3']
      refine ⟨hd.value, ?_, fun _ hn => xval_le_refl hn⟩
      rw [← hlog]
      exact hg.evals_prefix.subset hd.recorded
  obtain ⟨v1, v2, v3⟩ := hval
  have hstates : (iteration c comp it r).states = r.states ++ [theState c comp it r] := by
    rw [iteration_eq]
  have hfv : (iteration c comp it r).state.fval = (theDecision c comp it r).2.fval := by
    rw [iteration_eq]; rfl
  refine ⟨?_, ?_, ?_, fun hm => ?_⟩
  · rw [iteration_eq]; exact v1
  · rw [iteration_eq]; exact v2
  · intro s hs
    rw [hstates] at hs
    rcases List.mem_append.1 hs with hs | hs
    · exact ⟨(hd.values s hs).1, hg.evals_prefix.subset (hd.values s hs).2⟩
    · obtain rfl := List.mem_singleton.1 hs
      rw [hlog]
      exact ⟨v1, v2⟩
  · obtain ⟨d1, d2⟩ := hd.descent hm
    have hstep : ∀ s ∈ r.states, s.fval ≠ .nan → (theDecision c comp it r).2.fval ≤ s.fval := by
      intro s hs hn
      have h1 := d1 s hs hn
      have h2 : r.state.fval ≠ .nan := by
        intro hc; rw [hc] at h1; simp at h1
      exact xval_le_trans (v3 hm h2) h1
    rw [hstates, hfv]
    refine ⟨?_, ?_⟩
    · intro s hs hn
      rcases List.mem_append.1 hs with hs | hs
      · exact hstep s hs hn
      · obtain rfl := List.mem_singleton.1 hs
        exact xval_le_refl hn
    · rw [List.pairwise_append]
      refine ⟨d2, List.pairwise_singleton _ _, ?_⟩
      intro s hs t ht hn
      obtain rfl := List.mem_singleton.1 ht
      exact hstep s hs hn

theorem tranquilo_det (c : Config K) (comp : Components K n VM SM) (hf : FilterSelects comp)
    (hb : 1 ≤ c.batchSize) {f : Vec K n → XVal K} (hdet : ∀ k x, comp.oracle k x = f x)
    (x : Vec K n) (radius : K) (bounds : Bounds K n) :
    DetOk comp f c.decider.minImprovement (tranquilo c comp x radius bounds) :=
  (tranquilo_induction c comp x radius bounds
    (fun r => RunOk comp bounds r ∧ DetOk comp f c.decider.minImprovement r)
    ⟨startRun_ok c comp x radius bounds, startRun_det c comp hb hdet x radius bounds⟩
    fun it r h => ⟨iteration_ok c comp hf bounds it r h.1,
      iteration_det c comp hf hb hdet bounds it r h.1 h.2⟩).2

/-- Reported values of runs in which the decider compares with the stored value. -/
theorem tranquilo_stored (c : Config K) (comp : Components K n VM SM) (hf : FilterSelects comp)
    (hb : 1 ≤ c.batchSize) (hm : 0 ≤ c.decider.minImprovement)
    (hdec : ∀ m zc zp a b, c.decider ≠ .noisy m zc zp a b)
    (x : Vec K n) (radius : K) (bounds : Bounds K n) :
    (∀ s ∈ (tranquilo c comp x radius bounds).states, s.fval ≠ .nan →
      (tranquilo c comp x radius bounds).state.fval ≤ s.fval) ∧
    (tranquilo c comp x radius bounds).states.Pairwise fun s t => s.fval ≠ .nan → t.fval ≤ s.fval := by
  refine (tranquilo_induction c comp x radius bounds
    (fun r => RunOk comp bounds r ∧ (∀ s ∈ r.states, s.fval ≠ .nan → r.state.fval ≤ s.fval) ∧
      r.states.Pairwise fun s t => s.fval ≠ .nan → t.fval ≤ s.fval)
    ⟨startRun_ok c comp x radius bounds, ?_, List.pairwise_singleton _ _⟩ ?_).2
  · intro s hs hn
    obtain rfl := List.mem_singleton.1 hs
    exact xval_le_refl hn
  · rintro it r ⟨hr, d1, d2⟩
    refine ⟨iteration_ok c comp hf bounds it r hr, ?_⟩
    have hbg := (buildPhase_ok c comp it r.state r.log r.nEvals hf hr.point).grows
    have hbc : (theBuild c comp it r).log.Consistent comp.oracle := hbg.consistent hr.consistent
    have hdd := theDecision_decides c comp it r
    have v3 : r.state.fval ≠ .nan → (theDecision c comp it r).2.fval ≤ r.state.fval := by
      intro hn
      cases hacc : (theDecision c comp it r).2.accepted with
      | true =>
        exact improves_le hm (decision_improves_stored c comp it hdec hb _ _ _ _ _ hbc.wf hacc)
      | false =>
        obtain ⟨cx, ci, rho, acc, ne, -, -, hres⟩ := decides_finish hbc.wf hdd
        obtain ⟨-, -, f3, -⟩ := finish_spec comp.nrm cx
          (XVal.mean ((theDecision c comp it r).1.fvals ci)) ci rho acc r.state.current ne
        rw [← hres] at f3
        have e2 : (theDecision c comp it r).2.fval = r.state.fval := (f3 hacc).2.1
        rw [e2]
        exact xval_le_refl hn
    have hstep : ∀ s ∈ r.states, s.fval ≠ .nan → (theDecision c comp it r).2.fval ≤ s.fval := by
      intro s hs hn
      have h1 := d1 s hs hn
      have h2 : r.state.fval ≠ .nan := by
        intro hc; rw [hc] at h1; simp at h1
      exact xval_le_trans (v3 h2) h1
    rw [iteration_eq]
    refine ⟨?_, ?_⟩
    · intro s hs hn
      rcases List.mem_append.1 hs with hs | hs
      · exact hstep s hs hn
      · obtain rfl := List.mem_singleton.1 hs
        exact xval_le_refl hn
    · rw [List.pairwise_append]
      refine ⟨d2, List.pairwise_singleton _ _, ?_⟩
      intro s hs t ht hn
      obtain rfl := List.mem_singleton.1 ht
      exact hstep s hs hn

end Tranquilo
