import Verif.Lemmas.Budget
import Verif.Model.Plots

/-!
# Runs without repeated evaluations evaluate their points in the order in which they store them
-/

namespace Tranquilo

variable {K : Type} [Field K] [LinearOrder K] [IsStrictOrderedRing K] [FloorRing K] {n : Nat}
  {VM SM : Type}

theorem filter_fst {α : Type} (l : List (Nat × α)) (hl : (l.map Prod.fst).Nodup) (e : Nat × α) (he : e ∈ l) :
    (l.filter fun p => decide (p.1 = e.1)) = [e] := by
  induction l with
  | nil => simp at he
  | cons a l ih =>
    rw [List.map_cons, List.nodup_cons] at hl
    rcases List.mem_cons.1 he with rfl | he
    · rw [List.filter_cons_of_pos (by simp), List.filter_eq_nil_iff.2]
      intro p hp
      simp only [decide_eq_true_eq]
      intro hpe
      exact hl.1 (List.mem_map.2 ⟨p, hp, hpe⟩)
    · rw [List.filter_cons_of_neg, ih hl.2 he]
      simp only [decide_eq_true_eq]
      intro hae
      exact hl.1 (List.mem_map.2 ⟨e, he, hae.symm⟩)

/-- The `i`-th evaluation is the only one of the `i`-th point. -/
def Log.InOrder (h : Log K n) : Prop := h.evals.map Prod.fst = List.range h.xs.length

omit [IsStrictOrderedRing K] [FloorRing K] in
theorem Log.InOrder.length {h : Log K n} (ho : h.InOrder) : h.evals.length = h.xs.length := by
  have := congrArg List.length ho
  simpa using this

omit [IsStrictOrderedRing K] [FloorRing K] in
theorem Log.InOrder.fst {h : Log K n} (ho : h.InOrder) {i : Nat} {e : Nat × XVal K} (he : h.evals[i]? = some e) :
    e.1 = i := by
  have h1 : (h.evals.map Prod.fst)[i]? = some e.1 := by rw [List.getElem?_map, he]; rfl
  rw [ho] at h1
  obtain ⟨hlt, h2⟩ := List.getElem?_eq_some_iff.1 h1
  rw [List.getElem_range] at h2
  exact h2.symm

omit [IsStrictOrderedRing K] [FloorRing K] in
theorem Log.InOrder.fvals {h : Log K n} (ho : h.InOrder) {i : Nat} {e : Nat × XVal K} (he : h.evals[i]? = some e) :
    h.fvals i = [e.2] := by
  have hnd : (h.evals.map Prod.fst).Nodup := by rw [ho]; exact List.nodup_range
  have hf := filter_fst h.evals hnd e (List.mem_of_getElem? he)
  rw [ho.fst he] at hf
  unfold Log.fvals
  rw [hf]
  rfl

omit [IsStrictOrderedRing K] [FloorRing K] in
theorem Log.InOrder.allEvaluated {h : Log K n} (ho : h.InOrder) : h.AllEvaluated := by
  intro i hi
  rw [← ho.length] at hi
  rw [ho.fvals (List.getElem?_eq_getElem hi)]
  simp

omit [IsStrictOrderedRing K] [FloorRing K] in
theorem inOrder_append {h : Log K n} (ho : h.InOrder) (pts : List (Vec K n)) (oracle : Oracle K n) :
    Log.InOrder (⟨h.xs ++ pts, h.evals ++ pts.mapIdx
      fun j x => (h.xs.length + j, oracle (h.evals.length + j) x)⟩ : Log K n) := by
  unfold Log.InOrder at ho ⊢
  simp only [List.map_append, ho, List.length_append, List.range_add]
  congr 1
  apply List.ext_getElem
  · simp
  · intro i h1 h2
    simp

omit [FloorRing K] in
theorem evaluate_new (h : Log K n) (pts : List (Vec K n)) (oracle : Oracle K n) :
    (h.addXs pts).1.evaluate oracle ((h.addXs pts).2.map fun i => (i, 1))
      = ⟨h.xs ++ pts, h.evals ++ pts.mapIdx
        fun j x => (h.xs.length + j, oracle (h.evals.length + j) x)⟩ := by
  rw [← newEvals_range, Log.evaluate_eq]
  simp only [Log.addXs, List.flatMap_map, List.replicate_one]
  rw [List.range'_eq_map_range, List.map_eq_flatMap]

section det

variable (c : Config K) (comp : Components K n VM SM) (it : Nat)

theorem firstLog_inOrder (hf : FilterSelects comp)
    (state : LoopState K n VM SM) (log : Log K n) (hx : log.xs[state.index]? = some state.x)
    (ho : log.InOrder) : (firstLog c comp it state log 1).InOrder := by
  obtain ⟨kept, hk, hk2⟩ := filtered_spec c comp state log 1 hf hx
  have hadd : additionalEvalInfo log (filtered c comp state log 1).2 1 = [] := by
    refine additional_nil log ho.allEvaluated _ ?_
    intro i hi
    rw [hk] at hi
    obtain ⟨p, hp, rfl⟩ := List.mem_map.1 hi
    exact (List.getElem?_eq_some_iff.1 (hk2 p hp).2).1
  unfold firstLog
  rw [hadd, List.append_nil]
  have h := inOrder_append ho (firstSample c comp it state log 1) comp.oracle
  rw [← evaluate_new] at h
  exact h

theorem round_inOrder (state : LoopState K n VM SM) (round : Nat)
    (b : Build K n VM SM) (ho : b.log.InOrder) :
    (stagnationRound c comp state 1 it round b).log.InOrder := by
  have h : ∀ pts, Log.InOrder ((b.log.addXs pts).1.evaluate comp.oracle
      ((b.log.addXs pts).2.map fun i => (i, 1))) := fun pts => by
    rw [evaluate_new]; exact inOrder_append ho _ _
  exact h _

theorem build_inOrder (hf : FilterSelects comp)
    (state : LoopState K n VM SM) (log : Log K n) (hx : log.xs[state.index]? = some state.x)
    (ho : log.InOrder) : (buildPhase c comp it state log 1).2.log.InOrder := by
  have f1 := firstLog_inOrder c comp it hf state log hx ho
  have hsec : (secondBuild c comp it state log 1).log = firstLog c comp it state log 1 := by
    obtain ⟨k, bs, -, h2, -, -, h5⟩ := dropLoop_spec c _ _
      (firstBuild_ok c comp it state log 1 hf hx) (Nat.sub_le _ c.targetSize)
    have := (h5 k le_rfl).2.1
    rw [h2] at this
    exact this
  obtain ⟨k, bs, h1, h2, h3, h4, -, -⟩ := stagnationLoop_spec c (max 1 c.stagnation.maxTrials) 0 _
    (secondBuild_ok c comp it state log 1 hf hx) (by omega)
  have hall : ∀ j ≤ k, (bs j).log.InOrder := by
    intro j
    induction j with
    | zero => intro _; rw [h1, hsec]; exact f1
    | succ j ih =>
      intro hj
      rw [(h4 j (by omega)).2]
      exact round_inOrder c comp it state (0 + j + 2) (bs j) (ih (by omega))
  rw [buildPhase_eq]
  have := hall k le_rfl
  rwa [h2] at this

theorem decider_inOrder
    (hdec : (∃ m, c.decider = .classic m) ∨ ∃ m rf, c.decider = .lineSearch m rf)
    (log : Log K n) (region : Region K n) (sub : SubSolution K n) (cur : Current K n) (h : Log K n)
    (ho : h.InOrder) : (runDecider c comp it log region sub cur h).1.InOrder := by
  have hclassic : ∀ m : K, (acceptSimple comp.nrm comp.oracle m 1 sub cur h).1.InOrder := by
    intro m
    have h1 := inOrder_append ho [sub.x] comp.oracle
    rw [← evaluate_new] at h1
    exact h1
  unfold runDecider
  rcases hdec with ⟨m, hd⟩ | ⟨m, rf, hd⟩
  · rw [hd]
    exact hclassic m
  · rw [hd]
    simp only
    by_cases hb1 : c.batchSize = 1
    · have he : acceptLineSearch comp.nrm comp.cubeRadius comp.oracle (comp.sample it 0) rf m
          c.batchSize sub cur h = acceptSimple comp.nrm comp.oracle m 1 sub cur h := by
        unfold acceptLineSearch acceptClassic; rw [if_pos hb1]
      rw [he]
      exact hclassic m
    · rw [lineSearch_log _ _ _ _ _ _ _ _ _ _ hb1]
      exact inOrder_append ho _ _

/-- What holds after every iteration of a run without repeated evaluations. -/
structure InOrderRun (comp : Components K n VM SM) (bounds : Bounds K n) (r : Run K n VM SM) : Prop where
  ok : RunOk comp bounds r
  order : r.log.InOrder
  once : r.nEvals = 1
  /-- the value of each state is the value at the position of its index -/
  value : ∀ s ∈ r.states, (criterionHistory r.log)[s.index]? = some s.fval

omit [FloorRing K] in
theorem mean_of_one (v : XVal K) : XVal.mean [v] = v :=
  mean_const v [v] (by simp) (by simp)

theorem iteration_inOrder (hf : FilterSelects comp)
    (hdec : (∃ m, c.decider = .classic m) ∨ ∃ m rf, c.decider = .lineSearch m rf)
    (hnoisy : c.noisy = false) (bounds : Bounds K n) (r : Run K n VM SM) (hr : InOrderRun comp bounds r) :
    InOrderRun comp bounds (iteration c comp it r) := by
  have h1 := build_inOrder c comp it hf r.state r.log hr.ok.point hr.order
  have hb1 : theBuild c comp it r = (buildPhase c comp it r.state r.log 1).2 := by
    unfold theBuild; rw [hr.once]
  rw [← hb1] at h1
  have h2 : (theDecision c comp it r).1.InOrder := decider_inOrder c comp it hdec (theBuild c comp it r).log
    r.state.trustregion (theBuild c comp it r).sub r.state.current (theBuild c comp it r).log h1
  have hg := iteration_grows c comp hf it r hr.ok.point
  have hlog : (iteration c comp it r).log = (theDecision c comp it r).1 := by rw [iteration_eq]
  have hcur : (criterionHistory r.log)[r.state.index]? = some r.state.fval := by
    obtain ⟨pre, s, hs, he⟩ := hr.ok.last
    have := hr.value s (by rw [hs]; simp)
    rw [he]
    exact this
  have hpre : ∀ i v, (criterionHistory r.log)[i]? = some v →
      (criterionHistory (iteration c comp it r).log)[i]? = some v := fun i v hv =>
    getElem?_of_prefix (hg.evals_prefix.map Prod.snd) hv
  refine ⟨iteration_ok c comp hf bounds it r hr.ok, by rw [hlog]; exact h2, ?_, ?_⟩
  · rw [iteration_eq]
    simp [theNEvals, hnoisy, hr.once]
  · intro s hs
    have hs' : s ∈ r.states ∨ s = theState c comp it r := by
      rw [iteration_eq] at hs
      simpa using hs
    rcases hs' with hs | rfl
    · exact hpre _ _ (hr.value s hs)
    · have hbg := (buildPhase_ok c comp it r.state r.log r.nEvals hf hr.ok.point).grows
      have hbc : (theBuild c comp it r).log.Consistent comp.oracle := hbg.consistent hr.ok.consistent
      obtain ⟨cx, ci, rho, acc, ne, hx, -, hres⟩ :=
        decides_finish hbc.wf (theDecision_decides c comp it r)
      obtain ⟨-, f2, f3, -⟩ :=
        finish_spec comp.nrm cx (XVal.mean ((theDecision c comp it r).1.fvals ci)) ci rho acc
          r.state.current ne
      rw [← hres] at f2 f3
      change (criterionHistory (iteration c comp it r).log)[(theDecision c comp it r).2.index]?
        = some (theDecision c comp it r).2.fval
      cases ha : (theDecision c comp it r).2.accepted with
      | true =>
        rw [(f2 ha).2.1, (f2 ha).2.2.1, hlog]
        have hlt : ci < (theDecision c comp it r).1.evals.length := by
          rw [h2.length]; exact (List.getElem?_eq_some_iff.1 hx).1
        have he := List.getElem?_eq_getElem hlt
        rw [h2.fvals he, mean_of_one, criterionHistory, List.getElem?_map, he]
        rfl
      | false =>
        rw [(f3 ha).2.1, (f3 ha).2.2.1]
        exact hpre _ _ hcur

theorem tranquilo_inOrder (hf : FilterSelects comp)
    (hdec : (∃ m, c.decider = .classic m) ∨ ∃ m rf, c.decider = .lineSearch m rf)
    (hnoisy : c.noisy = false) (hone : c.nEvalsPerPoint = 1) (hstart : c.nEvalsAtStart ≤ 1)
    (x : Vec K n) (radius : K) (bounds : Bounds K n) :
    InOrderRun comp bounds (tranquilo c comp x radius bounds) := by
  refine tranquilo_induction c comp x radius bounds _ ?_ fun it r =>
    iteration_inOrder c comp it hf hdec hnoisy bounds r
  have hlog : (startRun c comp x radius bounds).log = ⟨[x], [(0, comp.oracle 0 x)]⟩ := by
    simp only [startRun, if_neg (not_lt.2 hstart)]
    rfl
  refine ⟨startRun_ok c comp x radius bounds, ?_, hone, ?_⟩
  · rw [hlog]; rfl
  · intro s hs
    obtain rfl := List.mem_singleton.1 hs
    rw [hlog]
    change some (comp.oracle 0 x) = some (XVal.mean ((startRun c comp x radius bounds).log.fvals 0))
    rw [hlog]
    have : (⟨[x], [(0, comp.oracle 0 x)]⟩ : Log K n).fvals 0 = [comp.oracle 0 x] := rfl
    rw [this, mean_of_one]

end det

end Tranquilo
