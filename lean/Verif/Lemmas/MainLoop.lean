import Verif.Model.MainLoop
import Verif.Lemmas.Filter
import Verif.Props.Acceptance

/-!
# Lemmas on the main loop
-/

namespace Tranquilo

variable {K : Type} [Field K] [LinearOrder K] {n : Nat} {VM SM : Type}

/-! ## Growth of the history -/

/-- `Grows oracle P h h'`: `h'` results from `h` by adding points that satisfy `P` and by evaluating. What is
evaluated is given as a dict whose keys are indices of stored points. -/
inductive Grows (oracle : Oracle K n) (P : Vec K n → Prop) (h : Log K n) : Log K n → Prop
  | refl : Grows oracle P h h
  | add {h' : Log K n} (rows : List (Vec K n)) (hP : ∀ y ∈ rows, P y) (hg : Grows oracle P h h') :
      Grows oracle P h (h'.addXs rows).1
  | eval {h' : Log K n} (req : List (Nat × Nat)) (hv : ∀ p ∈ req, p.1 < h'.xs.length)
      (hd : (req.map Prod.fst).Nodup) (hg : Grows oracle P h h') :
      Grows oracle P h (h'.evaluate oracle req)

theorem Grows.trans {oracle : Oracle K n} {P : Vec K n → Prop} {a b c : Log K n}
    (h1 : Grows oracle P a b) (h2 : Grows oracle P b c) : Grows oracle P a c := by
  induction h2 with
  | refl => exact h1
  | add rows hP _ ih => exact ih.add rows hP
  | eval req hv hd _ ih => exact ih.eval req hv hd

theorem Grows.mono {oracle : Oracle K n} {P Q : Vec K n → Prop} (hPQ : ∀ y, P y → Q y) {a b : Log K n}
    (h : Grows oracle P a b) : Grows oracle Q a b := by
  induction h with
  | refl => exact .refl
  | add rows hP _ ih => exact ih.add rows fun y hy => hPQ y (hP y hy)
  | eval req hv hd _ ih => exact ih.eval req hv hd

theorem Grows.addX {oracle : Oracle K n} {P : Vec K n → Prop} {a b : Log K n} {x : Vec K n} (hx : P x)
    (h : Grows oracle P a b) : Grows oracle P a (b.addX x).1 :=
  h.add [x] (by simpa using hx)

theorem Grows.xs_prefix {oracle : Oracle K n} {P : Vec K n → Prop} {a b : Log K n}
    (h : Grows oracle P a b) : a.xs <+: b.xs := by
  induction h with
  | refl => exact List.prefix_rfl
  | add rows hP _ ih => exact ih.trans (List.prefix_append _ _)
  | eval req hv hd _ ih => simpa using ih

theorem Grows.evals_prefix {oracle : Oracle K n} {P : Vec K n → Prop} {a b : Log K n}
    (h : Grows oracle P a b) : a.evals <+: b.evals := by
  induction h with
  | refl => exact List.prefix_rfl
  | add rows hP _ ih => exact ih
  | eval req hv hd _ ih =>
    rw [Log.evaluate_eq]
    exact ih.trans (List.prefix_append _ _)

theorem Grows.points {oracle : Oracle K n} {P : Vec K n → Prop} {a b : Log K n}
    (h : Grows oracle P a b) (ha : ∀ y ∈ a.xs, P y) : ∀ y ∈ b.xs, P y := by
  induction h with
  | refl => exact ha
  | add rows hP _ ih =>
    intro y hy
    rcases List.mem_append.1 hy with hy | hy
    · exact ih y hy
    · exact hP y hy
  | eval req hv hd _ ih => simpa using ih

/-- Every recorded evaluation is the value of the criterion at the stored point. -/
def Log.Consistent (oracle : Oracle K n) (h : Log K n) : Prop :=
  ∀ p ∈ h.evals, ∃ k x, h.xs[p.1]? = some x ∧ p.2 = oracle k x

theorem Log.Consistent.wf {oracle : Oracle K n} {h : Log K n} (hc : h.Consistent oracle) : h.WF := by
  intro p hp
  obtain ⟨k, x, hx, -⟩ := hc p hp
  exact (List.getElem?_eq_some_iff.1 hx).1

theorem getElem?_of_prefix {α : Type} {l l' : List α} (h : l <+: l') {i : Nat} {x : α}
    (hx : l[i]? = some x) : l'[i]? = some x := by
  obtain ⟨t, rfl⟩ := h
  rw [List.getElem?_append_left (List.getElem?_eq_some_iff.1 hx).1]
  exact hx

theorem Grows.consistent {oracle : Oracle K n} {P : Vec K n → Prop} {a b : Log K n}
    (h : Grows oracle P a b) (ha : a.Consistent oracle) : b.Consistent oracle := by
  induction h with
  | refl => exact ha
  | add rows hP _ ih =>
    intro p hp
    obtain ⟨k, x, hx, hv⟩ := ih p hp
    exact ⟨k, x, getElem?_of_prefix (List.prefix_append _ _) hx, hv⟩
  | eval req hv hd _ ih =>
    intro p hp
    rw [Log.evaluate_eq] at hp ⊢
    rcases List.mem_append.1 hp with hp | hp
    · exact ih p hp
    · obtain ⟨-, -, m, x, hx, hv⟩ := Log.newEvals_mem_lt _ _ _ _ p hp
      exact ⟨m, x, hx, hv⟩

theorem Log.fvals_length_mono {a b : Log K n} (h : a.evals <+: b.evals) (i : Nat) :
    (a.fvals i).length ≤ (b.fvals i).length := by
  obtain ⟨t, ht⟩ := h
  unfold Log.fvals
  rw [← ht]
  simp

theorem newEvals_count (oracle : Oracle K n) (xs : List (Vec K n)) (l : List Nat) (i : Nat)
    (hi : i < xs.length) (k : Nat) :
    ((Log.newEvals oracle xs k l).filter fun p => p.1 = i).length = l.count i := by
  induction l generalizing k with
  | nil => simp [Log.newEvals]
  | cons j l ih =>
    rw [Log.newEvals]
    by_cases hji : j = i
    · subst hji
      rw [List.getElem?_eq_getElem hi]
      simp [ih (k + 1)]
    · rw [List.count_cons_of_ne hji]
      cases xs[j]? with
      | none => exact ih k
      | some x =>
        simp only [hji, decide_false, Bool.false_eq_true, not_false_eq_true,
          List.filter_cons_of_neg]
        exact ih (k + 1)

/-- Number of evaluations of a point after a request. -/
theorem Log.fvals_length_evaluate (oracle : Oracle K n) (h : Log K n) (req : List (Nat × Nat)) (i : Nat)
    (hi : i < h.xs.length) :
    ((h.evaluate oracle req).fvals i).length
      = (h.fvals i).length + (req.flatMap fun p => List.replicate p.2 p.1).count i := by
  rw [Log.evaluate_eq, Log.fvals_append, List.length_append, List.length_map, newEvals_count _ _ _ _ hi]

theorem count_flatMap_ge (req : List (Nat × Nat)) (i m : Nat) (h : (i, m) ∈ req) :
    m ≤ (req.flatMap fun p => List.replicate p.2 p.1).count i := by
  induction req with
  | nil => simp at h
  | cons q req ih =>
    rw [List.flatMap_cons, List.count_append]
    rcases List.mem_cons.1 h with rfl | h
    · simp
    · exact (ih h).trans (Nat.le_add_left _ _)

theorem Log.evaluate_nFun_le (oracle : Oracle K n) (h : Log K n) (req : List (Nat × Nat)) :
    (h.evaluate oracle req).nFun ≤ h.nFun + (req.map Prod.snd).sum := by
  unfold Log.nFun
  rw [Log.evaluate_eq, List.length_append]
  refine Nat.add_le_add_left ((Log.newEvals_length_le _ _ _ _).trans ?_) _
  induction req with
  | nil => simp
  | cons q req ih => simp

theorem Log.getXs_eq_map (h : Log K n) (is : List Nat) (hv : ∀ i ∈ is, i < h.xs.length) :
    ∃ l : List (Vec K n × Nat), h.getXs is = l.map Prod.fst ∧ is = l.map Prod.snd ∧
      ∀ p ∈ l, h.xs[p.2]? = some p.1 := by
  induction is with
  | nil => exact ⟨[], rfl, rfl, by simp⟩
  | cons i is ih =>
    obtain ⟨l, h1, h2, h3⟩ := ih fun j hj => hv j (by simp [hj])
    have hi := hv i (by simp)
    refine ⟨(h.xs[i], i) :: l, ?_, by simp [← h2], ?_⟩
    · unfold Log.getXs at h1 ⊢
      rw [List.filterMap_cons, List.getElem?_eq_getElem hi, h1]
      rfl
    · intro p hp
      rcases List.mem_cons.1 hp with rfl | hp
      · exact List.getElem?_eq_getElem hi
      · exact h3 p hp

theorem mem_addXs_indices (h : Log K n) (rows : List (Vec K n)) (i : Nat) :
    i ∈ (h.addXs rows).2 ↔ h.xs.length ≤ i ∧ i < (h.addXs rows).1.xs.length := by
  simp only [Log.addXs, List.mem_map, List.mem_range, List.length_append]
  constructor
  · rintro ⟨k, hk, rfl⟩; omega
  · rintro ⟨h1, h2⟩; exact ⟨i - h.xs.length, by omega, by omega⟩

theorem nodup_addXs_indices (h : Log K n) (rows : List (Vec K n)) : (h.addXs rows).2.Nodup := by
  refine List.Nodup.map ?_ List.nodup_range
  intro a b hab
  simp only at hab
  omega

/-! ## The decider -/

theorem runDecider_decides [FloorRing K] (c : Config K) (comp : Components K n VM SM) (it : Nat)
    (log : Log K n) (region : Region K n) (sub : SubSolution K n) (cur : Current K n) (h : Log K n) :
    Decides comp.nrm comp.oracle sub cur h (runDecider c comp it log region sub cur h).1
      (runDecider c comp it log region sub cur h).2 := by
  unfold runDecider
  cases c.decider with
  | classic m => exact .classic m
  | naiveNoisy m => exact .naive m
  | noisy m zc zp a b => exact .noisy m _ zc zp a b
  | lineSearch m rf => exact .lineSearch _ _ rf m _

/-- The points that the decider may add. -/
def DeciderPoint [FloorRing K] (c : Config K) (comp : Components K n VM SM) (it : Nat)
    (sub : SubSolution K n) (cur : Current K n) (h : Log K n) (y : Vec K n) : Prop :=
  y = sub.x ∨ ∃ m rf, c.decider = .lineSearch m rf ∧ c.batchSize ≠ 1 ∧
    y ∈ lineSearchXs comp.nrm comp.cubeRadius (comp.sample it 0) rf c.batchSize sub.x cur (h.addX sub.x).1

theorem runDecider_grows [FloorRing K] (c : Config K) (comp : Components K n VM SM) (it : Nat)
    (log : Log K n) (region : Region K n) (sub : SubSolution K n) (cur : Current K n) (h : Log K n)
    (hcur : cur.index < h.xs.length) :
    Grows comp.oracle (DeciderPoint c comp it sub cur h) h
      (runDecider c comp it log region sub cur h).1 := by
  have hsimple : ∀ (P : Vec K n → Prop) (m : K) (ne : Nat), P sub.x →
      Grows comp.oracle P h (acceptSimple comp.nrm comp.oracle m ne sub cur h).1 := by
    intro P m ne hP
    exact (Grows.refl.addX hP).eval _ (by simp [Log.addX]) (by simp)
  unfold runDecider
  cases hd : c.decider with
  | classic m => exact hsimple _ m 1 (Or.inl rfl)
  | naiveNoisy m => exact hsimple _ m 10 (Or.inl rfl)
  | noisy m zc zp a b =>
    refine (Grows.refl.addX (Or.inl rfl)).eval _ ?_ ?_
    · simp [Log.addX]; omega
    · simp [Log.addX]; omega
  | lineSearch m rf =>
    simp only
    unfold acceptLineSearch
    split
    · exact hsimple _ m 1 (Or.inl rfl)
    · rename_i hb
      refine Grows.eval _ ?_ ?_ (Grows.add _ ?_ (Grows.refl.addX (Or.inl rfl)))
      · intro p hp
        rcases List.mem_cons.1 hp with rfl | hp
        · simp [Log.addX, Log.addXs]
        · obtain ⟨i, hi, rfl⟩ := List.mem_map.1 hp
          exact ((mem_addXs_indices _ _ _).1 hi).2
      · rw [List.map_cons, List.map_map, List.nodup_cons]
        refine ⟨fun h0 => ?_, ?_⟩
        · obtain ⟨i, hi, h0⟩ := List.mem_map.1 h0
          have := ((mem_addXs_indices _ _ _).1 hi).1
          simp [Log.addX] at this h0
          omega
        · exact (nodup_addXs_indices _ _).map fun a b h => h
      · intro y hy
        exact Or.inr ⟨m, rf, hd, hb, hy⟩

/-! ## The construction of the model -/

theorem dropWorstInLoop_spec [IsStrictOrderedRing K] (comp : Components K n VM SM)
    (state : LoopState K n VM SM) (l : List (Vec K n × Nat)) (m : Nat) (hm : m ≤ l.length) :
    ∃ kept : List (Vec K n × Nat),
      dropWorstInLoop comp state (l.map Prod.fst) (l.map Prod.snd) m
        = (kept.map Prod.fst, kept.map Prod.snd) ∧ kept.Sublist l ∧ kept.length + m = l.length := by
  obtain ⟨kept, dropped, h1, h2, h3, h4, -⟩ :=
    dropWorst_spec comp.nrm state.x state.index state.trustregion.radius l m hm
  refine ⟨kept, by unfold dropWorstInLoop; rw [h1], h2, ?_⟩
  have := h3.length_eq
  simp only [List.length_append] at this
  omega

/-- Points that the sampler may return in iteration `it`. -/
def SamplePoint (comp : Components K n VM SM) (it : Nat) (state : LoopState K n VM SM)
    (y : Vec K n) : Prop :=
  ∃ round log k xs, y ∈ comp.sample it round log state.trustregion k xs

/-- Invariant of the construction of the model. -/
structure BuildOk (comp : Components K n VM SM) (it : Nat) (state : LoopState K n VM SM)
    (log0 : Log K n) (nEvals : Int) (b : Build K n VM SM) : Prop where
  grows : Grows comp.oracle (SamplePoint comp it state) log0 b.log
  coherent : b = buildModel comp state b.log b.modelXs b.modelIndices
  pairs : ∃ l : List (Vec K n × Nat), b.modelXs = l.map Prod.fst ∧ b.modelIndices = l.map Prod.snd ∧
    ∀ p ∈ l, b.log.xs[p.2]? = some p.1
  evals : ∀ i ∈ b.modelIndices, nEvals.toNat ≤ (b.log.fvals i).length

theorem buildOk_drop [IsStrictOrderedRing K] {comp : Components K n VM SM} {it : Nat}
    {state : LoopState K n VM SM} {log0 : Log K n} {nEvals : Int} {b : Build K n VM SM}
    (hb : BuildOk comp it state log0 nEvals b) (m : Nat) (hm : m ≤ b.modelXs.length) :
    let r := dropWorstInLoop comp state b.modelXs b.modelIndices m
    BuildOk comp it state log0 nEvals (buildModel comp state b.log r.1 r.2) ∧
      r.1.length + m = b.modelXs.length ∧ r.2.Sublist b.modelIndices := by
  obtain ⟨hg, -, ⟨l, hx, hi, hl⟩, he⟩ := hb
  obtain ⟨kept, h1, h2, h3⟩ := dropWorstInLoop_spec comp state l m (by rw [hx] at hm; simpa using hm)
  rw [← hx, ← hi] at h1
  intro r
  have hr : r = (kept.map Prod.fst, kept.map Prod.snd) := h1
  have hsub : r.2.Sublist b.modelIndices := by rw [hr, hi]; exact h2.map _
  refine ⟨⟨hg, rfl, ⟨kept, ?_, ?_, fun p hp => hl p (h2.subset hp)⟩, ?_⟩, ?_, hsub⟩
  · show r.1 = _; rw [hr]
  · show r.2 = _; rw [hr]
  · intro i hi'; exact he i (hsub.subset hi')
  · rw [hr, hx]; simpa using h3

/-- The loop that drops points: what it computes, how often it runs, that the fuel suffices. -/
theorem dropLoop_spec [IsStrictOrderedRing K] (c : Config K) {comp : Components K n VM SM} {it : Nat}
    {state : LoopState K n VM SM} {log0 : Log K n} {nEvals : Int} (fuel : Nat) (b : Build K n VM SM)
    (hb : BuildOk comp it state log0 nEvals b) (hf : b.modelXs.length - c.targetSize ≤ fuel) :
    ∃ (k : Nat) (bs : Nat → Build K n VM SM), bs 0 = b ∧ bs k = dropLoop c comp state fuel b ∧
      (∀ j < k, (bs j).relStep < .fin c.stagnation.minRelativeStepKeep ∧
        c.targetSize < (bs j).modelXs.length ∧
        bs (j + 1) = buildModel comp state (bs j).log
          (dropWorstInLoop comp state (bs j).modelXs (bs j).modelIndices 1).1
          (dropWorstInLoop comp state (bs j).modelXs (bs j).modelIndices 1).2) ∧
      ¬ ((bs k).relStep < .fin c.stagnation.minRelativeStepKeep ∧
        c.targetSize < (bs k).modelXs.length) ∧
      (∀ j ≤ k, BuildOk comp it state log0 nEvals (bs j) ∧ (bs j).log = b.log ∧
        (bs j).modelXs.length + j = b.modelXs.length ∧ (bs j).modelIndices.Sublist b.modelIndices) := by
  induction fuel generalizing b with
  | zero =>
    refine ⟨0, fun _ => b, rfl, rfl, by simp, ?_, ?_⟩
    · rintro ⟨-, h⟩; simp only at h; omega
    · intro j hj; obtain rfl : j = 0 := by omega
      exact ⟨hb, rfl, rfl, List.Sublist.refl _⟩
  | succ fuel ih =>
    by_cases hcond : b.relStep < .fin c.stagnation.minRelativeStepKeep ∧ c.targetSize < b.modelXs.length
    · obtain ⟨h1, h2, h3⟩ := buildOk_drop hb 1 (by omega)
      set b1 := buildModel comp state b.log (dropWorstInLoop comp state b.modelXs b.modelIndices 1).1
        (dropWorstInLoop comp state b.modelXs b.modelIndices 1).2 with hb1
      have hlen : b1.modelXs.length + 1 = b.modelXs.length := h2
      obtain ⟨k, bs, e1, e2, e3, e4, e5⟩ := ih b1 h1 (by omega)
      refine ⟨k + 1, fun j => match j with | 0 => b | j + 1 => bs j, rfl, ?_, ?_, e4, ?_⟩
      · show bs k = _
        rw [e2, dropLoop, if_pos hcond]
      · intro j hj
        cases j with
        | zero => exact ⟨hcond.1, hcond.2, e1⟩
        | succ j => exact e3 j (by omega)
      · intro j hj
        cases j with
        | zero => exact ⟨hb, rfl, rfl, List.Sublist.refl _⟩
        | succ j =>
          obtain ⟨f1, f2, f3, f4⟩ := e5 j (by omega)
          exact ⟨f1, f2, by simp only; omega, f4.trans h3⟩
    · refine ⟨0, fun _ => b, rfl, by rw [dropLoop, if_neg hcond], by simp, hcond, ?_⟩
      intro j hj; obtain rfl : j = 0 := by omega
      exact ⟨hb, rfl, rfl, List.Sublist.refl _⟩

/-- Adding new points, all of them evaluated. -/
theorem buildOk_add {comp : Components K n VM SM} {it : Nat} {state : LoopState K n VM SM}
    {log0 log : Log K n} {nEvals : Int} (hg : Grows comp.oracle (SamplePoint comp it state) log0 log)
    (ids : List Nat) (hids : ∀ i ∈ ids, i < log.xs.length) (additional : List (Nat × Nat))
    (hav : ∀ p ∈ additional, p.1 < log.xs.length) (had : (additional.map Prod.fst).Nodup)
    (hadd : ∀ i ∈ ids, nEvals.toNat ≤ (log.fvals i).length ∨
      ∃ m, (i, m) ∈ additional ∧ nEvals.toNat ≤ (log.fvals i).length + m)
    (newXs : List (Vec K n)) (hnew : ∀ y ∈ newXs, SamplePoint comp it state y) :
    let log' := (log.addXs newXs).1.evaluate comp.oracle
      (((log.addXs newXs).2.map fun i => (i, nEvals.toNat)) ++ additional)
    let ids' := ids ++ (log.addXs newXs).2
    BuildOk comp it state log0 nEvals (buildModel comp state log' (log'.getXs ids') ids') := by
  intro log' ids'
  have hlen : log'.xs = (log.addXs newXs).1.xs := Log.evaluate_xs _ _ _
  have hlen2 : (log.addXs newXs).1.xs.length = log.xs.length + newXs.length := by
    simp [Log.addXs]
  have hv : ∀ i ∈ ids', i < log'.xs.length := by
    intro i hi
    rw [hlen]
    rcases List.mem_append.1 hi with hi | hi
    · have := hids i hi; omega
    · exact ((mem_addXs_indices _ _ _).1 hi).2
  have hreq : ∀ p ∈ ((log.addXs newXs).2.map fun i => (i, nEvals.toNat)) ++ additional,
      p.1 < (log.addXs newXs).1.xs.length := by
    intro p hp
    rcases List.mem_append.1 hp with hp | hp
    · obtain ⟨i, hi, rfl⟩ := List.mem_map.1 hp
      exact ((mem_addXs_indices _ _ _).1 hi).2
    · have := hav p hp; omega
  have hkeys : ((((log.addXs newXs).2.map fun i => (i, nEvals.toNat)) ++ additional).map Prod.fst).Nodup := by
    rw [List.map_append, List.map_map]
    refine List.Nodup.append ((nodup_addXs_indices _ _).map fun a b h => h) had ?_
    intro i hi hi'
    obtain ⟨j, hj, rfl⟩ := List.mem_map.1 hi
    obtain ⟨p, hp, h0⟩ := List.mem_map.1 hi'
    have h1 := ((mem_addXs_indices _ _ _).1 hj).1
    have h2 := hav p hp
    simp only [Function.comp_apply] at h0
    omega
  refine ⟨(hg.add newXs hnew).eval _ hreq hkeys, rfl, ?_, ?_⟩
  · obtain ⟨l, h1, h2, h3⟩ := Log.getXs_eq_map log' ids' hv
    exact ⟨l, h1, h2, h3⟩
  · intro i hi
    show nEvals.toNat ≤ (log'.fvals i).length
    have hi' : i < (log.addXs newXs).1.xs.length := by rw [← hlen]; exact hv i hi
    have hcount : (log'.fvals i).length = _ := Log.fvals_length_evaluate comp.oracle _ _ i hi'
    have hsame : ((log.addXs newXs).1.fvals i).length = (log.fvals i).length := rfl
    rw [hcount, hsame]
    rcases List.mem_append.1 hi with hi | hi
    · rcases hadd i hi with h | ⟨m, hm, h⟩
      · omega
      · have := count_flatMap_ge (((log.addXs newXs).2.map fun i => (i, nEvals.toNat)) ++ additional)
          i m (List.mem_append_right _ hm)
        omega
    · have := count_flatMap_ge (((log.addXs newXs).2.map fun i => (i, nEvals.toNat)) ++ additional)
          i nEvals.toNat (List.mem_append_left _ (List.mem_map.2 ⟨i, hi, rfl⟩))
      omega

/-- The arrays with which a stagnation round goes on after dropping. -/
def roundPoints (c : Config K) (comp : Components K n VM SM) (state : LoopState K n VM SM)
    (b : Build K n VM SM) : List (Vec K n) × List Nat :=
  if c.stagnation.drop = true ∧ c.stagnation.sampleIncrement < b.modelXs.length then
    dropWorstInLoop comp state b.modelXs b.modelIndices c.stagnation.sampleIncrement
  else (b.modelXs, b.modelIndices)

theorem buildOk_round [IsStrictOrderedRing K] (c : Config K) {comp : Components K n VM SM} {it : Nat}
    {state : LoopState K n VM SM} {log0 : Log K n} {nEvals : Int} {b : Build K n VM SM}
    (hb : BuildOk comp it state log0 nEvals b) (round : Nat) :
    BuildOk comp it state log0 nEvals (stagnationRound c comp state nEvals it round b) := by
  have hr : (roundPoints c comp state b).2.Sublist b.modelIndices := by
    unfold roundPoints
    split
    · rename_i h
      exact (buildOk_drop hb _ h.2.le).2.2
    · exact List.Sublist.refl _
  obtain ⟨hg, -, ⟨l, hx, hi, hl⟩, he⟩ := hb
  have hvalid : ∀ i ∈ (roundPoints c comp state b).2, i < b.log.xs.length := by
    intro i hi'
    have := hr.subset hi'
    rw [hi, List.mem_map] at this
    obtain ⟨p, hp, rfl⟩ := this
    exact (List.getElem?_eq_some_iff.1 (hl p hp)).1
  have := buildOk_add (nEvals := nEvals) hg (roundPoints c comp state b).2 hvalid [] (by simp) (by simp)
    (fun i hi' => Or.inl (he i (hr.subset hi')))
    (comp.sample it round b.log state.trustregion c.stagnation.sampleIncrement
      (roundPoints c comp state b).1) (fun y hy => ⟨round, _, _, _, hy⟩)
  simp only [List.append_nil] at this
  exact this

/-- The loop that replaces points: what it computes, how often it runs, that the fuel suffices. -/
theorem stagnationLoop_spec [IsStrictOrderedRing K] (c : Config K) {comp : Components K n VM SM}
    {it : Nat} {state : LoopState K n VM SM} {log0 : Log K n} {nEvals : Int} (fuel k0 : Nat)
    (b : Build K n VM SM) (hb : BuildOk comp it state log0 nEvals b)
    (hf : max 1 (c.stagnation.maxTrials - k0) ≤ fuel) :
    ∃ (k : Nat) (bs : Nat → Build K n VM SM), bs 0 = b ∧
      bs k = stagnationLoop c comp state nEvals it fuel k0 b ∧
      k ≤ max 1 (c.stagnation.maxTrials - k0) ∧
      (∀ j < k, (bs j).relStep < .fin c.stagnation.minRelativeStep ∧
        bs (j + 1) = stagnationRound c comp state nEvals it (k0 + j + 2) (bs j)) ∧
      (k < max 1 (c.stagnation.maxTrials - k0) →
        ¬ (bs k).relStep < .fin c.stagnation.minRelativeStep) ∧
      (∀ j ≤ k, BuildOk comp it state log0 nEvals (bs j)) := by
  induction fuel generalizing b k0 with
  | zero => omega
  | succ fuel ih =>
    by_cases hcond : b.relStep < .fin c.stagnation.minRelativeStep
    · have h1 := buildOk_round c hb (k0 + 2)
      by_cases hend : c.stagnation.maxTrials ≤ k0 + 1
      · refine ⟨1, fun j => match j with
          | 0 => b | _ + 1 => stagnationRound c comp state nEvals it (k0 + 2) b, rfl, ?_, by omega,
          ?_, by omega, ?_⟩
        · rw [stagnationLoop, if_pos hcond]
          simp only [if_pos hend]
        · intro j hj; obtain rfl : j = 0 := by omega
          exact ⟨hcond, rfl⟩
        · intro j hj
          cases j with
          | zero => exact hb
          | succ j => exact h1
      · obtain ⟨k, bs, e1, e2, e3, e4, e5, e6⟩ := ih (k0 + 1) _ h1 (by omega)
        refine ⟨k + 1, fun j => match j with | 0 => b | j + 1 => bs j, rfl, ?_, by omega, ?_, ?_, ?_⟩
        · show bs k = _
          rw [e2, stagnationLoop, if_pos hcond]
          simp only [if_neg hend]
        · intro j hj
          cases j with
          | zero => exact ⟨hcond, e1⟩
          | succ j =>
            have := e4 j (by omega)
            rw [show k0 + (j + 1) + 2 = k0 + 1 + j + 2 by omega]
            exact this
        · intro hk; exact e5 (by omega)
        · intro j hj
          cases j with
          | zero => exact hb
          | succ j => exact e6 j (by omega)
    · refine ⟨0, fun _ => b, rfl, by rw [stagnationLoop, if_neg hcond], by omega, by simp,
        fun _ => hcond, ?_⟩
      intro j _; exact hb

/-- What the main loop needs from the filter: it selects points together with their indices from those
it is given and the current point. -/
def FilterSelects (comp : Components K n VM SM) : Prop :=
  ∀ state log target nEvals (l : List (Vec K n × Nat)),
    ∃ kept : List (Vec K n × Nat), kept ⊆ (state.x, state.index) :: l ∧
      comp.filter state log target nEvals (l.map Prod.fst) (l.map Prod.snd)
        = (kept.map Prod.fst, kept.map Prod.snd)

theorem mem_indicesInRegion {nrm : Vec K n → K} {h : Log K n} {center : Vec K n} {radius : K} {i : Nat}
    (hi : i ∈ h.indicesInRegion nrm center radius) : i < h.xs.length := by
  unfold Log.indicesInRegion at hi
  split at hi
  · simp at hi
  · rw [List.mem_filter] at hi
    exact List.mem_range.1 hi.1

section buildPhase

variable [FloorRing K] (c : Config K) (comp : Components K n VM SM) (it : Nat)
    (state : LoopState K n VM SM) (log : Log K n) (nEvals : Int)

/-- `old_indices` -/
def oldIndices : List Nat :=
  log.indicesInRegion comp.nrm state.trustregion.center
    (c.searchRadiusFactor * state.trustregion.radius)

/-- The points after filtering. -/
def filtered : List (Vec K n) × List Nat :=
  comp.filter state log c.targetSize nEvals (log.getXs (oldIndices c comp state log))
    (oldIndices c comp state log)

/-- The number of new points of the first sample. -/
def nNewPoints : Nat :=
  (nextMultiple (K := K) (c.targetSize - (filtered c comp state log nEvals).1.length)
    c.batchSize).toNat

/-- The points of the first sample. -/
def firstSample : List (Vec K n) :=
  comp.sample it 1 log state.trustregion (nNewPoints c comp state log nEvals)
    (filtered c comp state log nEvals).1

/-- The history after the first sample. -/
def firstLog : Log K n :=
  (log.addXs (firstSample c comp it state log nEvals)).1.evaluate comp.oracle
    (((log.addXs (firstSample c comp it state log nEvals)).2.map fun i => (i, nEvals.toNat)) ++
      additionalEvalInfo log (filtered c comp state log nEvals).2 nEvals)

/-- The first model. -/
def firstBuild : Build K n VM SM :=
  let ids := (filtered c comp state log nEvals).2 ++
    (log.addXs (firstSample c comp it state log nEvals)).2
  buildModel comp state (firstLog c comp it state log nEvals)
    ((firstLog c comp it state log nEvals).getXs ids) ids

/-- The model after dropping points. -/
def secondBuild : Build K n VM SM :=
  let b := firstBuild c comp it state log nEvals
  dropLoop c comp state b.modelXs.length b

theorem buildPhase_eq :
    buildPhase c comp it state log nEvals =
      (oldIndices c comp state log,
        stagnationLoop c comp state nEvals it (max 1 c.stagnation.maxTrials) 0
          (secondBuild c comp it state log nEvals)) := rfl

theorem filtered_spec (hf : FilterSelects comp) (hx : log.xs[state.index]? = some state.x) :
    ∃ kept : List (Vec K n × Nat), filtered c comp state log nEvals
        = (kept.map Prod.fst, kept.map Prod.snd) ∧
      (∀ p ∈ kept, (p.2 ∈ oldIndices c comp state log ∨ p.2 = state.index) ∧
        log.xs[p.2]? = some p.1) := by
  obtain ⟨l, h1, h2, h3⟩ := Log.getXs_eq_map log (oldIndices c comp state log)
    (fun i hi => mem_indicesInRegion hi)
  obtain ⟨kept, hk, hfk⟩ := hf state log c.targetSize nEvals l
  refine ⟨kept, ?_, fun p hp => ?_⟩
  · unfold filtered; rw [h1]; rw [← hfk]; rw [← h2]
  · rcases List.mem_cons.1 (hk hp) with rfl | hp
    · exact ⟨Or.inr rfl, hx⟩
    · exact ⟨Or.inl (by rw [h2]; exact List.mem_map_of_mem hp), h3 p hp⟩

theorem firstBuild_ok (hf : FilterSelects comp) (hx : log.xs[state.index]? = some state.x) :
    BuildOk comp it state log nEvals (firstBuild c comp it state log nEvals) := by
  obtain ⟨kept, hk, hk2⟩ := filtered_spec c comp state log nEvals hf hx
  have hids : ∀ i ∈ (filtered c comp state log nEvals).2, i < log.xs.length := by
    intro i hi
    rw [hk] at hi
    obtain ⟨p, hp, rfl⟩ := List.mem_map.1 hi
    exact (List.getElem?_eq_some_iff.1 (hk2 p hp).2).1
  refine buildOk_add Grows.refl _ hids _ ?_ ?_ ?_ _ ?_
  · intro p hp
    unfold additionalEvalInfo at hp
    obtain ⟨i, hi, rfl⟩ := List.mem_map.1 (List.mem_filter.1 hp).1
    exact hids i (List.mem_dedup.1 hi)
  · unfold additionalEvalInfo
    refine List.Nodup.sublist (List.filter_sublist.map _) ?_
    rw [List.map_map]
    exact (List.nodup_dedup _).map fun a b h => h
  · intro i hi
    by_cases h : 0 < (nEvals - ((log.fvals i).length : Int)).toNat
    · right
      refine ⟨(nEvals - ((log.fvals i).length : Int)).toNat, ?_, by omega⟩
      unfold additionalEvalInfo
      rw [List.mem_filter]
      refine ⟨List.mem_map.2 ⟨i, by simpa using hi, rfl⟩, by simpa using h⟩
    · left; omega
  · intro y hy; exact ⟨1, _, _, _, hy⟩

theorem secondBuild_ok [IsStrictOrderedRing K] (hf : FilterSelects comp)
    (hx : log.xs[state.index]? = some state.x) :
    BuildOk comp it state log nEvals (secondBuild c comp it state log nEvals) := by
  obtain ⟨k, bs, -, h2, -, -, h5⟩ := dropLoop_spec c _ _
    (firstBuild_ok c comp it state log nEvals hf hx) (Nat.sub_le _ c.targetSize)
  have := (h5 k le_rfl).1
  rw [h2] at this
  exact this

theorem buildPhase_ok [IsStrictOrderedRing K] (hf : FilterSelects comp)
    (hx : log.xs[state.index]? = some state.x) :
    BuildOk comp it state log nEvals (buildPhase c comp it state log nEvals).2 := by
  rw [buildPhase_eq]
  obtain ⟨k, bs, -, h2, -, -, -, h6⟩ := stagnationLoop_spec c (max 1 c.stagnation.maxTrials) 0 _
    (secondBuild_ok c comp it state log nEvals hf hx) (by omega)
  have := h6 k le_rfl
  rw [h2] at this
  exact this

end buildPhase

/-! ## Iterations -/

section iteration

variable [FloorRing K] (c : Config K) (comp : Components K n VM SM) (it : Nat) (r : Run K n VM SM)

/-- The model of an iteration. -/
def theBuild : Build K n VM SM := (buildPhase c comp it r.state r.log r.nEvals).2

/-- History and result of the acceptance decision of an iteration. -/
def theDecision : Log K n × AcceptanceResult K n :=
  runDecider c comp it (theBuild c comp it r).log r.state.trustregion (theBuild c comp it r).sub
    r.state.current (theBuild c comp it r).log

/-- The state that an iteration appends to the list of states. -/
def theState : LoopState K n VM SM :=
  let b := theBuild c comp it r
  let res := (theDecision c comp it r).2
  let old := oldIndices c comp r.state r.log
  { r.state with
    modelIndices := b.modelIndices
    model := b.model
    newIndices := setDiff1d b.modelIndices old
    oldIndicesUsed := intersect1d b.modelIndices old
    oldIndicesDiscarded := setDiff1d old b.modelIndices
    x := res.x
    fval := res.fval
    index := res.index
    rho := res.rho
    accepted := res.accepted
    stepLength := some res.stepLength
    relativeStepLength := some res.relativeStepLength
    candidateIndex := res.candidateIndex
    candidateX := res.candidateX
    nEvalsAcceptance := some res.nEvalsAcceptance
    nEvalsPerPoint := some r.nEvals }

/-- The outcome of the convergence check of an iteration. -/
def theCheck : Option Msg :=
  if (theDecision c comp it r).2.accepted && !c.conv.disable then
    isConverged comp.nrm comp.gradNorm c.conv r.state (theState c comp it r) else none

/-- The number of evaluations per point after the iteration and whether it was increased. -/
def theNEvals : Int × Bool :=
  if c.noisy then
    adjustNEvals r.nEvals (theDecision c comp it r).2.rho
      (comp.rhoNoise it (theBuild c comp it r).log (theBuild c comp it r).modelXs
        (theBuild c comp it r).vectorModel (theState c comp it r).vectorModel
        (theState c comp it r).trustregion) c.noise
  else (r.nEvals, false)

/-- The radius after the iteration. -/
def theRadius : K :=
  adjustRadius r.state.trustregion.radius (theDecision c comp it r).2.rho
    (theDecision c comp it r).2.stepLength c.radius (theNEvals c comp it r).2

theorem iteration_eq : iteration c comp it r =
    { log := (theDecision c comp it r).1
      state := { theState c comp it r with
        trustregion := { r.state.trustregion with
          center := (theDecision c comp it r).2.x, radius := theRadius c comp it r } }
      states := r.states ++ [theState c comp it r]
      nEvals := (theNEvals c comp it r).1
      converged := (theCheck c comp it r).isSome
      msg := match theCheck c comp it r with
        | some m => some m
        | none => if c.maxEval ≤ (theDecision c comp it r).1.nFun then some .maxEval else none
      stop := (theCheck c comp it r).isSome || decide (c.maxEval ≤ (theDecision c comp it r).1.nFun) } := by
  have h : iteration c comp it r =
      (match theCheck c comp it r with
      | some m => ({ log := (theDecision c comp it r).1
                     state := { theState c comp it r with
                      trustregion := { r.state.trustregion with
                        center := (theDecision c comp it r).2.x, radius := theRadius c comp it r } }
                     states := r.states ++ [theState c comp it r]
                     nEvals := (theNEvals c comp it r).1
                     converged := true, msg := some m, stop := true } : Run K n VM SM)
      | none =>
        if c.maxEval ≤ (theDecision c comp it r).1.nFun then
          { log := (theDecision c comp it r).1
            state := { theState c comp it r with
              trustregion := { r.state.trustregion with
                center := (theDecision c comp it r).2.x, radius := theRadius c comp it r } }
            states := r.states ++ [theState c comp it r]
            nEvals := (theNEvals c comp it r).1
            converged := false, msg := some .maxEval, stop := true }
        else
          { log := (theDecision c comp it r).1
            state := { theState c comp it r with
              trustregion := { r.state.trustregion with
                center := (theDecision c comp it r).2.x, radius := theRadius c comp it r } }
            states := r.states ++ [theState c comp it r]
            nEvals := (theNEvals c comp it r).1
            converged := false, msg := none, stop := false }) := rfl
  rw [h]
  cases theCheck c comp it r with
  | some m => rfl
  | none => by_cases hm : c.maxEval ≤ (theDecision c comp it r).1.nFun <;> simp [hm]

theorem theDecision_decides :
    Decides comp.nrm comp.oracle (theBuild c comp it r).sub r.state.current (theBuild c comp it r).log
      (theDecision c comp it r).1 (theDecision c comp it r).2 :=
  runDecider_decides _ _ _ _ _ _ _ _

end iteration

/-- `k` iterations without checking whether to stop. -/
def iterates [FloorRing K] (c : Config K) (comp : Components K n VM SM) (r0 : Run K n VM SM) :
    Nat → Run K n VM SM
  | 0 => r0
  | k + 1 => iteration c comp k (iterates c comp r0 k)

theorem runLoop_iterates [FloorRing K] (c : Config K) (comp : Components K n VM SM)
    (r0 : Run K n VM SM) (k it : Nat) :
    ∃ m, it ≤ m ∧ m ≤ it + k ∧ runLoop c comp k it (iterates c comp r0 it) = iterates c comp r0 m ∧
      (∀ j, it < j → j < m → (iterates c comp r0 j).stop = false) ∧
      (m < it + k → it < m ∧ (iterates c comp r0 m).stop = true) := by
  induction k generalizing it with
  | zero => exact ⟨it, le_rfl, le_rfl, rfl, by omega, by omega⟩
  | succ k ih =>
    by_cases hs : (iteration c comp it (iterates c comp r0 it)).stop = true
    · refine ⟨it + 1, by omega, by omega, ?_, by omega, fun _ => ⟨by omega, hs⟩⟩
      rw [runLoop]
      simp only [hs, if_true]
      rfl
    · obtain ⟨m, h1, h2, h3, h4, h5⟩ := ih (it + 1)
      refine ⟨m, by omega, by omega, ?_, ?_, fun h => ?_⟩
      · rw [runLoop]
        simp only [hs]
        exact h3
      · intro j hj hjm
        rcases Nat.lt_or_ge (it + 1) j with h | h
        · exact h4 j h hjm
        · obtain rfl : j = it + 1 := by omega
          exact Bool.eq_false_iff.2 hs
      · have := h5 (by omega)
        exact ⟨by omega, this.2⟩

/-- A run consists of some number of iterations of which only the last one may want to stop. -/
theorem tranquilo_iterates [FloorRing K] (c : Config K) (comp : Components K n VM SM) (x : Vec K n)
    (radius : K) (bounds : Bounds K n) :
    ∃ m, m ≤ c.maxIter ∧
      tranquilo c comp x radius bounds = iterates c comp (startRun c comp x radius bounds) m ∧
      (∀ j, 0 < j → j < m → (iterates c comp (startRun c comp x radius bounds) j).stop = false) ∧
      (m < c.maxIter → 0 < m ∧ (iterates c comp (startRun c comp x radius bounds) m).stop = true) := by
  obtain ⟨m, -, h2, h3, h4, h5⟩ := runLoop_iterates c comp (startRun c comp x radius bounds) c.maxIter 0
  exact ⟨m, by omega, h3, h4, fun h => h5 (by omega)⟩

theorem iterates_states_length [FloorRing K] (c : Config K) (comp : Components K n VM SM)
    (x : Vec K n) (radius : K) (bounds : Bounds K n) (m : Nat) :
    (iterates c comp (startRun c comp x radius bounds) m).states.length = m + 1 := by
  induction m with
  | zero => rfl
  | succ m ih => rw [iterates, iteration_eq]; simp [ih]

end Tranquilo

namespace Tranquilo

variable {K : Type} [Field K] [LinearOrder K] [IsStrictOrderedRing K] [FloorRing K] {n : Nat}
  {VM SM : Type}

omit [IsStrictOrderedRing K] in
theorem tranquilo_induction (c : Config K) (comp : Components K n VM SM) (x : Vec K n)
    (radius : K) (bounds : Bounds K n) (P : Run K n VM SM → Prop)
    (h0 : P (startRun c comp x radius bounds))
    (hstep : ∀ it r, P r → P (iteration c comp it r)) : P (tranquilo c comp x radius bounds) := by
  obtain ⟨m, -, h, -⟩ := tranquilo_iterates c comp x radius bounds
  rw [h]
  clear h
  induction m with
  | zero => exact h0
  | succ m ih => exact hstep _ _ ih

/-- Points that an iteration may add. -/
def IterPoint (c : Config K) (comp : Components K n VM SM) (it : Nat) (r : Run K n VM SM)
    (y : Vec K n) : Prop :=
  SamplePoint comp it r.state y ∨
    DeciderPoint c comp it (theBuild c comp it r).sub r.state.current (theBuild c comp it r).log y

omit [IsStrictOrderedRing K] in
theorem decision_grows (c : Config K) (comp : Components K n VM SM) (it : Nat) (r : Run K n VM SM)
    (hidx : r.state.index < (theBuild c comp it r).log.xs.length) :
    Grows comp.oracle (IterPoint c comp it r) (theBuild c comp it r).log (theDecision c comp it r).1 :=
  (runDecider_grows c comp it _ r.state.trustregion _ _ _ hidx).mono fun _ h => Or.inr h

theorem iteration_grows (c : Config K) (comp : Components K n VM SM) (hf : FilterSelects comp) (it : Nat)
    (r : Run K n VM SM) (hx : r.log.xs[r.state.index]? = some r.state.x) :
    Grows comp.oracle (IterPoint c comp it r) r.log (iteration c comp it r).log := by
  have hb := (buildPhase_ok c comp it r.state r.log r.nEvals hf hx).grows
  rw [iteration_eq]
  exact (hb.mono fun _ h => Or.inl h).trans (decision_grows c comp it r
    ((List.getElem?_eq_some_iff.1 hx).1.trans_le hb.xs_prefix.length_le))

/-- Invariant of the run: the history is sound and the states refer to it. -/
structure RunOk (comp : Components K n VM SM) (bounds : Bounds K n) (r : Run K n VM SM) : Prop where
  consistent : r.log.Consistent comp.oracle
  center : r.state.trustregion.center = r.state.x
  bounds : r.state.trustregion.bounds = bounds
  point : r.log.xs[r.state.index]? = some r.state.x
  states : ∀ s ∈ r.states, r.log.xs[s.index]? = some s.x ∧
    r.log.xs[s.candidateIndex]? = some s.candidateX
  last : ∃ pre s, r.states = pre ++ [s] ∧ r.state = { s with trustregion := r.state.trustregion }

omit [IsStrictOrderedRing K] in
theorem startRun_ok (c : Config K) (comp : Components K n VM SM) (x : Vec K n)
    (radius : K) (bounds : Bounds K n) : RunOk comp bounds (startRun c comp x radius bounds) where
  consistent := by
    have h : Grows comp.oracle (fun _ => True) (⟨[x], []⟩ : Log K n)
        (startRun c comp x radius bounds).log := Grows.refl.eval _ (by simp) (by simp)
    exact h.consistent (by intro p hp; simp at hp)
  center := rfl
  bounds := rfl
  point := by simp [startRun]
  states := by
    intro s hs
    obtain rfl := List.mem_singleton.1 hs
    simp [startRun]
  last := ⟨[], _, rfl, rfl⟩

theorem iteration_ok (c : Config K) (comp : Components K n VM SM) (hf : FilterSelects comp)
    (bounds : Bounds K n) (it : Nat) (r : Run K n VM SM) (hr : RunOk comp bounds r) :
    RunOk comp bounds (iteration c comp it r) := by
  have hg := iteration_grows c comp hf it r hr.point
  have hbg := (buildPhase_ok c comp it r.state r.log r.nEvals hf hr.point).grows
  have hbc : (theBuild c comp it r).log.Consistent comp.oracle := hbg.consistent hr.consistent
  have hlog : (iteration c comp it r).log = (theDecision c comp it r).1 := by rw [iteration_eq]
  obtain ⟨cx, ci, rho, acc, ne, hx, -, hres⟩ :=
    decides_finish hbc.wf (theDecision_decides c comp it r)
  have hold : (theDecision c comp it r).1.xs[r.state.index]? = some r.state.x := by
    rw [← hlog]; exact getElem?_of_prefix hg.xs_prefix hr.point
  obtain ⟨f1, f2, f3, f4, f5, f6⟩ :=
    finish_spec comp.nrm cx (XVal.mean ((theDecision c comp it r).1.fvals ci)) ci rho acc
      r.state.current ne
  rw [← hres] at f1 f2 f3 f4 f5
  have hpoint : (theDecision c comp it r).1.xs[(theDecision c comp it r).2.index]?
      = some (theDecision c comp it r).2.x := by
    cases ha : (theDecision c comp it r).2.accepted with
    | true => rw [(f2 ha).1, (f2 ha).2.2.1]; exact hx
    | false => rw [(f3 ha).1, (f3 ha).2.2.1]; exact hold
  have hcand : (theDecision c comp it r).1.xs[(theDecision c comp it r).2.candidateIndex]?
      = some (theDecision c comp it r).2.candidateX := by
    cases hfin : (XVal.mean ((theDecision c comp it r).1.fvals ci)).isFinite with
    | true => rw [(f5 hfin).2.1, (f5 hfin).2.2]; exact hx
    | false => rw [(f4 hfin).2.2.1, (f4 hfin).2.2.2]; exact hold
  refine ⟨hg.consistent hr.consistent, ?_, ?_, ?_, ?_, ?_⟩
  · rw [iteration_eq]; rfl
  · rw [iteration_eq]; exact hr.bounds
  · rw [iteration_eq]; exact hpoint
  · intro s hs
    have hs' : s ∈ r.states ∨ s = theState c comp it r := by
      rw [iteration_eq] at hs
      simpa using hs
    rcases hs' with hs | rfl
    · exact ⟨getElem?_of_prefix hg.xs_prefix (hr.states s hs).1,
        getElem?_of_prefix hg.xs_prefix (hr.states s hs).2⟩
    · rw [hlog]; exact ⟨hpoint, hcand⟩
  · rw [iteration_eq]; exact ⟨r.states, theState c comp it r, rfl, rfl⟩

theorem tranquilo_ok (c : Config K) (comp : Components K n VM SM) (hf : FilterSelects comp)
    (x : Vec K n) (radius : K) (bounds : Bounds K n) :
    RunOk comp bounds (tranquilo c comp x radius bounds) :=
  tranquilo_induction c comp x radius bounds _ (startRun_ok c comp x radius bounds)
    fun it r => iteration_ok c comp hf bounds it r

/-! ## Criteria without noise -/

omit [FloorRing K] in
theorem mean_const (v : XVal K) (l : List (XVal K)) (hl : l ≠ []) (hv : ∀ a ∈ l, a = v) :
    XVal.mean l = v := by
  have hrep : l = List.replicate l.length v := List.eq_replicate_iff.2 ⟨rfl, hv⟩
  have hpos : 0 < l.length := List.length_pos_iff.2 hl
  unfold XVal.mean
  rw [if_neg hl]
  generalize l.length = k at hrep hpos
  subst hrep
  obtain ⟨k, rfl⟩ : ∃ m, k = m + 1 := ⟨k - 1, by omega⟩
  have hsum : ∀ m : Nat, (List.replicate (m + 1) v).sum = match v with
      | .fin a => .fin (((m + 1 : Nat) : K) * a)
      | w => w := by
    intro m
    induction m with
    | zero =>
      cases v with
      | fin a => simp only [List.replicate_one, List.sum_cons, List.sum_nil]
                 show XVal.fin (a + 0) = _
                 simp
      | _ => rfl
    | succ m ih =>
      rw [List.replicate_succ, List.sum_cons, ih]
      cases v with
      | fin a => simp only [XVal.fin_add_fin]; congr 1; push_cast; ring
      | _ => rfl
  rw [hsum]
  cases v with
  | fin a =>
    have h0 : ((k + 1 : Nat) : K) ≠ 0 := by exact_mod_cast Nat.succ_ne_zero k
    simp only [FloatLike.divNat]
    rw [mul_div_cancel_left₀ _ h0, if_neg (Nat.succ_ne_zero k)]
  | _ => rfl

omit [IsStrictOrderedRing K] [FloorRing K] in
theorem Log.Consistent.fvals_eq {oracle : Oracle K n} {h : Log K n} (hc : h.Consistent oracle)
    {f : Vec K n → XVal K} (hdet : ∀ k x, oracle k x = f x) {i : Nat} {x : Vec K n}
    (hx : h.xs[i]? = some x) : ∀ a ∈ h.fvals i, a = f x := by
  intro a ha
  unfold Log.fvals at ha
  obtain ⟨p, hp, rfl⟩ := List.mem_map.1 ha
  rw [List.mem_filter] at hp
  obtain ⟨k, y, hy, hv⟩ := hc p hp.1
  have : p.1 = i := by simpa using hp.2
  rw [this, hx] at hy
  rw [hv, hdet, Option.some.inj hy]

/-- `min_improvement` of the decider. -/
def DeciderChoice.minImprovement : DeciderChoice K → K
  | .classic m => m
  | .naiveNoisy m => m
  | .noisy m _ _ _ _ => m
  | .lineSearch m _ => m

omit [FloorRing K] in
theorem acceptSimple_improves (nrm : Vec K n → K) (oracle : Oracle K n) (m : K) (ne : Nat)
    (sub : SubSolution K n) (old : Current K n) (h : Log K n)
    (hacc : (acceptSimple nrm oracle m ne sub old h).2.accepted = true) :
    ImprovesBy m old.fval (acceptSimple nrm oracle m ne sub old h).2.fval := by
  have hs := finish_spec nrm sub.x
    (XVal.mean ((acceptSimple nrm oracle m ne sub old h).1.fvals h.xs.length)) h.xs.length
    (calculateRho (-(XVal.mean ((acceptSimple nrm oracle m ne sub old h).1.fvals h.xs.length) - old.fval))
      sub.expectedImprovement)
    (decide (XVal.fin m ≤
      -(XVal.mean ((acceptSimple nrm oracle m ne sub old h).1.fvals h.xs.length) - old.fval))) old ne
  have hr : (acceptSimple nrm oracle m ne sub old h).2 = finishDecision nrm sub.x
    (XVal.mean ((acceptSimple nrm oracle m ne sub old h).1.fvals h.xs.length)) h.xs.length
    (calculateRho (-(XVal.mean ((acceptSimple nrm oracle m ne sub old h).1.fvals h.xs.length) - old.fval))
      sub.expectedImprovement)
    (decide (XVal.fin m ≤
      -(XVal.mean ((acceptSimple nrm oracle m ne sub old h).1.fvals h.xs.length) - old.fval))) old ne :=
    rfl
  rw [← hr] at hs
  rw [(hs.2.1 hacc).2.1, ← improves_iff]
  obtain ⟨h1, h2⟩ := hs.1.1 hacc
  exact ⟨h2, by simpa using h1⟩

/-- Deciders that compare with the stored value of the current point. -/
theorem decision_improves_stored (c : Config K) (comp : Components K n VM SM) (it : Nat)
    (hdec : ∀ m zc zp a b, c.decider ≠ .noisy m zc zp a b) (hb : 1 ≤ c.batchSize)
    (log : Log K n) (region : Region K n) (sub : SubSolution K n) (cur : Current K n) (h : Log K n)
    (hw : h.WF) (hacc : (runDecider c comp it log region sub cur h).2.accepted = true) :
    ImprovesBy c.decider.minImprovement cur.fval (runDecider c comp it log region sub cur h).2.fval := by
  unfold runDecider at hacc ⊢
  cases hd : c.decider with
  | classic m => rw [hd] at hacc; exact acceptSimple_improves _ _ _ _ _ _ _ hacc
  | naiveNoisy m => rw [hd] at hacc; exact acceptSimple_improves _ _ _ _ _ _ _ hacc
  | noisy m zc zp a b => exact absurd hd (hdec m zc zp a b)
  | lineSearch m rf =>
    rw [hd] at hacc
    simp only at hacc ⊢
    by_cases hb1 : c.batchSize = 1
    · rw [hb1] at hacc ⊢
      have he : acceptLineSearch comp.nrm comp.cubeRadius comp.oracle (comp.sample it 0) rf m 1 sub cur h
          = acceptSimple comp.nrm comp.oracle m 1 sub cur h := by
        unfold acceptLineSearch acceptClassic; rw [if_pos rfl]
      rw [he] at hacc ⊢
      exact acceptSimple_improves _ _ _ _ _ _ _ hacc
    · exact C11_line_search_accepted_improved _ _ _ _ _ _ _ _ _ _ (by omega) hw _ _ rfl hacc

/-- For criteria without noise all deciders compare with the value of the current point. -/
theorem decision_improves_det (c : Config K) (comp : Components K n VM SM) (it : Nat)
    (hb : 1 ≤ c.batchSize) (log : Log K n) (region : Region K n) (sub : SubSolution K n)
    (cur : Current K n) (h : Log K n) (hc : h.Consistent comp.oracle)
    {f : Vec K n → XVal K} (hdet : ∀ k x, comp.oracle k x = f x) (hx : h.xs[cur.index]? = some cur.x)
    (hv : cur.fval = f cur.x)
    (hacc : (runDecider c comp it log region sub cur h).2.accepted = true) :
    ImprovesBy c.decider.minImprovement cur.fval (runDecider c comp it log region sub cur h).2.fval := by
  by_cases hdec : ∀ m zc zp a b, c.decider ≠ .noisy m zc zp a b
  · exact decision_improves_stored c comp it hdec hb log region sub cur h hc.wf hacc
  · push Not at hdec
    obtain ⟨m, zc, zp, a, b, hd⟩ := hdec
    have hgrow := runDecider_grows c comp it log region sub cur h (List.getElem?_eq_some_iff.1 hx).1
    have hcons := hgrow.consistent hc
    have hx' := getElem?_of_prefix hgrow.xs_prefix hx
    unfold runDecider at hacc hcons hx' ⊢
    rw [hd] at hacc hcons hx' ⊢
    simp only at hacc hcons hx' ⊢
    generalize hout : acceptNoisy comp.nrm comp.oracle m (comp.noiseSigma log region) zc zp a b sub cur
        h = out at hacc hcons hx' ⊢
    obtain ⟨h', res⟩ := out
    obtain ⟨-, -, himp, -⟩ := C17_accepted_partial _ _ _ _ _ _ _ _ _ _ _ _ hc.wf _ hout hacc
    rw [hv]
    by_cases hne : h'.fvals cur.index = []
    · rw [hne] at himp
      obtain ⟨v, -, h1 | ⟨w, h1, -⟩⟩ := himp <;> simp [XVal.mean] at h1
    · rw [mean_const _ _ hne (hcons.fvals_eq hdet hx')] at himp
      exact himp

end Tranquilo
