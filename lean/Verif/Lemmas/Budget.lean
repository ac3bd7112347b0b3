import Verif.Lemmas.MainLoop
import Verif.Props.SampleSize

/-!
# Lemmas on the number of evaluations of an iteration
-/

namespace Tranquilo

variable {K : Type} [Field K] [LinearOrder K] [IsStrictOrderedRing K] [FloorRing K] {n : Nat}
  {VM SM : Type}

/-- Every stored point has been evaluated. -/
def Log.AllEvaluated (h : Log K n) : Prop := ∀ i < h.xs.length, h.fvals i ≠ []

omit [IsStrictOrderedRing K] [FloorRing K] in
theorem allEvaluated_add {h : Log K n} (ha : h.AllEvaluated) (oracle : Oracle K n)
    (rows : List (Vec K n)) (req : List (Nat × Nat))
    (hreq : ∀ i ∈ (h.addXs rows).2, ∃ m, 1 ≤ m ∧ (i, m) ∈ req) :
    ((h.addXs rows).1.evaluate oracle req).AllEvaluated := by
  intro i hi hnil
  rw [Log.evaluate_xs] at hi
  have hc := Log.fvals_length_evaluate oracle (h.addXs rows).1 req i hi
  rw [hnil, List.length_nil] at hc
  by_cases hold : i < h.xs.length
  · have h1 : ((h.addXs rows).1.fvals i).length = (h.fvals i).length := rfl
    have h2 := ha i hold
    rw [← List.length_pos_iff] at h2
    omega
  · obtain ⟨m, hm, hmem⟩ := hreq i ((mem_addXs_indices _ _ _).2 ⟨by omega, hi⟩)
    have := count_flatMap_ge req i m hmem
    omega

omit [Field K] [LinearOrder K] [IsStrictOrderedRing K] [FloorRing K] in
theorem addXs_indices_length (h : Log K n) (rows : List (Vec K n)) :
    (h.addXs rows).2.length = rows.length := by simp [Log.addXs]

omit [IsStrictOrderedRing K] [FloorRing K] in
theorem nFun_add_le (h : Log K n) (oracle : Oracle K n) (rows : List (Vec K n)) :
    ((h.addXs rows).1.evaluate oracle ((h.addXs rows).2.map fun i => (i, 1))).nFun
      ≤ h.nFun + rows.length := by
  refine (Log.evaluate_nFun_le _ _ _).trans ?_
  have : ((h.addXs rows).1).nFun = h.nFun := rfl
  rw [this, List.map_map]
  simp [Function.comp_def, addXs_indices_length]

theorem nextMultiple_lt (k base : Nat) (hb : 1 ≤ base) :
    (nextMultiple (K := K) k base).toNat ≤ k + base - 1 := by
  obtain ⟨⟨q, hq⟩, h2, h3⟩ := C60_next_multiple (K := K) k base hb
  rw [hq] at h2 h3 ⊢
  have h4 := h3 ((base : Int) * (q - 1)) ⟨_, rfl⟩
  have hexp : (base : Int) * (q - 1) = (base : Int) * q - base := by ring
  rw [hexp] at h4
  by_contra hcon
  have : (k : Int) ≤ (base : Int) * q - base := by omega
  have := h4 this
  omega

section det

variable (c : Config K) (comp : Components K n VM SM) (it : Nat)

/-- At most as many points as requested. -/
def SamplerObeys (comp : Components K n VM SM) : Prop :=
  ∀ it round log region k xs, (comp.sample it round log region k xs).length ≤ k

omit [IsStrictOrderedRing K] in
theorem additional_nil (log : Log K n) (ha : log.AllEvaluated) (ids : List Nat)
    (hids : ∀ i ∈ ids, i < log.xs.length) : additionalEvalInfo log ids 1 = [] := by
  unfold additionalEvalInfo
  rw [List.filter_eq_nil_iff]
  intro p hp
  obtain ⟨i, hi, rfl⟩ := List.mem_map.1 hp
  have := ha i (hids i (List.mem_dedup.1 hi))
  rw [← List.length_pos_iff] at this
  simp only [decide_eq_true_eq]
  omega

theorem firstLog_budget (hf : FilterSelects comp) (hs : SamplerObeys comp) (hb : 1 ≤ c.batchSize)
    (state : LoopState K n VM SM) (log : Log K n) (hx : log.xs[state.index]? = some state.x)
    (ha : log.AllEvaluated) :
    (firstLog c comp it state log 1).AllEvaluated ∧
    (firstLog c comp it state log 1).nFun ≤ log.nFun + (c.targetSize + c.batchSize - 1) := by
  obtain ⟨kept, hk, hk2⟩ := filtered_spec c comp state log 1 hf hx
  have hadd : additionalEvalInfo log (filtered c comp state log 1).2 1 = [] := by
    refine additional_nil log ha _ ?_
    intro i hi
    rw [hk] at hi
    obtain ⟨p, hp, rfl⟩ := List.mem_map.1 hi
    exact (List.getElem?_eq_some_iff.1 (hk2 p hp).2).1
  unfold firstLog
  rw [hadd, List.append_nil]
  refine ⟨allEvaluated_add ha _ _ _ ?_, ?_⟩
  · intro i hi; exact ⟨1, le_rfl, List.mem_map.2 ⟨i, hi, rfl⟩⟩
  · refine (nFun_add_le log comp.oracle _).trans (Nat.add_le_add_left ?_ _)
    refine (hs _ _ _ _ _ _).trans ((nextMultiple_lt _ _ hb).trans ?_)
    omega

omit [IsStrictOrderedRing K] [FloorRing K] in
theorem round_budget (hs : SamplerObeys comp) (state : LoopState K n VM SM) (round : Nat)
    (b : Build K n VM SM) (ha : b.log.AllEvaluated) :
    (stagnationRound c comp state 1 it round b).log.AllEvaluated ∧
    (stagnationRound c comp state 1 it round b).log.nFun ≤ b.log.nFun + c.stagnation.sampleIncrement := by
  refine ⟨allEvaluated_add ha comp.oracle _ _ ?_, (nFun_add_le b.log comp.oracle _).trans ?_⟩
  · intro i hi; exact ⟨1, le_rfl, List.mem_map.2 ⟨i, hi, rfl⟩⟩
  · exact Nat.add_le_add_left (hs _ _ _ _ _ _) _

theorem build_budget (hf : FilterSelects comp) (hs : SamplerObeys comp) (hb : 1 ≤ c.batchSize)
    (state : LoopState K n VM SM) (log : Log K n) (hx : log.xs[state.index]? = some state.x)
    (ha : log.AllEvaluated) :
    (buildPhase c comp it state log 1).2.log.AllEvaluated ∧
    (buildPhase c comp it state log 1).2.log.nFun ≤ log.nFun + (c.targetSize + c.batchSize - 1) +
      max 1 c.stagnation.maxTrials * c.stagnation.sampleIncrement := by
  obtain ⟨f1, f2⟩ := firstLog_budget c comp it hf hs hb state log hx ha
  have hsec : (secondBuild c comp it state log 1).log = firstLog c comp it state log 1 := by
    obtain ⟨k, bs, -, h2, -, -, h5⟩ := dropLoop_spec c _ _
      (firstBuild_ok c comp it state log 1 hf hx) (Nat.sub_le _ c.targetSize)
    have := (h5 k le_rfl).2.1
    rw [h2] at this
    exact this
  obtain ⟨k, bs, h1, h2, h3, h4, -, -⟩ := stagnationLoop_spec c (max 1 c.stagnation.maxTrials) 0 _
    (secondBuild_ok c comp it state log 1 hf hx) (by omega)
  have hall : ∀ j ≤ k, (bs j).log.AllEvaluated ∧ (bs j).log.nFun ≤
      (firstLog c comp it state log 1).nFun + j * c.stagnation.sampleIncrement := by
    intro j
    induction j with
    | zero => intro _; rw [h1, hsec]; exact ⟨f1, by omega⟩
    | succ j ih =>
      intro hj
      obtain ⟨g1, g2⟩ := ih (by omega)
      rw [(h4 j (by omega)).2]
      obtain ⟨r1, r2⟩ := round_budget c comp it hs state (0 + j + 2) (bs j) g1
      refine ⟨r1, r2.trans ?_⟩
      rw [Nat.succ_mul]
      omega
  rw [buildPhase_eq]
  obtain ⟨g1, g2⟩ := hall k le_rfl
  rw [h2] at g1 g2
  refine ⟨g1, g2.trans ?_⟩
  have : k * c.stagnation.sampleIncrement ≤ max 1 c.stagnation.maxTrials * c.stagnation.sampleIncrement :=
    Nat.mul_le_mul_right _ (by simpa using h3)
  omega

theorem decider_budget (hs : SamplerObeys comp) (hb : 1 ≤ c.batchSize)
    (hdec : (∃ m, c.decider = .classic m) ∨ ∃ m rf, c.decider = .lineSearch m rf)
    (log : Log K n) (region : Region K n) (sub : SubSolution K n) (cur : Current K n) (h : Log K n)
    (ha : h.AllEvaluated) :
    (runDecider c comp it log region sub cur h).1.AllEvaluated ∧
    (runDecider c comp it log region sub cur h).1.nFun ≤ h.nFun + c.batchSize := by
  have hclassic : ∀ m : K, (acceptSimple comp.nrm comp.oracle m 1 sub cur h).1.AllEvaluated ∧
      (acceptSimple comp.nrm comp.oracle m 1 sub cur h).1.nFun ≤ h.nFun + 1 := by
    intro m
    refine ⟨allEvaluated_add ha comp.oracle [sub.x] _ ?_, ?_⟩
    · intro i hi
      have : i = h.xs.length := by simpa [Log.addXs] using hi
      exact ⟨1, le_rfl, by rw [this]; exact List.mem_singleton.2 rfl⟩
    · exact nFun_add_le h comp.oracle [sub.x]
  unfold runDecider
  rcases hdec with ⟨m, hd⟩ | ⟨m, rf, hd⟩
  · rw [hd]
    exact ⟨(hclassic m).1, (hclassic m).2.trans (by omega)⟩
  · rw [hd]
    simp only
    by_cases hb1 : c.batchSize = 1
    · have he : acceptLineSearch comp.nrm comp.cubeRadius comp.oracle (comp.sample it 0) rf m
          c.batchSize sub cur h = acceptSimple comp.nrm comp.oracle m 1 sub cur h := by
        unfold acceptLineSearch acceptClassic; rw [if_pos hb1]
      rw [he, hb1]
      exact hclassic m
    · rw [lineSearch_log _ _ _ _ _ _ _ _ _ _ hb1]
      set pts := lineSearchPoints comp.nrm comp.cubeRadius (comp.sample it 0) rf c.batchSize sub cur h
      have hlen : pts.length ≤ c.batchSize := by
        have hg : (alphaGrid (K := K) c.batchSize).length = min c.batchSize 4 - 1 := by simp [alphaGrid]
        show (lineSearchPoints comp.nrm comp.cubeRadius (comp.sample it 0) rf c.batchSize sub cur
          h).length ≤ _
        unfold lineSearchPoints lineSearchXs speculativeSample
        simp only [List.length_cons, List.length_append]
        by_cases hbd : isOnBorder comp.nrm comp.cubeRadius cur.trustregion sub.x (1 / 10) = true
        · simp only [hbd, if_true]
          have h1 : (sampleOnLine cur.x sub.x (alphaGrid c.batchSize)).length = min c.batchSize 4 - 1 := by
            simp [sampleOnLine, hg]
          split
          · rw [h1]
            refine (Nat.add_le_add_right (Nat.add_le_add_left (hs _ _ _ _ _ _) _) _).trans ?_
            omega
          · rw [h1, List.length_nil]; omega
        · simp only [hbd, Bool.false_eq_true, if_false, List.length_nil]
          split
          · refine (Nat.add_le_add_right (Nat.add_le_add_left (hs _ _ _ _ _ _) _) _).trans ?_
            omega
          · simp; omega
      constructor
      · have := allEvaluated_add ha comp.oracle pts ((h.addXs pts).2.map fun i => (i, 1))
          (fun i hi => ⟨1, le_rfl, List.mem_map.2 ⟨i, hi, rfl⟩⟩)
        have hE : (h.addXs pts).1.evaluate comp.oracle ((h.addXs pts).2.map fun i => (i, 1))
            = ⟨h.xs ++ pts, h.evals ++ pts.mapIdx
              fun j x => (h.xs.length + j, comp.oracle (h.evals.length + j) x)⟩ := by
          rw [← newEvals_range, Log.evaluate_eq]
          simp only [Log.addXs, List.flatMap_map, List.replicate_one]
          rw [List.range'_eq_map_range, List.map_eq_flatMap]
        rwa [hE] at this
      · simp only [Log.nFun, List.length_append, List.length_mapIdx]
        omega

/-- The number of evaluations of one iteration without noise. -/
def iterationBudget (c : Config K) : Nat :=
  (c.targetSize + c.batchSize - 1) + max 1 c.stagnation.maxTrials * c.stagnation.sampleIncrement
    + c.batchSize

theorem iteration_budget (hf : FilterSelects comp) (hs : SamplerObeys comp) (hb : 1 ≤ c.batchSize)
    (hdec : (∃ m, c.decider = .classic m) ∨ ∃ m rf, c.decider = .lineSearch m rf)
    (hnoisy : c.noisy = false) (r : Run K n VM SM) (hx : r.log.xs[r.state.index]? = some r.state.x)
    (ha : r.log.AllEvaluated) (hn : r.nEvals = 1) :
    (iteration c comp it r).log.AllEvaluated ∧ (iteration c comp it r).nEvals = 1 ∧
    (iteration c comp it r).log.nFun ≤ r.log.nFun + iterationBudget c := by
  obtain ⟨h1, h2⟩ := build_budget c comp it hf hs hb r.state r.log hx ha
  have hb1 : theBuild c comp it r = (buildPhase c comp it r.state r.log 1).2 := by
    unfold theBuild; rw [hn]
  rw [← hb1] at h1 h2
  obtain ⟨h3, h4⟩ := decider_budget c comp it hs hb hdec (theBuild c comp it r).log
    r.state.trustregion (theBuild c comp it r).sub r.state.current (theBuild c comp it r).log h1
  rw [iteration_eq]
  refine ⟨h3, ?_, ?_⟩
  · simp [theNEvals, hnoisy, hn]
  · show (theDecision c comp it r).1.nFun ≤ _
    unfold iterationBudget
    unfold theDecision
    omega

end det

end Tranquilo
