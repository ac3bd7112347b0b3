import Verif.Props.Limits
import Verif.Props.CallLimits
import Verif.Props.MainLoopWitness

/-!
# C67: the new points of a state did not exist in earlier iterations
-/

namespace Tranquilo

variable {K : Type} [Field K] [LinearOrder K] [IsStrictOrderedRing K] [FloorRing K] {n : Nat} {VM SM : Type}

/-- The points of the model of an iteration: old ones, the current one, or such that were added in the iteration. -/
theorem buildPhase_indices (c : Config K) (comp : Components K n VM SM) (it : Nat) (state : LoopState K n VM SM)
    (log : Log K n) (nEvals : Int) (hf : FilterSelects comp) (hx : log.xs[state.index]? = some state.x) :
    ∀ i ∈ (buildPhase c comp it state log nEvals).2.modelIndices,
      i ∈ oldIndices c comp state log ∨ i = state.index ∨ log.xs.length ≤ i := by
  let Q : Build K n VM SM → Prop := fun b => ∀ i ∈ b.modelIndices,
    i ∈ oldIndices c comp state log ∨ i = state.index ∨ log.xs.length ≤ i
  have h1 : Q (firstBuild c comp it state log nEvals) := by
    intro i hi
    obtain ⟨kept, hk, hk2⟩ := filtered_spec c comp state log nEvals hf hx
    rcases List.mem_append.1 hi with hi | hi
    · rw [hk] at hi
      obtain ⟨p, hp, rfl⟩ := List.mem_map.1 hi
      rcases (hk2 p hp).1 with h | h
      · exact Or.inl h
      · exact Or.inr (Or.inl h)
    · exact Or.inr (Or.inr ((mem_addXs_indices _ _ _).1 hi).1)
  have h2 : Q (secondBuild c comp it state log nEvals) := by
    obtain ⟨k, bs, -, e2, -, -, e5⟩ := dropLoop_spec c _ _
      (firstBuild_ok c comp it state log nEvals hf hx) (Nat.sub_le _ c.targetSize)
    have := (e5 k le_rfl).2.2.2
    rw [e2] at this
    exact fun i hi => h1 i (this.subset hi)
  rw [buildPhase_eq]
  obtain ⟨k, bs, e1, e2, -, e4, -, e6⟩ := stagnationLoop_spec c (max 1 c.stagnation.maxTrials) 0 _
    (secondBuild_ok c comp it state log nEvals hf hx) (by omega)
  have hall : ∀ j ≤ k, Q (bs j) := by
    intro j
    induction j with
    | zero => intro _; rw [e1]; exact h2
    | succ j ih =>
      intro hj
      have hq := ih (by omega)
      have hok := e6 j (by omega)
      rw [(e4 j (by omega)).2]
      intro i hi
      have hr : (roundPoints c comp state (bs j)).2.Sublist (bs j).modelIndices := by
        unfold roundPoints
        split
        · rename_i h
          exact (buildOk_drop hok _ h.2.le).2.2
        · exact List.Sublist.refl _
      have hi' : i ∈ (roundPoints c comp state (bs j)).2 ++ ((bs j).log.addXs
          (comp.sample it (0 + j + 2) (bs j).log state.trustregion c.stagnation.sampleIncrement
            (roundPoints c comp state (bs j)).1)).2 := hi
      rcases List.mem_append.1 hi' with hi' | hi'
      · exact hq i (hr.subset hi')
      · exact Or.inr (Or.inr (hok.grows.xs_prefix.length_le.trans ((mem_addXs_indices _ _ _).1 hi').1))
  have := hall k le_rfl
  rw [e2] at this
  exact this

/-- Specification: the points that the later state `t` calls new were not among the points that the earlier state `s`
mentions, and they come later in the history. -/
def NewSince (s t : LoopState K n VM SM) : Prop :=
  ∀ i ∈ t.newIndices, s.index < i ∧ s.candidateIndex < i ∧ ∀ j ∈ s.modelIndices, j < i

/-- C67, new points: what a state calls new was added to the history after all earlier states, for every filter that
selects points, every search radius factor and norm, if the radius in the iteration is not negative. -/
theorem C67_new_points_are_new (c : Config K) (comp : Components K n VM SM)
    (hf : FilterSelects comp) (hb : 1 ≤ c.batchSize) (h0 : comp.nrm (fun _ => 0) = 0) (hs : 0 ≤ c.searchRadiusFactor)
    (x : Vec K n) (radius : K) (bounds : Bounds K n) :
    (tranquilo c comp x radius bounds).states.Pairwise fun s t => 0 ≤ t.trustregion.radius → NewSince s t := by
  refine (tranquilo_induction c comp x radius bounds
    (fun r => (RunOk comp bounds r ∧ r.log.evals ≠ []) ∧ (∀ s ∈ r.states, ∀ i ∈ s.modelIndices, i < r.log.xs.length) ∧
      r.states.Pairwise fun s t => 0 ≤ t.trustregion.radius → NewSince s t)
    ⟨⟨startRun_ok c comp x radius bounds, ?_⟩, ?_, ?_⟩ ?_).2.2
  · intro hnil
    apply startRun_evals c comp hb x radius bounds
    simp [Log.fvals, hnil]
  · intro s hs i hi
    obtain rfl := List.mem_singleton.1 hs
    simp at hi
    simp [startRun, hi]
  · exact List.pairwise_singleton _ _
  · rintro it r ⟨⟨hr, hev⟩, hidx, hpair⟩
    have hg := iteration_grows c comp hf it r hr.point
    have hlx := hg.xs_prefix.length_le
    have hstates : (iteration c comp it r).states = r.states ++ [theState c comp it r] := by
      rw [iteration_eq]
    refine ⟨⟨iteration_ok c comp hf bounds it r hr, ?_⟩, ?_, ?_⟩
    · intro hnil
      have := hg.evals_prefix
      rw [hnil] at this
      exact hev (List.prefix_nil.1 this)
    · intro s hs i hi
      rw [hstates] at hs
      rcases List.mem_append.1 hs with hs | hs
      · exact (hidx s hs i hi).trans_le hlx
      · obtain rfl := List.mem_singleton.1 hs
        have hok := buildPhase_ok c comp it r.state r.log r.nEvals hf hr.point
        have hdg := decision_grows c comp it r
          ((List.getElem?_eq_some_iff.1 hr.point).1.trans_le hok.grows.xs_prefix.length_le)
        have hlog : (iteration c comp it r).log = (theDecision c comp it r).1 := by rw [iteration_eq]
        change i ∈ (theBuild c comp it r).modelIndices at hi
        obtain ⟨l, -, h2, h3⟩ := hok.pairs
        rw [theBuild, h2] at hi
        obtain ⟨p, hp, rfl⟩ := List.mem_map.1 hi
        rw [hlog]
        exact (List.getElem?_eq_some_iff.1 (getElem?_of_prefix hdg.xs_prefix (h3 p hp))).1
    · rw [hstates, List.pairwise_append]
      refine ⟨hpair, List.pairwise_singleton _ _, ?_⟩
      intro s hs' t ht hrad i hi
      obtain rfl := List.mem_singleton.1 ht
      change 0 ≤ r.state.trustregion.radius at hrad
      change i ∈ setDiff1d (theBuild c comp it r).modelIndices (oldIndices c comp r.state r.log) at hi
      rw [mem_setDiff1d] at hi
      have hcur : r.state.index ∈ oldIndices c comp r.state r.log := by
        unfold oldIndices Log.indicesInRegion
        rw [if_neg hev, List.mem_filter, List.mem_range]
        refine ⟨(List.getElem?_eq_some_iff.1 hr.point).1, ?_⟩
        rw [hr.point, hr.center]
        simp only [sub_self, h0, decide_eq_true_eq]
        exact mul_nonneg hs hrad
      have hnew : r.log.xs.length ≤ i := by
        rcases buildPhase_indices c comp it r.state r.log r.nEvals hf hr.point i hi.1 with h | h | h
        · exact absurd h hi.2
        · exact absurd (h ▸ hcur) hi.2
        · exact h
      obtain ⟨g1, g2⟩ := hr.states s hs'
      exact ⟨(List.getElem?_eq_some_iff.1 g1).1.trans_le hnew, (List.getElem?_eq_some_iff.1 g2).1.trans_le hnew,
        fun j hj => (hidx s hs' j hj).trans_le hnew⟩

/-- C67, new points, for components that may raise. -/
theorem C67_new_points_of_a_run_that_returns {c : Config K} {ce : ComponentsR K n VM SM} (hf : FilterSelectsR ce)
    (hb : 1 ≤ c.batchSize) (h0 : ce.nrm (fun _ => 0) = 0) (hs : 0 ≤ c.searchRadiusFactor) {x : Vec K n} {radius : K}
    {bounds : Bounds K n} {r : Run K n VM SM} (hr : tranquiloR c ce x radius bounds = .ok r) :
    r.states.Pairwise fun s t => 0 ≤ t.trustregion.radius → NewSince s t := by
  obtain ⟨cp, rfl, h1, -, -, h, -⟩ := tranquiloR_run hr
  exact C67_new_points_are_new c cp (h hf) hb (by rw [h1]; exact h0) hs x radius bounds

/-- C67, new points, for calls with arbitrary arguments: `np.linalg.norm` gives zero for the zero vector. -/
theorem C67_call_new_points {O : Type} {m : Nat} {env : PyEnv K O} {ext : Externals K O n m}
    {a : Arguments K O (Option (Piece K n))} {x : Vec K n} {bounds : Bounds K n}
    {r : Run K n (VectorModel K n m) (ScalarModel K n)} (hr : tranquiloCall env ext a x bounds = .ok (some r))
    (hbatch : PositiveBatch env a) (h0 : ext.nrm (fun _ => 0) = 0) :
    r.states.Pairwise fun s t => 0 ≤ t.trustregion.radius → NewSince s t := by
  obtain ⟨c, b, radius, hrun, hu⟩ := C118_run_uses_the_arguments env ext a x bounds r hr
  have h1 : (builtinComponents b).nrm = ext.nrm := hu.numpy.1
  exact C67_new_points_of_a_run_that_returns (builtin_filterSelectsR b) (by exact_mod_cast hbatch _ hu.batchSize)
    (by rw [h1]; exact h0) hu.factorPositive.le hrun

/-- The theorem applies to this run; the model of its first iteration uses two points that did not exist before. -/
example :
    let r := tranquilo (toyConfig 3 100 2 (.classic 0)) (toyComponents toyStep toySample) (fun _ => 1) 1 noBounds
    r.states.map (fun s => s.modelIndices) = [[0], [0, 1, 2], [0, 1, 2, 3], [0, 1, 4]] ∧
      r.states.Pairwise fun s t => 0 ≤ t.trustregion.radius → NewSince s t := by
  refine ⟨by decide +kernel, C67_new_points_are_new _ _ (toy_filter _ _) (by decide) (by simp [toyComponents])
    (by decide +kernel) _ _ _⟩

end Tranquilo
