import Verif.Lemmas.Det
import Verif.Spec.MainLoop

/-!
# Limits, messages and bookkeeping of whole runs: C63, C65 - C69
-/

namespace Tranquilo

variable {K : Type} [Field K] [LinearOrder K] [IsStrictOrderedRing K] [FloorRing K] {n : Nat}
  {VM SM : Type}

/-! ## C63 -/

omit [IsStrictOrderedRing K] in
/-- C63: there are at most `max_iter` iterations (each contributes one state besides the start). The run
is a sequence of iterations; each iteration but the first starts with fewer than `max_eval` evaluations.
Missing for the full claim: the first iteration starts in any case, see the witness
`C63_violated_first_iteration`. -/
theorem C63_limits_partial (c : Config K) (comp : Components K n VM SM) (x : Vec K n) (radius : K)
    (bounds : Bounds K n) :
    ∃ (m : Nat) (rs : Nat → Run K n VM SM), rs 0 = startRun c comp x radius bounds ∧
      (∀ j < m, rs (j + 1) = iteration c comp j (rs j)) ∧ rs m = tranquilo c comp x radius bounds ∧
      m ≤ c.maxIter ∧ (rs m).states.length = m + 1 ∧
      ∀ j, 0 < j → j < m → (rs j).log.nFun < c.maxEval := by
  obtain ⟨m, h1, h2, h3, h4⟩ := tranquilo_iterates c comp x radius bounds
  refine ⟨m, iterates c comp (startRun c comp x radius bounds), rfl, fun j _ => rfl, h2.symm, h1,
    iterates_states_length c comp x radius bounds m, ?_⟩
  intro j hj hjm
  have hs := h3 j hj hjm
  obtain ⟨j, rfl⟩ : ∃ i, j = i + 1 := ⟨j - 1, by omega⟩
  rw [iterates, iteration_eq] at hs ⊢
  simp only [Bool.or_eq_false_iff, decide_eq_false_iff_not, not_le] at hs
  exact hs.2

/-- C63, the overshoot without noise: the total number of evaluations is at most the larger of
`max_eval - 1` and the evaluations at the start, plus the points of one iteration: the sample (rounded
up to the batch size), the points of the stagnation rounds and one batch for the acceptance decision. -/
theorem C63_total_evaluations_partial (c : Config K) (comp : Components K n VM SM)
    (hf : FilterSelects comp) (hs : SamplerObeys comp) (hb : 1 ≤ c.batchSize)
    (hdec : (∃ m, c.decider = .classic m) ∨ ∃ m rf, c.decider = .lineSearch m rf)
    (hnoisy : c.noisy = false) (hn : c.nEvalsPerPoint = 1) (hstart : c.nEvalsAtStart = 1)
    (x : Vec K n) (radius : K) (bounds : Bounds K n) :
    (tranquilo c comp x radius bounds).log.nFun ≤ max 1 (c.maxEval - 1) +
      ((c.targetSize + c.batchSize - 1) +
        max 1 c.stagnation.maxTrials * c.stagnation.sampleIncrement + c.batchSize) := by
  obtain ⟨m, h1, h2, h3, h4⟩ := tranquilo_iterates c comp x radius bounds
  set r0 := startRun c comp x radius bounds with hr0
  have hinv : ∀ j, RunOk comp bounds (iterates c comp r0 j) ∧
      (iterates c comp r0 j).log.AllEvaluated ∧ (iterates c comp r0 j).nEvals = 1 := by
    intro j
    induction j with
    | zero =>
      refine ⟨startRun_ok c comp x radius bounds, ?_, hn⟩
      intro i hi
      have hi0 : i = 0 := by
        have hl : (iterates c comp r0 0).log.xs.length = 1 := by
          show r0.log.xs.length = 1
          simp [hr0, startRun]
        omega
      subst hi0
      exact startRun_evals c comp hb x radius bounds
    | succ j ih =>
      obtain ⟨b1, b2, -⟩ := iteration_budget c comp j hf hs hb hdec hnoisy _ ih.1.point ih.2.1 ih.2.2
      exact ⟨iteration_ok c comp hf bounds j _ ih.1, b1, b2⟩
  have hstep : ∀ j, (iterates c comp r0 (j + 1)).log.nFun ≤
      (iterates c comp r0 j).log.nFun + iterationBudget c := fun j =>
    (iteration_budget c comp j hf hs hb hdec hnoisy _ (hinv j).1.point (hinv j).2.1 (hinv j).2.2).2.2
  have hstart' : r0.log.nFun ≤ 1 := by
    have hle := Log.evaluate_nFun_le comp.oracle (⟨[x], []⟩ : Log K n)
      [(0, if 1 < c.nEvalsAtStart then
      (nextMultiple (K := K) c.nEvalsAtStart c.batchSize).toNat else 1)]
    rw [hstart] at hle
    have h4 : r0.log = (⟨[x], []⟩ : Log K n).evaluate comp.oracle
      [(0, if 1 < c.nEvalsAtStart then
        (nextMultiple (K := K) c.nEvalsAtStart c.batchSize).toNat else 1)] := rfl
    rw [hstart] at h4
    rw [h4]
    refine hle.trans ?_
    simp [Log.nFun]
  have hbud : iterationBudget c = (c.targetSize + c.batchSize - 1) +
      max 1 c.stagnation.maxTrials * c.stagnation.sampleIncrement + c.batchSize := rfl
  rw [h2, ← hbud]
  cases m with
  | zero =>
    show r0.log.nFun ≤ _
    omega
  | succ m =>
    have h5 : (iterates c comp r0 m).log.nFun ≤ max 1 (c.maxEval - 1) := by
      cases m with
      | zero =>
        show r0.log.nFun ≤ _
        omega
      | succ m =>
        have hs := h3 (m + 1) (by omega) (by omega)
        rw [iterates, iteration_eq] at hs
        simp only [Bool.or_eq_false_iff, decide_eq_false_iff_not, not_le] at hs
        have h6 : (iterates c comp r0 (m + 1)).log
            = (theDecision c comp m (iterates c comp r0 m)).1 := by
          rw [iterates, iteration_eq]
        rw [h6]
        omega
    have := hstep m
    omega

/-! ## C65 -/

theorem isConverged_holds (nrm : Vec K n → K) (gradNorm : SM → K) (o : ConvOptions K)
    (old new : LoopState K n VM SM) (m : Msg) (h : isConverged nrm gradNorm o old new = some m) :
    MessageHolds nrm gradNorm o old new m := by
  have hpos : ∀ a : K, 0 < max a 1 := fun a => lt_of_lt_of_le one_pos (le_max_right _ _)
  have hfin : ∀ t : K, (old.fval - new.fval).abs ≤ .fin t →
      ∃ a b, old.fval = .fin a ∧ new.fval = .fin b ∧ |a - b| ≤ t := by
    intro t ht
    cases ho : old.fval <;> cases hn : new.fval <;> rw [ho, hn] at ht <;>
      simp [XVal.abs, XVal.sub_eq] at ht
    rename_i a b
    exact ⟨a, b, rfl, rfl, by rwa [sub_eq_add_neg]⟩
  have hrel : ∀ t : K, (old.fval - new.fval).abs.divX old.fval.abs.maxOne ≤ .fin t →
      ∃ a b, old.fval = .fin a ∧ new.fval = .fin b ∧ |a - b| ≤ t * max |a| 1 := by
    intro t ht
    have hmax : ∀ a : K, (XVal.fin |a|).maxOne = .fin (max |a| 1) := by
      intro a
      unfold XVal.maxOne
      by_cases ha : |a| < 1
      · simp [ha, max_eq_right ha.le]
      · simp [ha, max_eq_left (not_lt.1 ha)]
    cases ho : old.fval with
    | fin a =>
      cases hn : new.fval with
      | fin b =>
        rw [ho, hn] at ht
        refine ⟨a, b, rfl, rfl, ?_⟩
        simp only [XVal.abs, XVal.fin_sub_fin, hmax, XVal.divX, XVal.fin_le_fin] at ht
        rwa [div_le_iff₀ (hpos _)] at ht
      | pinf =>
        rw [ho, hn] at ht
        simp [XVal.abs, XVal.sub_eq, hmax, XVal.divX, XVal.divBy] at ht
      | ninf =>
        rw [ho, hn] at ht
        simp [XVal.abs, XVal.sub_eq, hmax, XVal.divX, XVal.divBy] at ht
      | nan =>
        rw [ho, hn] at ht
        simp [XVal.abs, XVal.sub_eq, XVal.divX] at ht
    | pinf =>
      rw [ho] at ht
      cases hn : new.fval <;> rw [hn] at ht <;>
        simp [XVal.abs, XVal.sub_eq, XVal.maxOne, XVal.divX] at ht
    | ninf =>
      rw [ho] at ht
      cases hn : new.fval <;> rw [hn] at ht <;>
        simp [XVal.abs, XVal.sub_eq, XVal.maxOne, XVal.divX] at ht
    | nan =>
      rw [ho] at ht
      simp [XVal.abs, XVal.sub_eq, XVal.divX] at ht
  unfold isConverged at h
  simp only at h
  split_ifs at h with h1 h2 h3 h4 h5 h6 <;> obtain rfl := Option.some.inj h
  · exact (div_le_iff₀ (hpos _)).1 h1
  · exact h2
  · exact hrel _ h3
  · exact hfin _ h4
  · exact h5
  · exact h6

/-- C65. A convergence message is only given if convergence checks are enabled, the last step was
accepted and the named criterion holds between the last two states; the message about the evaluation
limit only if the limit is reached; a run without message has used all its iterations. -/
theorem C65_messages_are_truthful (c : Config K) (comp : Components K n VM SM)
    (hf : FilterSelects comp) (x : Vec K n) (radius : K) (bounds : Bounds K n) :
    let r := tranquilo c comp x radius bounds
    (r.msg = none → r.states.length = c.maxIter + 1) ∧
    (r.msg = some .maxEval → c.maxEval ≤ r.log.nFun) ∧
    (∀ m, m ≠ .maxEval → r.msg = some m → c.conv.disable = false ∧
      ∃ pre old new, r.states = pre ++ [old, new] ∧ new.accepted = true ∧
        MessageHolds comp.nrm comp.gradNorm c.conv old new m) := by
  intro r
  obtain ⟨m, h1, h2, h3, h4⟩ := tranquilo_iterates c comp x radius bounds
  have hr : r = iterates c comp (startRun c comp x radius bounds) m := h2
  rw [hr]
  have hokj : ∀ j, RunOk comp bounds (iterates c comp (startRun c comp x radius bounds) j) := by
    intro j
    induction j with
    | zero => exact startRun_ok c comp x radius bounds
    | succ j ih => exact iteration_ok c comp hf bounds j _ ih
  cases m with
  | zero =>
    have h0 : c.maxIter = 0 := by
      by_contra hne
      exact absurd (h4 (by omega)).1 (by omega)
    refine ⟨fun _ => ?_, fun h => ?_, fun m _ h => ?_⟩
    · rw [h0]; rfl
    · exact absurd h (by simp [iterates, startRun])
    · exact absurd h (by simp [iterates, startRun])
  | succ m =>
    have hok := hokj m
    refine ⟨fun h => ?_, fun h => ?_, fun msg hne h => ?_⟩
    · rw [iterates_states_length]
      by_contra hlt
      obtain ⟨-, hstop⟩ := h4 (by omega)
      rw [iterates, iteration_eq] at h hstop
      simp only at h hstop
      cases hc : theCheck c comp m (iterates c comp (startRun c comp x radius bounds) m) with
      | some q => rw [hc] at h; simp at h
      | none =>
        rw [hc] at h hstop
        simp only [Option.isSome_none, Bool.false_or, decide_eq_true_eq] at hstop
        simp [hstop] at h
    · rw [iterates, iteration_eq] at h ⊢
      simp only at h ⊢
      cases hc : theCheck c comp m (iterates c comp (startRun c comp x radius bounds) m) with
      | some q =>
        rw [hc] at h
        simp only [Option.some.injEq] at h
        rw [h] at hc
        unfold theCheck at hc
        split at hc
        · exact absurd (isConverged_holds _ _ _ _ _ _ hc) (by simp [MessageHolds])
        · simp at hc
      | none =>
        rw [hc] at h
        by_contra hlt
        simp [hlt] at h
    · obtain ⟨pre, old, hpre, hold⟩ := hok.last
      have hc : theCheck c comp m (iterates c comp (startRun c comp x radius bounds) m) = some msg := by
        rw [iterates, iteration_eq] at h
        simp only at h
        cases hc : theCheck c comp m (iterates c comp (startRun c comp x radius bounds) m) with
        | some q => rw [hc] at h; simpa using h
        | none =>
          rw [hc] at h
          simp only at h
          split at h
          · exact absurd (Option.some.inj h).symm hne
          · simp at h
      unfold theCheck at hc
      split at hc
      · rename_i hcond
        simp only [Bool.and_eq_true, Bool.not_eq_true'] at hcond
        refine ⟨hcond.2, pre, old, theState c comp m
          (iterates c comp (startRun c comp x radius bounds) m), ?_, hcond.1, ?_⟩
        · rw [iterates, iteration_eq]
          simp [hpre]
        · have hmsg := isConverged_holds _ _ _ _ _ _ hc
          cases msg with
          | maxEval => exact absurd rfl hne
          | gtolRel => exact hmsg
          | gtolAbs => exact hmsg
          | ftolRel =>
            obtain ⟨a, b, e1, e2, e3⟩ := hmsg
            rw [hold] at e1
            exact ⟨a, b, e1, e2, e3⟩
          | ftolAbs =>
            obtain ⟨a, b, e1, e2, e3⟩ := hmsg
            rw [hold] at e1
            exact ⟨a, b, e1, e2, e3⟩
          | xtolRel =>
            have e : (iterates c comp (startRun c comp x radius bounds) m).state.x = old.x := by rw [hold]
            unfold MessageHolds at hmsg ⊢
            simp only [e] at hmsg
            exact hmsg
          | xtolAbs =>
            have e : (iterates c comp (startRun c comp x radius bounds) m).state.x = old.x := by rw [hold]
            unfold MessageHolds at hmsg ⊢
            simp only [e] at hmsg
            exact hmsg
      · simp at hc

/-! ## C66 -/

/-- C66, dropping: starting from any model (arrays of equal length), whatever the solver returns, the
loop that drops points ends after at most `len - target` rounds (any fuel from that number on gives the
same result), drops one point per round, does not touch the history, never goes below the target
size, and stops only if the step is long enough or the target size is reached. -/
theorem C66_dropping_is_bounded (c : Config K) (comp : Components K n VM SM)
    (state : LoopState K n VM SM) (b : Build K n VM SM)
    (hlen : b.modelXs.length = b.modelIndices.length) :
    ∃ (k : Nat) (res : Build K n VM SM), k ≤ b.modelXs.length - c.targetSize ∧
      (∀ fuel, b.modelXs.length - c.targetSize ≤ fuel → dropLoop c comp state fuel b = res) ∧
      res.modelXs.length + k = b.modelXs.length ∧ res.modelIndices.Sublist b.modelIndices ∧
      (c.targetSize ≤ b.modelXs.length → c.targetSize ≤ res.modelXs.length) ∧ res.log = b.log ∧
      ¬ (res.relStep < .fin c.stagnation.minRelativeStepKeep ∧ c.targetSize < res.modelXs.length) := by
  obtain ⟨d, hd⟩ : ∃ d, b.modelXs.length - c.targetSize = d := ⟨_, rfl⟩
  induction d generalizing b with
  | zero =>
    refine ⟨0, b, by omega, ?_, rfl, List.Sublist.refl _, id, rfl, fun h => by omega⟩
    intro fuel _
    cases fuel with
    | zero => rfl
    | succ fuel => rw [dropLoop, if_neg (fun h => by omega)]
  | succ d ih =>
    by_cases hcond : b.relStep < .fin c.stagnation.minRelativeStepKeep ∧ c.targetSize < b.modelXs.length
    · obtain ⟨kept, h1, h2, h3⟩ := dropWorstInLoop_spec comp state (b.modelXs.zip b.modelIndices) 1 (by
        rw [List.length_zip, ← hlen, Nat.min_self]; omega)
      rw [List.map_fst_zip hlen.le, List.map_snd_zip hlen.ge] at h1
      rw [List.length_zip, ← hlen, Nat.min_self] at h3
      have hsub : (kept.map Prod.snd).Sublist b.modelIndices := by
        have := h2.map Prod.snd
        rwa [List.map_snd_zip hlen.ge] at this
      obtain ⟨k, res, e1, e2, e3, e4, e5, e6, e7⟩ := ih
        (buildModel comp state b.log (kept.map Prod.fst) (kept.map Prod.snd))
        (by simp [buildModel]) (by simp only [buildModel, List.length_map]; omega)
      simp only [buildModel, List.length_map] at e1 e2 e3 e4 e5 e6
      refine ⟨k + 1, res, by omega, ?_, by omega, e4.trans hsub, fun _ => e5 (by omega), e6, e7⟩
      intro fuel hfuel
      obtain ⟨fuel, rfl⟩ : ∃ f, fuel = f + 1 := ⟨fuel - 1, by omega⟩
      rw [dropLoop, if_pos hcond, h1]
      exact e2 fuel (by omega)
    · refine ⟨0, b, by omega, ?_, rfl, List.Sublist.refl _, id, rfl, hcond⟩
      intro fuel _
      cases fuel with
      | zero => rfl
      | succ fuel => rw [dropLoop, if_neg hcond]

/-- `k` rounds of replacing points. -/
def stagnationRounds (c : Config K) (comp : Components K n VM SM) (state : LoopState K n VM SM)
    (nEvals : Int) (it : Nat) (b : Build K n VM SM) : Nat → Build K n VM SM
  | 0 => b
  | k + 1 => stagnationRound c comp state nEvals it (k + 2) (stagnationRounds c comp state nEvals it b k)

omit [IsStrictOrderedRing K] [FloorRing K] in
/-- C66, replacing: whatever the solver returns, there are at most `max(1, max_trials)` rounds (any fuel
from that number on gives the same result), a further round only takes place if the step is too short,
fewer rounds only if it is long enough; each round adds at most `sample_increment` points, each
evaluated `n_evals_per_point` times. -/
theorem C66_replacing_is_bounded (c : Config K) (comp : Components K n VM SM)
    (state : LoopState K n VM SM) (nEvals : Int) (it : Nat) (b : Build K n VM SM)
    (hs : SamplerObeys comp) :
    ∃ k ≤ max 1 c.stagnation.maxTrials,
      (∀ fuel, max 1 c.stagnation.maxTrials ≤ fuel → stagnationLoop c comp state nEvals it fuel 0 b
        = stagnationRounds c comp state nEvals it b k) ∧
      (∀ j < k, (stagnationRounds c comp state nEvals it b j).relStep
        < .fin c.stagnation.minRelativeStep) ∧
      (k < max 1 c.stagnation.maxTrials →
        ¬ (stagnationRounds c comp state nEvals it b k).relStep < .fin c.stagnation.minRelativeStep) ∧
      (stagnationRounds c comp state nEvals it b k).log.xs.length
        ≤ b.log.xs.length + k * c.stagnation.sampleIncrement ∧
      (stagnationRounds c comp state nEvals it b k).log.nFun
        ≤ b.log.nFun + k * c.stagnation.sampleIncrement * nEvals.toNat := by
  have hgen : ∀ (d k0 : Nat), max 1 (c.stagnation.maxTrials - k0) = d →
      ∃ k, k0 ≤ k ∧ k ≤ k0 + d ∧
      (∀ fuel, d ≤ fuel → stagnationLoop c comp state nEvals it fuel k0
        (stagnationRounds c comp state nEvals it b k0) = stagnationRounds c comp state nEvals it b k) ∧
      (∀ j, k0 ≤ j → j < k → (stagnationRounds c comp state nEvals it b j).relStep
        < .fin c.stagnation.minRelativeStep) ∧
      (k < k0 + d →
        ¬ (stagnationRounds c comp state nEvals it b k).relStep < .fin c.stagnation.minRelativeStep) := by
    intro d
    induction d with
    | zero => intro k0 h; omega
    | succ d ih =>
      intro k0 hd
      by_cases hcond : (stagnationRounds c comp state nEvals it b k0).relStep
          < .fin c.stagnation.minRelativeStep
      · by_cases hend : c.stagnation.maxTrials ≤ k0 + 1
        · refine ⟨k0 + 1, by omega, by omega, ?_, ?_, by omega⟩
          · intro fuel hfuel
            obtain ⟨fuel, rfl⟩ : ∃ f, fuel = f + 1 := ⟨fuel - 1, by omega⟩
            rw [stagnationLoop, if_pos hcond]
            simp only [if_pos hend]
            rfl
          · intro j h1 h2
            obtain rfl : j = k0 := by omega
            exact hcond
        · obtain ⟨k, e1, e2, e3, e4, e5⟩ := ih (k0 + 1) (by omega)
          refine ⟨k, by omega, by omega, ?_, ?_, fun h => e5 (by omega)⟩
          · intro fuel hfuel
            obtain ⟨fuel, rfl⟩ : ∃ f, fuel = f + 1 := ⟨fuel - 1, by omega⟩
            rw [stagnationLoop, if_pos hcond]
            simp only [if_neg hend]
            exact e3 fuel (by omega)
          · intro j h1 h2
            rcases Nat.lt_or_ge k0 j with h | h
            · exact e4 j h h2
            · obtain rfl : j = k0 := by omega
              exact hcond
      · refine ⟨k0, le_rfl, by omega, ?_, by omega, fun _ => hcond⟩
        intro fuel hfuel
        obtain ⟨fuel, rfl⟩ : ∃ f, fuel = f + 1 := ⟨fuel - 1, by omega⟩
        rw [stagnationLoop, if_neg hcond]
  obtain ⟨k, -, e2, e3, e4, e5⟩ := hgen _ 0 rfl
  rw [Nat.sub_zero] at e2 e3 e5
  have hsize : ∀ k, (stagnationRounds c comp state nEvals it b k).log.xs.length
        ≤ b.log.xs.length + k * c.stagnation.sampleIncrement ∧
      (stagnationRounds c comp state nEvals it b k).log.nFun
        ≤ b.log.nFun + k * c.stagnation.sampleIncrement * nEvals.toNat := by
    intro k
    induction k with
    | zero => simp [stagnationRounds]
    | succ k ih =>
      obtain ⟨i1, i2⟩ := ih
      set b' := stagnationRounds c comp state nEvals it b k with hb'
      set rows := comp.sample it (k + 2) b'.log state.trustregion c.stagnation.sampleIncrement
        (roundPoints c comp state b').1 with hrows
      have hlog : (stagnationRounds c comp state nEvals it b (k + 1)).log
          = (b'.log.addXs rows).1.evaluate comp.oracle
            ((b'.log.addXs rows).2.map fun i => (i, nEvals.toNat)) := rfl
      have hle : rows.length ≤ c.stagnation.sampleIncrement := hs _ _ _ _ _ _
      rw [hlog]
      constructor
      · rw [Log.evaluate_xs]
        simp only [Log.addXs, List.length_append]
        rw [Nat.succ_mul]
        omega
      · refine (Log.evaluate_nFun_le _ _ _).trans ?_
        have h1 : (b'.log.addXs rows).1.nFun = b'.log.nFun := rfl
        have h2 : (((b'.log.addXs rows).2.map fun i => (i, nEvals.toNat)).map Prod.snd).sum
            = rows.length * nEvals.toNat := by
          rw [List.map_map]
          simp [Function.comp_def, addXs_indices_length]
        rw [h1, h2, Nat.succ_mul, Nat.add_mul]
        have := Nat.mul_le_mul_right nEvals.toNat hle
        omega
  refine ⟨k, by omega, e3, fun j hj => e4 j (Nat.zero_le _) hj, fun h => e5 (by omega), hsize k⟩

/-! ## C67 -/

omit [Field K] [LinearOrder K] [IsStrictOrderedRing K] [FloorRing K] in
theorem mem_setDiff1d (a b : List Nat) (i : Nat) : i ∈ setDiff1d a b ↔ i ∈ a ∧ i ∉ b := by
  unfold setDiff1d
  rw [List.mem_mergeSort, List.mem_dedup, List.mem_filter]
  simp

theorem mem_intersect1d (a b : List Nat) (i : Nat) : i ∈ intersect1d a b ↔ i ∈ a ∧ i ∈ b := by
  unfold intersect1d
  rw [List.mem_mergeSort, List.mem_dedup, List.mem_filter]
  simp

theorem nodup_setDiff1d (a b : List Nat) : (setDiff1d a b).Nodup :=
  (List.mergeSort_perm _ _).nodup_iff.2 (List.nodup_dedup _)

theorem nodup_intersect1d (a b : List Nat) : (intersect1d a b).Nodup :=
  (List.mergeSort_perm _ _).nodup_iff.2 (List.nodup_dedup _)

/-- The bookkeeping of one state: `n0` is the number of stored points when the iteration began. A point
is called old if it was stored then and lies within the search region of the iteration. -/
structure Accounted (nrm : Vec K n → K) (factor : K) (log : Log K n) (s : LoopState K n VM SM)
    (ne : Int) (n0 : Nat) : Prop where
  /-- the points of the model are the new and the old used ones -/
  model : ∀ i, i ∈ s.modelIndices ↔ i ∈ s.newIndices ∨ i ∈ s.oldIndicesUsed
  /-- the old points are the used and the discarded ones -/
  old : ∀ i, (i ∈ s.oldIndicesUsed ∨ i ∈ s.oldIndicesDiscarded) ↔
    i < n0 ∧ ∃ y, log.xs[i]? = some y ∧
      nrm (fun k => y k - s.trustregion.center k) ≤ factor * s.trustregion.radius
  newNotOld : ∀ i ∈ s.newIndices, i ∉ s.oldIndicesUsed ∧ i ∉ s.oldIndicesDiscarded
  usedNotDiscarded : ∀ i ∈ s.oldIndicesUsed, i ∉ s.oldIndicesDiscarded
  nodup : s.newIndices.Nodup ∧ s.oldIndicesUsed.Nodup ∧ s.oldIndicesDiscarded.Nodup
  /-- all model points are stored and were evaluated often enough -/
  evals : ∀ i ∈ s.modelIndices, i < log.xs.length ∧ ne ≤ ((log.fvals i).length : Int)

/-- C67. In every state of an iteration (the start state has no `n_evals_per_point`) the bookkeeping of
points is complete and correct, and each point of the model has at least `n_evals_per_point`
evaluations. For all components whose filter selects from the points it is given, all options. -/
theorem C67_points_are_accounted (c : Config K) (comp : Components K n VM SM)
    (hf : FilterSelects comp) (hb : 1 ≤ c.batchSize) (x : Vec K n) (radius : K) (bounds : Bounds K n) :
    let r := tranquilo c comp x radius bounds
    ∀ s ∈ r.states, ∀ ne, s.nEvalsPerPoint = some ne →
      ∃ n0 ≤ r.log.xs.length, Accounted comp.nrm c.searchRadiusFactor r.log s ne n0 := by
  refine (tranquilo_induction c comp x radius bounds
    (fun r => (RunOk comp bounds r ∧ r.log.evals ≠ []) ∧ ∀ s ∈ r.states, ∀ ne, s.nEvalsPerPoint = some ne →
      ∃ n0 ≤ r.log.xs.length, Accounted comp.nrm c.searchRadiusFactor r.log s ne n0)
    ⟨⟨startRun_ok c comp x radius bounds, ?_⟩, ?_⟩ ?_).2
  · intro hnil
    apply startRun_evals c comp hb x radius bounds
    simp [Log.fvals, hnil]
  · intro s hs ne hne
    obtain rfl := List.mem_singleton.1 hs
    simp at hne
  · rintro it r ⟨⟨hr, hev⟩, hacc⟩
    have hg := iteration_grows c comp hf it r hr.point
    refine ⟨⟨iteration_ok c comp hf bounds it r hr, ?_⟩, ?_⟩
    · intro hnil
      have := hg.evals_prefix
      rw [hnil] at this
      exact hev (List.prefix_nil.1 this)
    · intro s hs ne hne
      have hlx := hg.xs_prefix.length_le
      have hs' : s ∈ r.states ∨ s = theState c comp it r := by
        rw [iteration_eq] at hs
        simpa using hs
      rcases hs' with hs | rfl
      · obtain ⟨n0, hn0, ha⟩ := hacc s hs ne hne
        refine ⟨n0, hn0.trans hlx, ha.model, ?_, ha.newNotOld, ha.usedNotDiscarded, ha.nodup, ?_⟩
        · intro i
          rw [ha.old i]
          constructor
          · rintro ⟨h1, y, h2, h3⟩
            exact ⟨h1, y, getElem?_of_prefix hg.xs_prefix h2, h3⟩
          · rintro ⟨h1, y, h2, h3⟩
            have hi : i < r.log.xs.length := by omega
            refine ⟨h1, y, ?_, h3⟩
            have := getElem?_of_prefix hg.xs_prefix (List.getElem?_eq_getElem hi)
            rw [this] at h2
            rw [List.getElem?_eq_getElem hi, h2]
        · intro i hi
          obtain ⟨h1, h2⟩ := ha.evals i hi
          have := Log.fvals_length_mono hg.evals_prefix i
          exact ⟨by omega, by omega⟩
      · have hne' : r.nEvals = ne := by
          have : some r.nEvals = some ne := hne
          exact Option.some.inj this
        have hok := buildPhase_ok c comp it r.state r.log r.nEvals hf hr.point
        have hdg := decision_grows c comp it r
          ((List.getElem?_eq_some_iff.1 hr.point).1.trans_le hok.grows.xs_prefix.length_le)
        have hlog : (iteration c comp it r).log = (theDecision c comp it r).1 := by rw [iteration_eq]
        refine ⟨r.log.xs.length, hlx, ?_, ?_, ?_, ?_, ?_, ?_⟩
        · intro i
          show i ∈ (theBuild c comp it r).modelIndices ↔
            i ∈ setDiff1d _ (oldIndices c comp r.state r.log) ∨
              i ∈ intersect1d _ (oldIndices c comp r.state r.log)
          rw [mem_setDiff1d, mem_intersect1d]
          tauto
        · intro i
          show (i ∈ intersect1d (theBuild c comp it r).modelIndices (oldIndices c comp r.state r.log) ∨
            i ∈ setDiff1d (oldIndices c comp r.state r.log) (theBuild c comp it r).modelIndices) ↔
            i < r.log.xs.length ∧ ∃ y, (iteration c comp it r).log.xs[i]? = some y ∧
              comp.nrm (fun k => y k - r.state.trustregion.center k)
                ≤ c.searchRadiusFactor * r.state.trustregion.radius
          rw [mem_setDiff1d, mem_intersect1d]
          have hold : i ∈ oldIndices c comp r.state r.log ↔ i < r.log.xs.length ∧
              ∃ y, (iteration c comp it r).log.xs[i]? = some y ∧
              comp.nrm (fun k => y k - r.state.trustregion.center k)
                ≤ c.searchRadiusFactor * r.state.trustregion.radius := by
            unfold oldIndices Log.indicesInRegion
            rw [if_neg hev, List.mem_filter, List.mem_range]
            refine and_congr_right fun hi => ?_
            have h2 := getElem?_of_prefix hg.xs_prefix (List.getElem?_eq_getElem hi)
            rw [List.getElem?_eq_getElem hi, h2]
            simp
          rw [← hold]
          tauto
        · intro i hi
          change i ∈ setDiff1d (theBuild c comp it r).modelIndices (oldIndices c comp r.state r.log) at hi
          show i ∉ intersect1d (theBuild c comp it r).modelIndices (oldIndices c comp r.state r.log) ∧
            i ∉ setDiff1d (oldIndices c comp r.state r.log) (theBuild c comp it r).modelIndices
          rw [mem_setDiff1d] at hi ⊢
          rw [mem_intersect1d]
          tauto
        · intro i hi
          change i ∈ intersect1d (theBuild c comp it r).modelIndices
            (oldIndices c comp r.state r.log) at hi
          show i ∉ setDiff1d (oldIndices c comp r.state r.log) (theBuild c comp it r).modelIndices
          rw [mem_intersect1d] at hi
          rw [mem_setDiff1d]
          tauto
        · exact ⟨nodup_setDiff1d _ _, nodup_intersect1d _ _, nodup_setDiff1d _ _⟩
        · intro i hi
          change i ∈ (theBuild c comp it r).modelIndices at hi
          obtain ⟨l, -, h2, h3⟩ := hok.pairs
          have hi2 := hi
          rw [theBuild, h2] at hi2
          obtain ⟨p, hp, rfl⟩ := List.mem_map.1 hi2
          have h4 := getElem?_of_prefix hdg.xs_prefix (h3 p hp)
          rw [hlog, ← hne']
          refine ⟨(List.getElem?_eq_some_iff.1 h4).1, ?_⟩
          have h5 := hok.evals p.2 hi
          have h6 := Log.fvals_length_mono hdg.evals_prefix p.2
          have h7 : r.nEvals ≤ (r.nEvals.toNat : Int) := Int.self_le_toNat _
          have h8 : ((buildPhase c comp it r.state r.log r.nEvals).2.log.fvals p.2).length
            = ((theBuild c comp it r).log.fvals p.2).length := rfl
          omega

/-! ## C68 -/

/-- The step length of a decision is the norm of something. -/
theorem runDecider_stepLength (c : Config K) (comp : Components K n VM SM) (it : Nat) (log : Log K n)
    (region : Region K n) (sub : SubSolution K n) (cur : Current K n) (h : Log K n) :
    ∃ v, (runDecider c comp it log region sub cur h).2.stepLength = comp.nrm v := by
  have hfin : ∀ cx cf ci rho acc ne, ∃ v,
      (finishDecision comp.nrm cx cf ci rho acc cur ne).stepLength = comp.nrm v := by
    intro cx cf ci rho acc ne
    unfold finishDecision
    split <;> exact ⟨_, rfl⟩
  have hsimple : ∀ m k, ∃ v,
      (acceptSimple comp.nrm comp.oracle m k sub cur h).2.stepLength = comp.nrm v := by
    intro m k
    unfold acceptSimple
    apply hfin
  unfold runDecider
  split
  · exact hsimple _ 1
  · exact hsimple _ 10
  · unfold acceptNoisy; apply hfin
  · unfold acceptLineSearch
    split
    · exact hsimple _ 1
    · apply hfin

/-- The radius never becomes negative. -/
theorem theRadius_nonneg (c : Config K) (comp : Components K n VM SM)
    (hrad : RadiusLimitsOk c.radius) (hnrm : ∀ v, 0 ≤ comp.nrm v) (it : Nat) (r : Run K n VM SM) :
    0 ≤ (iteration c comp it r).state.trustregion.radius := by
  rw [iteration_eq]
  show 0 ≤ theRadius c comp it r
  unfold theRadius adjustRadius npClip
  obtain ⟨v, hv⟩ := runDecider_stepLength c comp it (theBuild c comp it r).log r.state.trustregion
    (theBuild c comp it r).sub r.state.current (theBuild c comp it r).log
  have hv' : (theDecision c comp it r).2.stepLength = comp.nrm v := hv
  refine le_min (hrad.min.trans (le_max_right _ _)) ?_
  split
  · rename_i q hq
    refine le_min hrad.max (mul_nonneg ?_ (hrad.ratio q hq))
    rw [hv']; exact hnrm v
  · exact hrad.max

/-- C68 for the deciders without line search, or batch size one: if start point, sampler and solver
respect the bounds then so do all points of the history, hence all points at which the criterion is
evaluated. Missing for the full claim: with the line search and batch size at least two the claim
is false, see `C68_violated_by_line_search`. -/
theorem C68_bounds_respected_partial (c : Config K) (comp : Components K n VM SM)
    (hf : FilterSelects comp) (hs : SamplerFeasible comp) (hsol : SolverFeasible comp)
    (hrad : RadiusLimitsOk c.radius) (hnrm : ∀ v, 0 ≤ comp.nrm v)
    (hdec : (∀ m rf, c.decider ≠ .lineSearch m rf) ∨ c.batchSize = 1)
    (x : Vec K n) (radius : K) (hr0 : 0 ≤ radius) (bounds : Bounds K n) (hx : InBounds bounds x) :
    ∀ y ∈ (tranquilo c comp x radius bounds).log.xs, InBounds bounds y := by
  refine (tranquilo_induction c comp x radius bounds
    (fun r => RunOk comp bounds r ∧ 0 ≤ r.state.trustregion.radius ∧
      ∀ y ∈ r.log.xs, InBounds bounds y)
    ⟨startRun_ok c comp x radius bounds, hr0, ?_⟩ ?_).2.2
  · intro y hy
    have : y = x := by simpa [startRun] using hy
    rw [this]; exact hx
  · rintro it r ⟨hr, hrpos, hin⟩
    refine ⟨iteration_ok c comp hf bounds it r hr, theRadius_nonneg c comp hrad hnrm it r, ?_⟩
    have hcenter : InBounds r.state.trustregion.bounds r.state.trustregion.center := by
      rw [hr.bounds, hr.center]
      obtain ⟨hi, he⟩ := List.getElem?_eq_some_iff.1 hr.point
      rw [← he]
      exact hin _ (List.getElem_mem hi)
    have hg := iteration_grows c comp hf it r hr.point
    refine (hg.mono ?_).points hin
    rintro y (⟨round, log, k, xs, hy⟩ | rfl | ⟨m, rf, hd, hb1, -⟩)
    · have := hs it round log r.state.trustregion k xs hrpos hcenter y hy
      rwa [hr.bounds] at this
    · have hok := buildPhase_ok c comp it r.state r.log r.nEvals hf hr.point
      have hco : (theBuild c comp it r).sub
          = comp.solve (theBuild c comp it r).model r.state.trustregion := by
        have h := hok.coherent
        have : theBuild c comp it r = buildModel comp r.state (theBuild c comp it r).log
          (theBuild c comp it r).modelXs (theBuild c comp it r).modelIndices := h
        rw [this]
        rfl
      have := hsol (theBuild c comp it r).model r.state.trustregion hrpos hcenter
      rw [← hco, hr.bounds] at this
      exact this
    · rcases hdec with hdec | hdec
      · exact absurd hd (hdec m rf)
      · exact absurd hdec hb1

/-! ## C69 -/

omit [IsStrictOrderedRing K] in
/-- C69 is false of the code: the "old model" that the fitter receives is the one of the start in all
iterations. Hence the fitted models do not depend on what the fitter would do with any other old model:
two runs whose fitters agree on the start model (but may differ arbitrarily on all others) and whose
other components are equal coincide. With the claim this could not be, see also
`C69_violated_witness`. -/
theorem C69_violated_old_model_is_never_updated (c : Config K) (comp : Components K n VM SM)
    (x : Vec K n) (radius : K) (bounds : Bounds K n) :
    (∀ s ∈ (tranquilo c comp x radius bounds).states,
      s.vectorModel = (startRun c comp x radius bounds).state.vectorModel) ∧
    ∀ fit' : Log K n → List Nat → Region K n → VM → VM,
      (∀ log ids region, fit' log ids region (startRun c comp x radius bounds).state.vectorModel
        = comp.fit log ids region (startRun c comp x radius bounds).state.vectorModel) →
      tranquilo c { comp with fit := fit' } x radius bounds = tranquilo c comp x radius bounds := by
  have hvm : ∀ (comp : Components K n VM SM) it r,
      (iteration c comp it r).state.vectorModel = r.state.vectorModel := by
    intro comp it r
    rw [iteration_eq]; rfl
  constructor
  · refine (tranquilo_induction c comp x radius bounds
      (fun r => r.state.vectorModel = (startRun c comp x radius bounds).state.vectorModel ∧
        ∀ s ∈ r.states, s.vectorModel = (startRun c comp x radius bounds).state.vectorModel)
      ⟨rfl, ?_⟩ ?_).2
    · intro s hs
      obtain rfl := List.mem_singleton.1 hs
      rfl
    · rintro it r ⟨h1, h2⟩
      refine ⟨(hvm comp it r).trans h1, ?_⟩
      intro s hs
      rw [iteration_eq] at hs
      rcases List.mem_append.1 hs with hs | hs
      · exact h2 s hs
      · obtain rfl := List.mem_singleton.1 hs
        exact h1
  · intro fit' hfit
    set comp' : Components K n VM SM := { comp with fit := fit' } with hcomp'
    have hbm : ∀ state : LoopState K n VM SM,
        state.vectorModel = (startRun c comp x radius bounds).state.vectorModel →
        ∀ log xs ids, buildModel comp' state log xs ids = buildModel comp state log xs ids := by
      intro state hst log xs ids
      have : comp'.fit log ids state.trustregion state.vectorModel
          = comp.fit log ids state.trustregion state.vectorModel := by
        rw [hst]; exact hfit log ids state.trustregion
      unfold buildModel
      rw [this]
      rfl
    have hdrop : ∀ state : LoopState K n VM SM,
        state.vectorModel = (startRun c comp x radius bounds).state.vectorModel →
        ∀ fuel b, dropLoop c comp' state fuel b = dropLoop c comp state fuel b := by
      intro state hst fuel
      induction fuel with
      | zero => intro b; rfl
      | succ fuel ih =>
        intro b
        rw [dropLoop, dropLoop]
        split
        · simp only [hbm state hst]; exact ih _
        · rfl
    have hround : ∀ state : LoopState K n VM SM,
        state.vectorModel = (startRun c comp x radius bounds).state.vectorModel →
        ∀ ne it k b, stagnationRound c comp' state ne it k b = stagnationRound c comp state ne it k b := by
      intro state hst ne it k b
      exact hbm state hst _ _ _
    have hstag : ∀ state : LoopState K n VM SM,
        state.vectorModel = (startRun c comp x radius bounds).state.vectorModel →
        ∀ ne it fuel k b, stagnationLoop c comp' state ne it fuel k b
          = stagnationLoop c comp state ne it fuel k b := by
      intro state hst ne it fuel
      induction fuel with
      | zero => intro k b; rfl
      | succ fuel ih =>
        intro k b
        rw [stagnationLoop, stagnationLoop]
        simp only [hround state hst, ih]
    have hbuild : ∀ state : LoopState K n VM SM,
        state.vectorModel = (startRun c comp x radius bounds).state.vectorModel →
        ∀ it log ne, buildPhase c comp' it state log ne = buildPhase c comp it state log ne := by
      intro state hst it log ne
      rw [buildPhase_eq, buildPhase_eq, hstag state hst]
      unfold secondBuild
      simp only [hdrop state hst]
      have : firstBuild c comp' it state log ne = firstBuild c comp it state log ne :=
        hbm state hst _ _ _
      rw [this]
      rfl
    have hiter : ∀ it (r : Run K n VM SM),
        r.state.vectorModel = (startRun c comp x radius bounds).state.vectorModel →
        iteration c comp' it r = iteration c comp it r := by
      intro it r hst
      unfold iteration
      rw [hbuild r.state hst]
      rfl
    have hloop : ∀ k it (r : Run K n VM SM),
        r.state.vectorModel = (startRun c comp x radius bounds).state.vectorModel →
        runLoop c comp' k it r = runLoop c comp k it r := by
      intro k
      induction k with
      | zero => intro it r _; rfl
      | succ k ih =>
        intro it r hst
        rw [runLoop, runLoop]
        simp only [hiter it r hst]
        split
        · rfl
        · exact ih _ _ ((hvm comp it r).trans hst)
    exact hloop _ _ _ rfl

end Tranquilo
