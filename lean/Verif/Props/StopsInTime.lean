import Verif.Props.CallGuarantees
import Verif.Props.Limits
import Verif.Props.MainLoopRaise
import Verif.Props.MainLoopWitness
import Verif.Spec.StopsInTime

/-!
# C138: a run ends with the first step that fulfills a convergence criterion
-/

namespace Tranquilo

section run

variable {K : Type} [Field K] [LinearOrder K] [IsStrictOrderedRing K] [FloorRing K] {n : Nat} {VM SM : Type}

omit [IsStrictOrderedRing K] [FloorRing K] in
theorem messageHolds_same (nrm : Vec K n → K) (gradNorm : SM → K) (o : ConvOptions K)
    {old old' new : LoopState K n VM SM} (hx : old.x = old'.x) (hf : old.fval = old'.fval) (m : Msg) :
    MessageHolds nrm gradNorm o old new m ↔ MessageHolds nrm gradNorm o old' new m := by
  cases m <;> simp only [MessageHolds, hx, hf]

/-- The criterion that is found is the first that holds; if none is found, none holds. -/
theorem isConverged_first (nrm : Vec K n → K) (gradNorm : SM → K) (o : ConvOptions K)
    (old new : LoopState K n VM SM) {m : Msg} (h : MessageHolds nrm gradNorm o old new m) :
    ∃ q, isConverged nrm gradNorm o old new = some q ∧
      FirstToHold (MessageHolds nrm gradNorm o old new) q := by
  have hpos : ∀ a : K, 0 < max a 1 := fun a => lt_of_lt_of_le one_pos (le_max_right _ _)
  have hmax : ∀ a : K, (XVal.fin |a|).maxOne = .fin (max |a| 1) := by
    intro a
    unfold XVal.maxOne
    by_cases ha : |a| < 1
    · simp [ha, max_eq_right ha.le]
    · simp [ha, max_eq_left (not_lt.1 ha)]
  have g1 : MessageHolds nrm gradNorm o old new .gtolRel →
      gradNorm new.model / max (gradNorm new.model) 1 ≤ o.gtolRel := (div_le_iff₀ (hpos _)).2
  have g3 : MessageHolds nrm gradNorm o old new .ftolRel →
      (old.fval - new.fval).abs.divX old.fval.abs.maxOne ≤ .fin o.ftolRel := by
    rintro ⟨a, b, ha, hb, hab⟩
    rw [ha, hb]
    simp only [XVal.abs, XVal.fin_sub_fin, hmax, XVal.divX, XVal.fin_le_fin]
    exact (div_le_iff₀ (hpos _)).2 hab
  have g4 : MessageHolds nrm gradNorm o old new .ftolAbs →
      (old.fval - new.fval).abs ≤ .fin o.ftolAbs := by
    rintro ⟨a, b, ha, hb, hab⟩
    rw [ha, hb]
    simpa only [XVal.abs, XVal.fin_sub_fin, XVal.fin_le_fin] using hab
  cases hq : isConverged nrm gradNorm o old new with
  | some q =>
    refine ⟨q, rfl, isConverged_holds _ _ _ _ _ _ hq, ?_⟩
    unfold isConverged at hq
    simp only at hq
    split_ifs at hq with h1 h2 h3 h4 h5 h6 <;> obtain rfl := Option.some.inj hq
    · exact ⟨[], _, rfl, by simp⟩
    · exact ⟨[.gtolRel], _, rfl, by simpa using mt g1 h1⟩
    · exact ⟨[.gtolRel, .gtolAbs], _, rfl, by simpa using ⟨mt g1 h1, h2⟩⟩
    · exact ⟨[.gtolRel, .gtolAbs, .ftolRel], _, rfl, by simpa using ⟨mt g1 h1, h2, mt g3 h3⟩⟩
    · exact ⟨[.gtolRel, .gtolAbs, .ftolRel, .ftolAbs], _, rfl,
        by simpa using ⟨mt g1 h1, h2, mt g3 h3, mt g4 h4⟩⟩
    · exact ⟨[.gtolRel, .gtolAbs, .ftolRel, .ftolAbs, .xtolRel], _, rfl,
        by simpa using ⟨mt g1 h1, h2, mt g3 h3, mt g4 h4, h5⟩⟩
  | none =>
    exfalso
    unfold isConverged at hq
    simp only at hq
    split_ifs at hq with h1 h2 h3 h4 h5 h6
    cases m with
    | gtolRel => exact h1 (g1 h)
    | gtolAbs => exact h2 h
    | ftolRel => exact h3 (g3 h)
    | ftolAbs => exact h4 (g4 h)
    | xtolRel => exact h5 h
    | xtolAbs => exact h6 h
    | maxEval => exact h

omit [IsStrictOrderedRing K] in
theorem iterates_states_prefix (c : Config K) (comp : Components K n VM SM) (r : Run K n VM SM) (j k : Nat) :
    (iterates c comp r j).states <+: (iterates c comp r (j + k)).states := by
  induction k with
  | zero => exact List.prefix_refl _
  | succ k ih =>
    rw [← Nat.add_assoc, iterates, iteration_eq]
    exact ih.trans (List.prefix_append _ _)

/-- C138 for components that do not raise, see `C138_first_criterion_ends_the_run`. -/
theorem C138_first_criterion_ends_a_plain_run (c : Config K) (comp : Components K n VM SM)
    (hf : FilterSelects comp) (x : Vec K n) (radius : K) (bounds : Bounds K n)
    (hdis : c.conv.disable = false) (k : Nat) (old new : LoopState K n VM SM) (m : Msg)
    (hold : (tranquilo c comp x radius bounds).states[k]? = some old)
    (hnew : (tranquilo c comp x radius bounds).states[k + 1]? = some new) (hacc : new.accepted = true)
    (hm : MessageHolds comp.nrm comp.gradNorm c.conv old new m) :
    (tranquilo c comp x radius bounds).states.length = k + 2 ∧
    (tranquilo c comp x radius bounds).converged = true ∧
    ∃ q, (tranquilo c comp x radius bounds).msg = some q ∧
      FirstToHold (MessageHolds comp.nrm comp.gradNorm c.conv old new) q := by
  obtain ⟨l, h1, h2, h3, h4⟩ := tranquilo_iterates c comp x radius bounds
  rw [h2] at hold hnew ⊢
  have hokj : ∀ j, RunOk comp bounds (iterates c comp (startRun c comp x radius bounds) j) := by
    intro j
    induction j with
    | zero => exact startRun_ok c comp x radius bounds
    | succ j ih => exact iteration_ok c comp hf bounds j _ ih
  have hkl : k + 1 ≤ l := by
    have := (List.getElem?_eq_some_iff.1 hnew).1
    rw [iterates_states_length] at this
    omega
  have hpre := iterates_states_prefix c comp (startRun c comp x radius bounds) (k + 1) (l - (k + 1))
  rw [Nat.add_sub_cancel' hkl] at hpre
  obtain ⟨tail, htail⟩ := hpre
  have hlen := iterates_states_length c comp x radius bounds k
  have hit : (iterates c comp (startRun c comp x radius bounds) (k + 1)).states =
      (iterates c comp (startRun c comp x radius bounds) k).states ++
        [theState c comp k (iterates c comp (startRun c comp x radius bounds) k)] := by
    rw [iterates, iteration_eq]
  obtain ⟨pre, s, hs, hstate⟩ := (hokj k).last
  rw [hs] at hlen
  simp only [List.length_append, List.length_singleton, Nat.add_right_cancel_iff] at hlen
  rw [← htail, hit, hs] at hold hnew
  have e1 : s = old := by simpa [← hlen] using hold
  have e2 : theState c comp k (iterates c comp (startRun c comp x radius bounds) k) = new := by
    simpa [← hlen] using hnew
  subst e1
  have hsame : ∀ q, MessageHolds comp.nrm comp.gradNorm c.conv
      (iterates c comp (startRun c comp x radius bounds) k).state new q ↔
      MessageHolds comp.nrm comp.gradNorm c.conv s new q := fun q =>
    messageHolds_same _ _ _ (by rw [hstate]) (by rw [hstate]) q
  obtain ⟨q, hq, hfirst⟩ := isConverged_first _ _ _ _ _ ((hsame m).2 hm)
  have hcheck : theCheck c comp k (iterates c comp (startRun c comp x radius bounds) k) = some q := by
    have hacc' : (theDecision c comp k (iterates c comp (startRun c comp x radius bounds) k)).2.accepted
        = true := by rw [← e2] at hacc; exact hacc
    unfold theCheck
    rw [hacc', hdis, e2]
    exact hq
  have hl : l = k + 1 := by
    by_contra hne
    have hstop := h3 (k + 1) (by omega) (by omega)
    rw [iterates, iteration_eq] at hstop
    simp [hcheck] at hstop
  subst hl
  refine ⟨iterates_states_length c comp x radius bounds (k + 1), ?_, q, ?_, ?_⟩
  · rw [iterates, iteration_eq]
    simp [hcheck]
  · rw [iterates, iteration_eq]
    simp [hcheck]
  · obtain ⟨a1, p, r, a2, a3⟩ := hfirst
    exact ⟨(hsame q).1 a1, p, r, a2, fun q' hq' h => a3 q' hq' ((hsame q').2 h)⟩

/-- C138. If convergence checks are not disabled and a step of the run was accepted and fulfills a convergence
criterion, the run ends with this step. It reports convergence and names the first criterion that holds. -/
theorem C138_first_criterion_ends_the_run {c : Config K} {ce : ComponentsR K n VM SM} {x : Vec K n} {radius : K}
    {bounds : Bounds K n} {r : Run K n VM SM} (hf : FilterSelectsR ce)
    (hr : tranquiloR c ce x radius bounds = .ok r) (hdis : c.conv.disable = false) (k : Nat)
    (old new : LoopState K n VM SM) (m : Msg) (hold : r.states[k]? = some old)
    (hnew : r.states[k + 1]? = some new) (hacc : new.accepted = true)
    (hm : MessageHolds ce.nrm ce.gradNorm c.conv old new m) :
    r.states.length = k + 2 ∧ r.converged = true ∧
    ∃ q, r.msg = some q ∧ FirstToHold (MessageHolds ce.nrm ce.gradNorm c.conv old new) q := by
  obtain ⟨cp, rfl, h1, -, h3, h, -⟩ := tranquiloR_run hr
  have := C138_first_criterion_ends_a_plain_run c cp (h hf) x radius bounds hdis k old new m hold hnew hacc
  rw [h1, h3] at this
  exact this hm

end run

/-- A run that meets the hypotheses of C138: with the seventh step the absolute change of the parameters is
small enough. -/
example :
    let c := toyConfig 20 100 1 (.classic 0)
    let comp := toyComponents toyStep toySample
    let r := tranquilo c comp (fun _ => 1) 1 noBounds
    FilterSelects comp ∧ c.conv.disable = false ∧ r.states.length = 8 ∧ r.msg = some .xtolAbs ∧
    ∃ old new, r.states[6]? = some old ∧ r.states[7]? = some new ∧ new.accepted = true ∧
      MessageHolds comp.nrm comp.gradNorm c.conv old new .xtolAbs := by
  intro c comp r
  have hlen : r.states.length = 8 := by decide +kernel
  have hmsg : r.msg = some .xtolAbs := by decide +kernel
  obtain ⟨-, -, h⟩ := C65_messages_are_truthful c comp (toy_filter _ _) (fun _ => 1) 1 noBounds
  obtain ⟨hdis, pre, old, new, hs, hacc, hm⟩ := h .xtolAbs (by decide) hmsg
  have hs' : r.states = pre ++ [old, new] := hs
  have hp : pre.length = 6 := by
    rw [hs'] at hlen
    simpa using hlen
  refine ⟨toy_filter _ _, hdis, hlen, hmsg, old, new, ?_, ?_, hacc, hm⟩
  · rw [hs', ← hp]; simp
  · rw [hs', show 7 = pre.length + 1 by omega]; simp

section call

variable {K O : Type} [Field K] [LinearOrder K] [IsStrictOrderedRing K] [FloorRing K] {n m : Nat}
  {env : PyEnv K O} {ext : Externals K O n m} {a : Arguments K O (Option (Piece K n))} {x : Vec K n}
  {bounds : Bounds K n} {r : Run K n (VectorModel K n m) (ScalarModel K n)}

/-- C138 for calls, for arbitrary arguments: the first accepted step that fulfills one of the criteria, with the tolerances
that the user passed, ends the run, unless the user disabled convergence. -/
theorem C138_call (hr : tranquiloCall env ext a x bounds = .ok (some r)) :
    ∃ (c : Config K) (b : BuiltinSettings K n m) (radius : K), CallUses env ext a x c b radius ∧
      (c.conv.disable = false → ∀ (k : Nat) old new t, r.states[k]? = some old → r.states[k + 1]? = some new →
        new.accepted = true →
        MessageHolds ext.nrm (fun model : ScalarModel K n => ext.nrm model.linearTerms) c.conv old new t →
        r.states.length = k + 2 ∧ r.converged = true ∧ ∃ q, r.msg = some q ∧
          FirstToHold (MessageHolds ext.nrm (fun model : ScalarModel K n => ext.nrm model.linearTerms) c.conv
            old new) q) := by
  obtain ⟨c, b, radius, hrun, hu⟩ := C118_run_uses_the_arguments env ext a x bounds r hr
  have h := C138_first_criterion_ends_the_run (builtin_filterSelectsR b) hrun
  have h1 : (builtinComponents b).nrm = ext.nrm := hu.numpy.1
  have h2 : (builtinComponents b).gradNorm = fun model => ext.nrm model.linearTerms := by
    rw [← hu.numpy.1]; rfl
  rw [h1, h2] at h
  exact ⟨c, b, radius, hu, h⟩

end call

end Tranquilo
