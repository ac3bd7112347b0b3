import Verif.Lemmas.Regions
import Verif.Props.StopsInTime

/-!
# C139: the number of accepted steps is limited by the total improvement and the tolerance
-/

namespace Tranquilo

section run

variable {K : Type} [Field K] [LinearOrder K] [IsStrictOrderedRing K] [FloorRing K] {n : Nat} {VM SM : Type}

omit [FloorRing K] in
/-- If the values of a list never increase, and decrease by at least `tol` with every marked element that is neither the
first nor the last one, then the number of these elements times `tol` is at most the total decrease. -/
theorem count_mul_le_decrease {α : Type} (v : α → K) (mark : α → Bool) (tol : K) (t : List α) (a : α)
    (h : ∀ (k : Nat) old new, (a :: t)[k]? = some old → (a :: t)[k + 1]? = some new →
      v new ≤ v old ∧ (mark new = true → k + 2 < (a :: t).length → tol ≤ v old - v new)) :
    (t.dropLast.countP mark : K) * tol ≤ v a - v (t.getLastD a) := by
  induction t generalizing a with
  | nil => simp
  | cons b t ih =>
    obtain ⟨h1, h2⟩ := h 0 a b rfl rfl
    cases t with
    | nil => simpa using h1
    | cons d t =>
      have hi := ih b (fun k old new e1 e2 => by
        obtain ⟨q1, q2⟩ := h (k + 1) old new (by simpa using e1) (by simpa using e2)
        exact ⟨q1, fun hm hl => q2 hm (by simp at hl ⊢; omega)⟩)
      have e : ((b :: d :: t).getLastD a) = ((d :: t).getLastD b) := rfl
      rw [e, List.dropLast_cons_cons, List.countP_cons]
      by_cases hm : mark b = true
      · have := h2 hm (by simp)
        simp only [hm, if_true, Nat.cast_add, Nat.cast_one, add_mul, one_mul]
        linarith
      · simp only [hm, if_false, Nat.add_zero, Bool.false_eq_true]
        linarith

/-- C139. On a criterion `g` without noise, if convergence checks are not disabled, every accepted step but possibly the
last one improves by more than the tolerances for the criterion value. Hence the number of accepted steps, not counting
the last iteration, times the tolerance is at most the improvement from the start to the result. -/
theorem C139_accepted_steps {c : Config K} {ce : ComponentsR K n VM SM} {x : Vec K n} {radius : K}
    {bounds : Bounds K n} {r : Run K n VM SM} (hf : FilterSelectsR ce) (hb : 1 ≤ c.batchSize)
    (hm : 0 ≤ c.decider.minImprovement) {g : Vec K n → K} (hdet : ∀ k x, ce.oracle k x = .fin (g x))
    (hdis : c.conv.disable = false) (hrel : 0 ≤ c.conv.ftolRel)
    (hr : tranquiloR c ce x radius bounds = .ok r) :
    (∀ (k : Nat) old new, r.states[k]? = some old → r.states[k + 1]? = some new → new.accepted = true →
      k + 2 < r.states.length → max c.conv.ftolAbs c.conv.ftolRel < g old.x - g new.x) ∧
    ((r.states.drop 1).dropLast.countP (fun s => s.accepted) : K) * max c.conv.ftolAbs c.conv.ftolRel
      ≤ g x - g r.state.x := by
  obtain ⟨hpair, -, -, -, -⟩ := C61_run_that_returns_is_never_worse (f := fun y => .fin (g y)) hf hb hm hdet
    (by simp) hr
  have hval : ∀ s ∈ r.states, s.fval = .fin (g s.x) := by
    obtain ⟨cp, rfl, -, ho, -, h, -⟩ := tranquiloR_run hr
    exact fun s hs => ((C62_values_without_noise c cp (h hf) hb (f := fun y => .fin (g y)) (by rw [ho]; exact hdet)
      x radius bounds).1 s hs).1
  have hmono : ∀ (k : Nat) old new, r.states[k]? = some old → r.states[k + 1]? = some new → g new.x ≤ g old.x := by
    intro k old new h1 h2
    obtain ⟨l1, e1⟩ := List.getElem?_eq_some_iff.1 h1
    obtain ⟨l2, e2⟩ := List.getElem?_eq_some_iff.1 h2
    have := List.pairwise_iff_getElem.1 hpair k (k + 1) l1 l2 (by omega)
    rw [e1, e2] at this
    simpa using this
  have hstep : ∀ (k : Nat) old new, r.states[k]? = some old → r.states[k + 1]? = some new → new.accepted = true →
      k + 2 < r.states.length → max c.conv.ftolAbs c.conv.ftolRel < g old.x - g new.x := by
    intro k old new h1 h2 hacc hlt
    have v1 := hval old (List.mem_of_getElem? h1)
    have v2 := hval new (List.mem_of_getElem? h2)
    have hno : ∀ m, ¬ MessageHolds ce.nrm ce.gradNorm c.conv old new m := by
      intro m hmsg
      have := (C138_first_criterion_ends_the_run hf hr hdis k old new m h1 h2 hacc hmsg).1
      omega
    have habs : |g old.x - g new.x| = g old.x - g new.x := abs_of_nonneg (sub_nonneg.2 (hmono k old new h1 h2))
    refine max_lt ?_ ?_
    · by_contra hle
      exact hno .ftolAbs ⟨_, _, v1, v2, by rw [habs]; exact not_lt.1 hle⟩
    · by_contra hle
      refine hno .ftolRel ⟨_, _, v1, v2, ?_⟩
      rw [habs]
      exact (not_lt.1 hle).trans (le_mul_of_one_le_right hrel (le_max_right _ _))
  refine ⟨hstep, ?_⟩
  have hch := tranquiloR_regions hr
  obtain ⟨a, t, hat⟩ : ∃ a t, r.states = a :: t := List.exists_cons_of_ne_nil hch.nonempty
  have hx : a.x = x := (hch.first a (by rw [hat]; rfl)).1
  have hlast : r.state.x = (t.getLastD a).x := by
    refine (hch.last t.length (t.getLastD a) ?_ (by rw [hat]; rfl)).1
    rw [hat]
    cases t with
    | nil => rfl
    | cons b t => simp [List.getLastD_cons, List.getLast?_eq_getElem?, List.getLastD_eq_getLast?]
  have := count_mul_le_decrease (fun s : LoopState K n VM SM => g s.x) (fun s => s.accepted)
    (max c.conv.ftolAbs c.conv.ftolRel) t a (fun k old new h1 h2 => by
      rw [← hat] at h1 h2 ⊢
      exact ⟨hmono k old new h1 h2, fun ha hl => (hstep k old new h1 h2 ha hl).le⟩)
  rw [hat, hlast, ← hx]
  simpa using this

end run

/-- A run that meets the hypotheses of C139: with the tolerance 1/10 it ends with the fourth step, from 1/16 to 1/64, which
improves by less. The three steps before were accepted and the total improvement is 255/64. -/
example :
    let c := { toyConfig 10 100 2 (.classic 0) with
      conv := { (toyConfig 10 100 2 (.classic 0)).conv with ftolAbs := 1 / 10 } }
    FilterSelectsR (toyComponentsR fun _ v => .fin (v 0 ^ 2)) ∧ 1 ≤ c.batchSize ∧ 0 ≤ c.decider.minImprovement ∧
    c.conv.disable = false ∧ 0 ≤ c.conv.ftolRel ∧
    (match tranquiloR c (toyComponentsR fun _ v => .fin (v 0 ^ 2)) (fun _ => 2) 2 noBounds with
      | .ok r => some (r.states.map (fun s => (s.accepted, s.x 0)), r.msg,
          (r.states.drop 1).dropLast.countP (fun s => s.accepted))
      | .error _ => none) =
      some ([(true, 2), (true, 1), (true, 1 / 2), (true, 1 / 4), (true, 1 / 8)], some .ftolAbs, 3) := by
  refine ⟨?_, by decide, by decide +kernel, rfl, by decide +kernel, by decide +kernel⟩
  intro state log target nEvals l r hr
  cases hr
  exact ⟨l, List.subset_cons_self _ _, rfl⟩

section call

variable {K O : Type} [Field K] [LinearOrder K] [IsStrictOrderedRing K] [FloorRing K] {n m : Nat}
  {env : PyEnv K O} {ext : Externals K O n m} {a : Arguments K O (Option (Piece K n))} {x : Vec K n}
  {bounds : Bounds K n} {r : Run K n (VectorModel K n m) (ScalarModel K n)}

/-- C139 for calls: with the tolerances that the user passed. -/
theorem C139_call (hr : tranquiloCall env ext a x bounds = .ok (some r)) (hbatch : PositiveBatch env a)
    (hname : a.acceptanceDecider = none ∨ ∃ s, a.acceptanceDecider = some (.str s))
    (hmin : ∀ w, Uses env a.acceptanceDeciderOptions "min_improvement" (num 0) (num w) → 0 ≤ w)
    (hrel : ∀ w, ReadsFloat env a.ftolRel w → 0 ≤ w) (hdis : ¬ ReadsBool env a.disableConvergence true)
    {g : Vec K n → K} (hdet : ∀ k y, ext.oracle k y = .fin (g y)) :
    ∃ ftolAbs ftolRel, ReadsFloat env a.ftolAbs ftolAbs ∧ ReadsFloat env a.ftolRel ftolRel ∧
      ((r.states.drop 1).dropLast.countP (fun s => s.accepted) : K) * max ftolAbs ftolRel ≤ g x - g r.state.x := by
  obtain ⟨c, b, radius, hrun, hu⟩ := C118_run_uses_the_arguments env ext a x bounds r hr
  refine ⟨c.conv.ftolAbs, c.conv.ftolRel, hu.ftolAbs, hu.ftolRel,
    (C139_accepted_steps (builtin_filterSelectsR b) (by exact_mod_cast hbatch _ hu.batchSize) ?_ (fun k y => ?_) ?_
      (hrel _ hu.ftolRel) hrun).2⟩
  · obtain ⟨s, hD⟩ : ∃ s, DeciderIs env ext a.acceptanceDeciderOptions s c.decider := by
      rcases hname with h | ⟨s, h⟩
      · exact ⟨_, hu.decider _ (by rw [h]; rfl)⟩
      · exact ⟨s, hu.decider s (by rw [h]; rfl)⟩
    generalize c.decider = D at hD
    cases hD with
    | classic mi h => exact hmin _ h
    | naiveNoisy mi h => exact hmin _ h
    | noisy mi q1 q2 k l h => exact hmin _ (h ("min_improvement", num 0, num mi) (by simp))
    | lineSearch mi f h => exact hmin _ (h ("min_improvement", num 0, num mi) (by simp))
  · show b.oracle k y = .fin (g y)
    rw [hu.criterion.1]
    exact hdet k y
  · cases hc : c.conv.disable
    · rfl
    · exact absurd (hc ▸ hu.disable) hdis

end call

end Tranquilo
