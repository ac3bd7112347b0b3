import Verif.Lemmas.Det
import Verif.Spec.MainLoop
import Mathlib.Data.Rat.Floor

/-!
# Properties of whole runs: C61 - C69
-/

namespace Tranquilo

variable {K : Type} [Field K] [LinearOrder K] [IsStrictOrderedRing K] [FloorRing K] {n : Nat}
  {VM SM : Type}

/-! ## C62 -/

/-- C62: in every state accepted and candidate index are valid and belong to the stated points; the
returned solution is the accepted point of the last state; the search always continues around it.
For all criteria (with or without noise), deciders, samplers, fitters and solvers. -/
theorem C62_states_refer_to_history (c : Config K) (comp : Components K n VM SM)
    (hf : FilterSelects comp) (x : Vec K n) (radius : K) (bounds : Bounds K n) :
    let r := tranquilo c comp x radius bounds
    (∀ s ∈ r.states, r.log.xs[s.index]? = some s.x ∧ r.log.xs[s.candidateIndex]? = some s.candidateX) ∧
    r.log.xs[r.state.index]? = some r.state.x ∧
    (∃ s, r.states.getLast? = some s ∧ r.state.x = s.x ∧ r.state.fval = s.fval ∧
      r.state.index = s.index) ∧
    r.state.trustregion.center = r.state.x := by
  intro r
  have h := tranquilo_ok c comp hf x radius bounds
  obtain ⟨pre, s, h1, h2⟩ := h.last
  refine ⟨h.states, h.point, ⟨s, ?_, ?_, ?_, ?_⟩, h.center⟩
  · show (tranquilo c comp x radius bounds).states.getLast? = some s
    rw [h1]; simp
  all_goals
    show _ = _
    simp only [r]
    rw [h2]

/-- C62 for criteria without noise (`comp.oracle k x = f x`): in every state, and in the result, the
reported value is the value of the criterion at the accepted point and is recorded in the history. -/
theorem C62_values_without_noise (c : Config K) (comp : Components K n VM SM) (hf : FilterSelects comp)
    (hb : 1 ≤ c.batchSize) {f : Vec K n → XVal K} (hdet : ∀ k x, comp.oracle k x = f x)
    (x : Vec K n) (radius : K) (bounds : Bounds K n) :
    let r := tranquilo c comp x radius bounds
    (∀ s ∈ r.states, s.fval = f s.x ∧ (s.index, s.fval) ∈ r.log.evals) ∧
    r.state.fval = f r.state.x ∧ (r.state.index, r.state.fval) ∈ r.log.evals := by
  have h := tranquilo_det c comp hf hb hdet x radius bounds
  exact ⟨h.values, h.value, h.recorded⟩

/-! ## C61 -/

/-- C61. For a criterion without noise whose value at the start is not NaN (it may be infinite) and
`min_improvement >= 0` the values of the accepted points never increase from one iteration to a later
one; the returned point is the best of the accepted points, in particular not worse than the start
point. All four deciders, all other components arbitrary. -/
theorem C61_never_worse (c : Config K) (comp : Components K n VM SM) (hf : FilterSelects comp)
    (hb : 1 ≤ c.batchSize) (hm : 0 ≤ c.decider.minImprovement)
    {f : Vec K n → XVal K} (hdet : ∀ k x, comp.oracle k x = f x)
    (x : Vec K n) (hx : f x ≠ .nan) (radius : K) (bounds : Bounds K n) :
    let r := tranquilo c comp x radius bounds
    (r.states.Pairwise fun s t => f t.x ≤ f s.x) ∧
    (∀ s ∈ r.states, f r.state.x ≤ f s.x) ∧ (∃ s ∈ r.states, r.state.x = s.x) ∧
    f r.state.x ≤ f x ∧ r.state.fval = f r.state.x := by
  intro r
  have hd := tranquilo_det c comp hf hb hdet x radius bounds
  have hok := tranquilo_ok c comp hf x radius bounds
  obtain ⟨d1, d2⟩ := hd.descent hm
  -- the first state is the start
  have hfirst : ∃ s0 rest, r.states = s0 :: rest ∧ s0.x = x :=
    tranquilo_induction c comp x radius bounds
      (fun r => ∃ s0 rest, r.states = s0 :: rest ∧ s0.x = x) ⟨_, [], rfl, rfl⟩ (by
        rintro it r ⟨s0, rest, h1, h2⟩
        refine ⟨s0, rest ++ [theState c comp it r], ?_, h2⟩
        rw [iteration_eq]
        simp [h1])
  obtain ⟨s0, rest, hs0, hx0⟩ := hfirst
  have hmem0 : s0 ∈ r.states := by rw [hs0]; simp
  have hv : ∀ s ∈ r.states, s.fval = f s.x := fun s hs => (hd.values s hs).1
  have hnn : ∀ s ∈ r.states, s.fval ≠ .nan := by
    intro s hs
    rw [hs0] at hs
    rcases List.mem_cons.1 hs with rfl | hs
    · rw [hv _ hmem0, hx0]; exact hx
    · have h0 : s.fval ≤ s0.fval := by
        have d2' : r.states.Pairwise fun s t => s.fval ≠ .nan → t.fval ≤ s.fval := d2
        rw [hs0] at d2'
        refine (List.pairwise_cons.1 d2').1 s hs ?_
        rw [hv _ hmem0, hx0]; exact hx
      intro hc
      rw [hc] at h0
      simp at h0
  have hfin : r.state.fval = f r.state.x := hd.value
  refine ⟨?_, ?_, ?_, ?_, hfin⟩
  · refine List.Pairwise.imp_of_mem ?_ d2
    intro s t hs ht h
    rw [← hv s hs, ← hv t ht]
    exact h (hnn s hs)
  · intro s hs
    rw [← hv s hs, ← hfin]
    exact d1 s hs (hnn s hs)
  · obtain ⟨pre, s, h1, h2⟩ := hok.last
    refine ⟨s, ?_, ?_⟩
    · show s ∈ (tranquilo c comp x radius bounds).states
      rw [h1]; simp
    · show (tranquilo c comp x radius bounds).state.x = s.x
      rw [h2]
  · rw [← hfin, ← hx0, ← hv s0 hmem0]
    exact d1 s0 hmem0 (hnn s0 hmem0)

/-- C61 with noise: for the deciders that compare with the stored value of the current point (all but
`accept_noisy`) the reported values never increase, whatever the criterion returns; values that are NaN
are exempt. -/
theorem C61_reported_values (c : Config K) (comp : Components K n VM SM) (hf : FilterSelects comp)
    (hb : 1 ≤ c.batchSize) (hm : 0 ≤ c.decider.minImprovement)
    (hdec : ∀ m zc zp a b, c.decider ≠ .noisy m zc zp a b)
    (x : Vec K n) (radius : K) (bounds : Bounds K n) :
    let r := tranquilo c comp x radius bounds
    (∀ s ∈ r.states, s.fval ≠ .nan → r.state.fval ≤ s.fval) ∧
    r.states.Pairwise fun s t => s.fval ≠ .nan → t.fval ≤ s.fval :=
  tranquilo_stored c comp hf hb hm hdec x radius bounds

end Tranquilo
