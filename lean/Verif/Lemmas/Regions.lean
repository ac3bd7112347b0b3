import Verif.Props.MainLoopRaise

/-!
# The trust regions of consecutive iterations
-/

namespace Tranquilo

variable {K : Type} [Field K] [LinearOrder K] [IsStrictOrderedRing K] {n : Nat} {VM SM : Type}

/-- `t` is the trust region that follows after state number `k` of a run. -/
structure NextRegion (c : Config K) (k : Nat) (s : LoopState K n VM SM) (t : Region K n) : Prop where
  center : t.center = s.x
  bounds : t.bounds = s.trustregion.bounds
  first : k = 0 → t.radius = s.trustregion.radius
  later : 0 < k → ∃ len inc, s.stepLength = some len ∧ (c.noisy = false → inc = false) ∧
    t.radius = adjustRadius s.trustregion.radius s.rho len c.radius inc

/-- The states of a run and the region of its current state. -/
structure RegionsOk (c : Config K) (x : Vec K n) (radius : K) (bounds : Bounds K n) (r : Run K n VM SM) : Prop where
  nonempty : r.states ≠ []
  first : ∀ s, r.states[0]? = some s → s.x = x ∧ s.trustregion = ⟨x, radius, bounds⟩
  next : ∀ k s s', r.states[k]? = some s → r.states[k + 1]? = some s' → NextRegion c k s s'.trustregion
  last : ∀ k s, r.states[k]? = some s → r.states.length = k + 1 →
    r.state.x = s.x ∧ NextRegion c k s r.state.trustregion

omit [IsStrictOrderedRing K] in
theorem startRun_regions [FloorRing K] (c : Config K) (comp : Components K n VM SM) (x : Vec K n) (radius : K)
    (bounds : Bounds K n) : RegionsOk c x radius bounds (startRun c comp x radius bounds) where
  nonempty := by simp [startRun]
  first := by
    intro s hs
    obtain rfl : _ = s := by simpa [startRun] using hs
    exact ⟨rfl, rfl⟩
  next := by
    intro k s s' _ hs'
    simp [startRun] at hs'
  last := by
    intro k s hs hl
    have hk : k = 0 := by simpa [startRun] using hl.symm
    subst hk
    obtain rfl : _ = s := by simpa [startRun] using hs
    exact ⟨rfl, rfl, rfl, fun _ => rfl, fun h => absurd h (lt_irrefl 0)⟩

omit [IsStrictOrderedRing K] in
theorem iteration_regions [FloorRing K] (c : Config K) (comp : Components K n VM SM) (x : Vec K n) (radius : K)
    (bounds : Bounds K n) (it : Nat) (r : Run K n VM SM) (h : RegionsOk c x radius bounds r) :
    RegionsOk c x radius bounds (iteration c comp it r) := by
  have hpos : 0 < r.states.length := List.length_pos_iff.2 h.nonempty
  rw [iteration_eq]
  refine ⟨by simp, ?_, ?_, ?_⟩
  · intro s hs
    rw [List.getElem?_append_left hpos] at hs
    exact h.first s hs
  · intro k s s' hs hs'
    have hk : k < r.states.length := by
      have := (List.getElem?_eq_some_iff.1 hs').1
      simp at this
      omega
    rw [List.getElem?_append_left hk] at hs
    by_cases hk' : k + 1 < r.states.length
    · rw [List.getElem?_append_left hk'] at hs'
      exact h.next k s s' hs hs'
    · have hl : r.states.length = k + 1 := by omega
      rw [List.getElem?_append_right (by omega), hl, Nat.sub_self] at hs'
      obtain rfl : _ = s' := by simpa using hs'
      exact (h.last k s hs hl).2
  · intro k s hs hl
    have hk : r.states.length = k := by simpa using hl
    rw [List.getElem?_append_right (by omega), hk, Nat.sub_self] at hs
    obtain rfl : _ = s := by simpa using hs
    refine ⟨rfl, rfl, rfl, fun h0 => by omega, fun _ => ⟨_, _, rfl, ?_, rfl⟩⟩
    intro hn
    unfold theNEvals
    rw [hn]
    rfl

/-- The regions of every run that returns. -/
theorem tranquiloR_regions [FloorRing K] {c : Config K} {ce : ComponentsR K n VM SM}
    {x : Vec K n} {radius : K} {bounds : Bounds K n} {r : Run K n VM SM}
    (hr : tranquiloR c ce x radius bounds = .ok r) : RegionsOk c x radius bounds r := by
  obtain ⟨cp, rfl, -⟩ := tranquiloR_run hr
  exact tranquilo_induction c cp x radius bounds _ (startRun_regions c cp x radius bounds)
    (fun it r h => iteration_regions c cp x radius bounds it r h)

end Tranquilo
