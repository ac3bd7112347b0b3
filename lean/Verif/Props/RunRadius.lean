import Verif.Lemmas.Regions
import Verif.Props.Adjust
import Verif.Props.MainLoopWitness

/-!
# C20 and C21 for whole runs
-/

namespace Tranquilo

variable {K : Type} [Field K] [LinearOrder K] [IsStrictOrderedRing K] {n : Nat} {VM SM : Type}

/-- C20 for runs: `s` is a state after at least one iteration, `s'` the next one. All trust regions from the second
iteration on, and the one that a third iteration would use, have a radius within the limits. Missing, as above: a
finite `max_radius_to_step_ratio`. The first iteration uses the initial radius, whatever the limits are. -/
theorem C20_radius_in_a_run_partial [FloorRing K] {c : Config K} {ce : ComponentsR K n VM SM} {x : Vec K n} {radius : K}
    {bounds : Bounds K n} {r : Run K n VM SM} (hr : tranquiloR c ce x radius bounds = .ok r)
    (hlim : c.radius.minRadius ≤ c.radius.maxRadius) (hratio : ∀ q, c.radius.maxRadiusToStepRatio ≠ .fin q) :
    (∀ k s, r.states[k]? = some s → k ≤ 1 → s.trustregion.radius = radius) ∧
    (∀ k s, r.states[k]? = some s → 2 ≤ k →
      c.radius.minRadius ≤ s.trustregion.radius ∧ s.trustregion.radius ≤ c.radius.maxRadius) ∧
    (2 ≤ r.states.length →
      c.radius.minRadius ≤ r.state.trustregion.radius ∧ r.state.trustregion.radius ≤ c.radius.maxRadius) := by
  have hch := tranquiloR_regions hr
  have hadj : ∀ (old : K) rho len inc, c.radius.minRadius ≤ adjustRadius old rho len c.radius inc ∧
      adjustRadius old rho len c.radius inc ≤ c.radius.maxRadius := fun old rho len inc =>
    C20_radius_within_limits_partial c.radius hlim hratio old [⟨rho, len, inc⟩] (by simp)
  refine ⟨?_, ?_, ?_⟩
  · intro k s hs hk
    have h0 : 0 < r.states.length := List.length_pos_iff.2 hch.nonempty
    have hs0 := List.getElem?_eq_getElem h0
    obtain rfl | rfl : k = 0 ∨ k = 1 := by omega
    · rw [(hch.first s hs).2]
    · rw [(hch.next 0 _ s hs0 hs).first rfl, (hch.first _ hs0).2]
  · intro k s hs hk
    obtain ⟨k, rfl⟩ : ∃ j, k = j + 2 := ⟨k - 2, by omega⟩
    have hlt := (List.getElem?_eq_some_iff.1 hs).1
    have hs' := List.getElem?_eq_getElem (l := r.states) (i := k + 1) (by omega)
    obtain ⟨len, inc, -, -, e⟩ := (hch.next (k + 1) _ s hs' hs).later (by omega)
    rw [e]
    exact hadj _ _ _ _
  · intro hl
    obtain ⟨k, hk⟩ : ∃ k, r.states.length = k + 2 := ⟨r.states.length - 2, by omega⟩
    have hs := List.getElem?_eq_getElem (l := r.states) (i := k + 1) (by omega)
    obtain ⟨len, inc, -, -, e⟩ := (hch.last (k + 1) _ hs hk).2.later (by omega)
    rw [e]
    exact hadj _ _ _ _

/-- C21 for runs: `s` and `s'` are the states of consecutive iterations. The trust region of the second is centered at
the point that the first has chosen. Its radius is not larger if `rho` of the first was below `rho_increase` or if the
step was short, and (without noise, where the number of evaluations never increases, or with it) not smaller if `rho`
was at least `rho_decrease`. -/
theorem C21_in_a_run [FloorRing K] {c : Config K} {ce : ComponentsR K n VM SM} {x : Vec K n} {radius : K}
    {bounds : Bounds K n} {r : Run K n VM SM} (hr : tranquiloR c ce x radius bounds = .ok r)
    (hmin : 0 < c.radius.minRadius) (hlim : c.radius.minRadius ≤ c.radius.maxRadius)
    (hratio : ∀ q, c.radius.maxRadiusToStepRatio ≠ .fin q)
    (hstart : c.radius.minRadius ≤ radius ∧ radius ≤ c.radius.maxRadius)
    (hshrink : c.radius.shrinkingFactor ≤ 1) (hexp : 1 ≤ c.radius.expansionFactor)
    (k : Nat) (s s' : LoopState K n VM SM) (hs : r.states[k + 1]? = some s) (hs' : r.states[k + 2]? = some s') :
    s'.trustregion.center = s.x ∧
    ((¬ (XVal.fin c.radius.rhoIncrease ≤ s.rho) ∨
        ∃ step, s.stepLength = some step ∧ step < c.radius.largeStep * s.trustregion.radius) →
      s'.trustregion.radius ≤ s.trustregion.radius) ∧
    (XVal.fin c.radius.rhoDecrease ≤ s.rho → s.trustregion.radius ≤ s'.trustregion.radius) := by
  have hch := tranquiloR_regions hr
  have hnext := hch.next (k + 1) s s' hs hs'
  obtain ⟨len, inc, hlen, -, e⟩ := hnext.later (by omega)
  have hlims : c.radius.minRadius ≤ s.trustregion.radius ∧ s.trustregion.radius ≤ c.radius.maxRadius := by
    obtain ⟨h1, h2, -⟩ := C20_radius_in_a_run_partial hr hlim hratio
    by_cases hk : k = 0
    · rw [h1 _ s hs (by omega)]
      exact hstart
    · exact h2 _ s hs (by omega)
  refine ⟨hnext.center, fun h => ?_, fun h => ?_⟩
  · rw [e]
    refine C21_not_enlarged c.radius _ _ _ _ hmin hlims.1 hshrink (h.imp id ?_)
    rintro ⟨step, h1, h2⟩
    rw [hlen] at h1
    cases h1
    exact h2
  · rw [e]
    exact C21_not_reduced c.radius _ _ _ _ hratio (hmin.le.trans hlims.1) hlims.2 hexp (Or.inl h)

/-- C20, C21, example: a run with four iterations. The radius is doubled after the first one, stays, and is halved after
the last one, in which `rho` is 3/64. -/
example :
    (match tranquiloR (toyConfig 4 100 2 (.classic 0)) (toyComponentsR fun _ v => .fin (v 0 ^ 2)) (fun _ => 2) 2
        noBounds with
      | .ok r => some (r.states.map (fun s => (s.trustregion.center 0, s.trustregion.radius)),
          r.state.trustregion.radius)
      | .error _ => none) = some ([(2, 2), (2, 2), (1, 4), (1 / 2, 4), (1 / 4, 4)], 2) := by
  decide +kernel

end Tranquilo
