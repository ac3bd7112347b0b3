import Verif.Props.RunRadius
import Verif.Lemmas.Steps

/-!
# C21 and C22 for whole runs: the number of evaluations per point
-/

namespace Tranquilo

variable {K : Type} [Field K] [LinearOrder K] [IsStrictOrderedRing K] {n : Nat} {VM SM : Type}

/-- Number of evaluations and radius after an iteration with state `s`. -/
def AfterState (c : Config K) (s : LoopState K n VM SM) (counts : Int) (radius : K) : Prop :=
  ∃ (e : Int) (rhos : List (XVal K)) (len : K) (q : Int × Bool), s.nEvalsPerPoint = some e ∧ s.stepLength = some len ∧
    q = (if c.noisy then adjustNEvals e s.rho rhos c.noise else (e, false)) ∧ counts = q.1 ∧
    radius = adjustRadius s.trustregion.radius s.rho len c.radius q.2

/-- The numbers of evaluations of consecutive states. -/
structure CountsOk (c : Config K) (r : Run K n VM SM) : Prop where
  nonempty : r.states ≠ []
  first : ∀ s, r.states[1]? = some s → s.nEvalsPerPoint = some c.nEvalsPerPoint
  next : ∀ k s s', r.states[k + 1]? = some s → r.states[k + 2]? = some s' →
    ∃ e, s'.nEvalsPerPoint = some e ∧ AfterState c s e s'.trustregion.radius
  start : r.states.length = 1 → r.nEvals = c.nEvalsPerPoint
  last : ∀ k s, r.states[k + 1]? = some s → r.states.length = k + 2 →
    AfterState c s r.nEvals r.state.trustregion.radius

omit [IsStrictOrderedRing K] in
theorem iterationR_counts [FloorRing K] {c : Config K} {ce : ComponentsR K n VM SM} (it : Nat) (r r' : Run K n VM SM)
    (h : CountsOk c r) (hr : iterationR c ce it r = .ok r') : CountsOk c r' := by
  have hpos : 0 < r.states.length := List.length_pos_iff.2 h.nonempty
  simp only [iterationR, except_bind_ok] at hr
  obtain ⟨p, -, sigma, -, d, -, next, hn, hr⟩ := hr
  generalize hstate : stateR r.state r.nEvals p.1 p.2 d.2 = state at hn hr
  have hq : ∃ rhos, next = if c.noisy then adjustNEvals r.nEvals d.2.rho rhos c.noise else (r.nEvals, false) := by
    unfold nextNEvalsR at hn
    by_cases hc : c.noisy = true
    · rw [if_pos hc] at hn
      obtain ⟨rhos, -, hn⟩ := bindOk hn
      cases hn
      exact ⟨rhos, by rw [if_pos hc]⟩
    · rw [if_neg hc] at hn
      cases hn
      exact ⟨[], by rw [if_neg hc]⟩
  obtain ⟨rhos, hq⟩ := hq
  have h1 : state.nEvalsPerPoint = some r.nEvals ∧ state.stepLength = some d.2.stepLength ∧ state.rho = d.2.rho ∧
      state.trustregion = r.state.trustregion := by
    subst hstate
    exact ⟨rfl, rfl, rfl, rfl⟩
  have h2 : r'.states = r.states ++ [state] ∧ r'.nEvals = next.1 ∧ r'.state.trustregion.radius =
      adjustRadius state.trustregion.radius d.2.rho d.2.stepLength c.radius next.2 := by
    cases hr
    unfold endIterationR
    dsimp only
    split
    · exact ⟨rfl, rfl, rfl⟩
    · split <;> exact ⟨rfl, rfl, rfl⟩
  obtain ⟨e1, e2, e3⟩ := h2
  have hlast : ∀ k s, r'.states[k]? = some s → k = r.states.length → s = state := by
    intro k s hs hk
    rw [e1, hk, List.getElem?_append_right le_rfl, Nat.sub_self] at hs
    exact (Option.some.inj hs).symm
  have hold : ∀ k s, r'.states[k]? = some s → k ≠ r.states.length → r.states[k]? = some s := by
    intro k s hs hk
    have hlt : k < r.states.length := by
      have := (List.getElem?_eq_some_iff.1 hs).1
      rw [e1, List.length_append, List.length_singleton] at this
      omega
    rwa [e1, List.getElem?_append_left hlt] at hs
  refine ⟨by rw [e1]; simp, fun s hs => ?_, fun k s s' hs hs' => ?_, fun hl => ?_, fun k s hs hl => ?_⟩
  · by_cases hk : 1 = r.states.length
    · rw [hlast 1 s hs hk, h1.1, h.start hk.symm]
    · exact h.first s (hold 1 s hs hk)
  · have hs1 : r.states[k + 1]? = some s := by
      refine hold _ s hs fun hk => ?_
      have := (List.getElem?_eq_some_iff.1 hs').1
      rw [e1, List.length_append, List.length_singleton] at this
      omega
    by_cases hk : k + 2 = r.states.length
    · rw [hlast _ s' hs' hk]
      exact ⟨_, h1.1, by rw [h1.2.2.2]; exact h.last k s hs1 hk.symm⟩
    · exact h.next k s s' hs1 (hold _ s' hs' hk)
  · rw [e1, List.length_append, List.length_singleton] at hl
    omega
  · rw [e1, List.length_append, List.length_singleton] at hl
    have hs1 := hlast _ s hs (by omega)
    rw [hs1]
    exact ⟨_, rhos, _, next, h1.1, h1.2.1, by rw [h1.2.2.1]; exact hq, e2, by rw [e3, h1.2.2.1]⟩

omit [IsStrictOrderedRing K] in
theorem tranquiloR_counts [FloorRing K] {c : Config K} {ce : ComponentsR K n VM SM} {x : Vec K n} {radius : K}
    {bounds : Bounds K n} {r : Run K n VM SM} (hr : tranquiloR c ce x radius bounds = .ok r) : CountsOk c r := by
  refine tranquiloR_invariant (CountsOk c) (fun r h => ?_) iterationR_counts hr
  simp only [startRunR, except_bind_ok] at h
  obtain ⟨a, -, h⟩ := h
  cases h
  exact ⟨by simp, by simp, by simp, fun _ => rfl, by simp⟩

/-- C22 for runs: each iteration records the number of evaluations per point that it used. The first one uses the
number that the user asked for; it changes by at most one from iteration to iteration and stays within the limits.
Without noise it never changes. Missing, as above: start values outside of the limits. -/
theorem C22_in_a_run_partial [FloorRing K] {c : Config K} {ce : ComponentsR K n VM SM} {x : Vec K n} {radius : K}
    {bounds : Bounds K n} {r : Run K n VM SM} (hr : tranquiloR c ce x radius bounds = .ok r)
    (h1 : c.noise.minNEvals ≤ c.nEvalsPerPoint) (h2 : c.nEvalsPerPoint ≤ c.noise.maxNEvals) :
    ∃ counts : List Int, (r.states.drop 1).map (·.nEvalsPerPoint) = counts.map some ∧
      (∀ e, counts.head? = some e → e = c.nEvalsPerPoint) ∧
      (∀ e ∈ counts, c.noise.minNEvals ≤ e ∧ e ≤ c.noise.maxNEvals) ∧
      (∀ (k : ℕ) e e', counts[k]? = some e → counts[k + 1]? = some e' → e - 1 ≤ e' ∧ e' ≤ e + 1) ∧
      (c.noisy = false → ∀ e ∈ counts, e = c.nEvalsPerPoint) := by
  have h := tranquiloR_counts hr
  have key : ∀ (k : ℕ) s, r.states[k + 1]? = some s → ∃ e, s.nEvalsPerPoint = some e ∧
      (c.noise.minNEvals ≤ e ∧ e ≤ c.noise.maxNEvals) ∧ (c.noisy = false → e = c.nEvalsPerPoint) := by
    intro k
    induction k with
    | zero => exact fun s hs => ⟨_, h.first s hs, ⟨h1, h2⟩, fun _ => rfl⟩
    | succ k ih =>
      intro s' hs'
      have hlt := (List.getElem?_eq_some_iff.1 hs').1
      have hs := List.getElem?_eq_getElem (l := r.states) (i := k + 1) (by omega)
      obtain ⟨e, he, hlim, hconst⟩ := ih _ hs
      obtain ⟨e', he', e1, rhos, len, q, hq1, -, hq, rfl, -⟩ := h.next k _ s' hs hs'
      rw [he] at hq1
      cases hq1
      refine ⟨_, he', ?_, fun hn => ?_⟩
      · rw [hq]
        split
        · exact ⟨(C22_single_change_partial c.noise e _ _ hlim.1 hlim.2).1,
            (C22_single_change_partial c.noise e _ _ hlim.1 hlim.2).2.1⟩
        · exact hlim
      · rw [hq, hn]
        exact hconst hn
  have hlen : (r.states.drop 1).map (·.nEvalsPerPoint) =
      ((r.states.drop 1).map fun s => s.nEvalsPerPoint.getD 0).map some := by
    rw [List.map_map]
    refine List.map_congr_left fun s hs => ?_
    obtain ⟨k, hk⟩ := List.mem_iff_getElem?.1 hs
    rw [List.getElem?_drop, Nat.add_comm] at hk
    obtain ⟨e, he, -⟩ := key k s hk
    simp [he]
  have hmem : ∀ (k : ℕ) e, ((r.states.drop 1).map fun s => s.nEvalsPerPoint.getD 0)[k]? = some e →
      ∃ s, r.states[k + 1]? = some s ∧ s.nEvalsPerPoint = some e := by
    intro k e he
    rw [List.getElem?_map, List.getElem?_drop, Option.map_eq_some_iff, Nat.add_comm] at he
    obtain ⟨s, hs, rfl⟩ := he
    obtain ⟨e, he, -⟩ := key k s hs
    exact ⟨s, hs, by simp [he]⟩
  refine ⟨_, hlen, fun e he => ?_, fun e he => ?_, fun k e e' he he' => ?_, fun hn e he => ?_⟩
  · rw [List.head?_eq_getElem?] at he
    obtain ⟨s, hs, h3⟩ := hmem 0 e he
    rw [h.first s hs] at h3
    exact (Option.some.inj h3).symm
  · obtain ⟨k, hk⟩ := List.mem_iff_getElem?.1 he
    obtain ⟨s, hs, h3⟩ := hmem k e hk
    obtain ⟨e', he', h4, -⟩ := key k s hs
    rw [h3] at he'
    cases he'
    exact h4
  · obtain ⟨s, hs, h3⟩ := hmem k e he
    obtain ⟨s', hs', h3'⟩ := hmem (k + 1) e' he'
    obtain ⟨e2, he2, hlim, -⟩ := key k s hs
    rw [h3] at he2
    cases he2
    obtain ⟨e4, he4, e1, rhos, len, q, hq1, -, hq, rfl, -⟩ := h.next k _ s' hs hs'
    rw [h3] at hq1
    cases hq1
    rw [h3'] at he4
    cases he4
    rw [hq]
    split
    · exact (C22_single_change_partial c.noise e _ _ hlim.1 hlim.2).2.2.imp_right And.left
    · exact ⟨by simp, by simp⟩
  · obtain ⟨k, hk⟩ := List.mem_iff_getElem?.1 he
    obtain ⟨s, hs, h3⟩ := hmem k e hk
    obtain ⟨e', he', -, h4⟩ := key k s hs
    rw [h3] at he'
    cases he'
    exact h4 hn

/-- C21 for runs with noise: if an iteration decides that points are to be evaluated more often, the radius is not
reduced. -/
theorem C21_more_evaluations [FloorRing K] {c : Config K} {ce : ComponentsR K n VM SM} {x : Vec K n} {radius : K}
    {bounds : Bounds K n} {r : Run K n VM SM} (hr : tranquiloR c ce x radius bounds = .ok r)
    (hmin : 0 ≤ c.radius.minRadius) (hlim : c.radius.minRadius ≤ c.radius.maxRadius)
    (hratio : ∀ q, c.radius.maxRadiusToStepRatio ≠ .fin q) (hstart : 0 ≤ radius ∧ radius ≤ c.radius.maxRadius)
    (hexp : 1 ≤ c.radius.expansionFactor) (h1 : c.noise.minNEvals ≤ c.nEvalsPerPoint)
    (h2 : c.nEvalsPerPoint ≤ c.noise.maxNEvals)
    (k : Nat) (s s' : LoopState K n VM SM) (hs : r.states[k + 1]? = some s) (hs' : r.states[k + 2]? = some s')
    (e e' : Int) (he : s.nEvalsPerPoint = some e) (he' : s'.nEvalsPerPoint = some e') (hmore : e < e') :
    s.trustregion.radius ≤ s'.trustregion.radius := by
  have h := tranquiloR_counts hr
  have hlims : 0 ≤ s.trustregion.radius ∧ s.trustregion.radius ≤ c.radius.maxRadius := by
    obtain ⟨h1, h2, -⟩ := C20_radius_in_a_run_partial hr hlim hratio
    by_cases hk : k = 0
    · rw [h1 _ s hs (by omega)]
      exact hstart
    · exact ⟨hmin.trans (h2 _ s hs (by omega)).1, (h2 _ s hs (by omega)).2⟩
  have hcount : c.noise.minNEvals ≤ e ∧ e ≤ c.noise.maxNEvals := by
    obtain ⟨counts, h3, -, h4, -⟩ := C22_in_a_run_partial hr h1 h2
    refine h4 e ?_
    have : some e ∈ (r.states.drop 1).map (·.nEvalsPerPoint) :=
      List.mem_map.2 ⟨s, List.mem_iff_getElem?.2 ⟨k, by rw [List.getElem?_drop, Nat.add_comm]; exact hs⟩, he⟩
    rw [h3] at this
    simpa using this
  obtain ⟨e2, h3, e1, rhos, len, q, hq1, -, hq, rfl, hrad⟩ := h.next k s s' hs hs'
  rw [he] at hq1
  cases hq1
  rw [he'] at h3
  cases h3
  rw [hrad]
  refine C21_not_reduced c.radius _ _ _ _ hratio hlims.1 hlims.2 hexp (Or.inr ?_)
  rw [hq] at hmore ⊢
  split at hmore
  · rename_i hn
    rw [if_pos hn]
    exact ((C22_single_change_partial c.noise e _ _ hcount.1 hcount.2).2.2.2.2).2 hmore
  · exact absurd hmore (lt_irrefl _)

/-- C21, C22, example: a noisy run in which the simulated `rho`s are always low. The number of evaluations per point goes
up from 1 by one in each iteration, and the radius stays although `rho` is below `rho_decrease`. -/
example : okAnd (fun r => r.states.map (fun s => (s.nEvalsPerPoint, s.trustregion.radius)) =
      [(none, 2), (some 1, 2), (some 2, 2), (some 3, 2), (some 4, 2)] ∧ r.nEvals = 5)
    (tranquiloR { toyConfig 4 1000 2 (.naiveNoisy 0) with noisy := true }
      { toyComponentsR fun _ v => .fin (v 0 ^ 2 / 100) with
        rhoNoise := fun _ _ _ _ _ _ => .ok [.fin (-1), .fin (-2)], noiseSigma := fun _ _ => .ok (some 1) }
      (fun _ => 2) 2 noBounds) = true := by
  decide +kernel

end Tranquilo
