import Verif.Props.CallRadius

/-!
# C21 for whole runs and calls: unsuccessful steps in a row, and the rule with default options
-/

namespace Tranquilo

section run

variable {K : Type} [Field K] [LinearOrder K] [IsStrictOrderedRing K] [FloorRing K] {n : Nat} {VM SM : Type}

/-- C21 for runs without noise: if `rho` is below both thresholds (or NaN) in all states from number `k + 1` to number
`k + j + 1`, each of these iterations multiplies the radius with the shrinking factor, down to `min_radius`. -/
theorem C21_unsuccessful_steps_in_a_run {c : Config K} {ce : ComponentsR K n VM SM} {x : Vec K n} {radius : K}
    {bounds : Bounds K n} {r : Run K n VM SM} (hr : tranquiloR c ce x radius bounds = .ok r)
    (hnoisy : c.noisy = false) (hmin : 0 ≤ c.radius.minRadius) (hlim : c.radius.minRadius ≤ c.radius.maxRadius)
    (hratio : ∀ q, c.radius.maxRadiusToStepRatio ≠ .fin q)
    (hstart : 0 ≤ radius ∧ radius ≤ c.radius.maxRadius)
    (hs0 : 0 ≤ c.radius.shrinkingFactor) (hs1 : c.radius.shrinkingFactor ≤ 1) (k j : Nat)
    (s s' : LoopState K n VM SM) (hs : r.states[k + 1]? = some s) (hs' : r.states[k + j + 2]? = some s')
    (hbad : ∀ i ≤ j, ∀ t, r.states[k + i + 1]? = some t →
      ¬ (XVal.fin c.radius.rhoDecrease ≤ t.rho) ∧ ¬ (XVal.fin c.radius.rhoIncrease ≤ t.rho)) :
    s'.trustregion.radius =
      max (s.trustregion.radius * c.radius.shrinkingFactor ^ (j + 1)) c.radius.minRadius := by
  have hch := tranquiloR_regions hr
  obtain ⟨l1, l2, -⟩ := C20_radius_in_a_run_partial hr hlim hratio
  have hlims : ∀ (i : Nat) (t : LoopState K n VM SM), r.states[i]? = some t → 0 ≤ t.trustregion.radius ∧ t.trustregion.radius ≤ c.radius.maxRadius := by
    intro i t ht
    by_cases hi : i ≤ 1
    · rw [l1 i t ht hi]; exact hstart
    · obtain ⟨h1, h2⟩ := l2 i t ht (by omega)
      exact ⟨hmin.trans h1, h2⟩
  have hone : ∀ i ≤ j, ∀ t t', r.states[k + i + 1]? = some t → r.states[k + i + 2]? = some t' →
      t'.trustregion.radius = max (t.trustregion.radius * c.radius.shrinkingFactor) c.radius.minRadius := by
    intro i hi t t' ht ht'
    obtain ⟨len, inc, -, hinc, e⟩ := (hch.next _ t t' ht ht').later (by omega)
    obtain ⟨b1, b2⟩ := hbad i hi t ht
    obtain ⟨h0, h1⟩ := hlims _ t ht
    rw [e]
    exact unsuccessful_step c.radius ⟨t.rho, len, inc⟩ ⟨b1, b2, hinc hnoisy⟩ hratio hlim _
      ((mul_le_of_le_one_right h0 hs1).trans h1)
  induction j generalizing s' with
  | zero => simpa using hone 0 le_rfl s s' hs hs'
  | succ j ih =>
    have hlt : k + j + 2 < r.states.length := by
      have := (List.getElem?_eq_some_iff.1 hs').1
      omega
    have ht := List.getElem?_eq_getElem hlt
    have e1 := ih _ ht (fun i hi => hbad i (by omega)) (fun i hi => hone i (by omega))
    have e2 := hone (j + 1) le_rfl _ s' ht hs'
    rw [e2, e1, max_mul_of_nonneg _ _ hs0, max_assoc, max_eq_right (mul_le_of_le_one_right hmin hs1), mul_assoc, ← pow_succ]

/-- A run that meets the hypotheses: the steps lead upwards, every step is rejected, and the radius is
halved three times, from 2 to 1/4. -/
example :
    (match tranquiloR (toyConfig 4 100 2 (.classic 0)) (toyComponentsR fun _ v => .fin (-(v 0 ^ 2))) (fun _ => 2) 2
        noBounds with
      | .ok r => some (r.states.map (fun s => s.trustregion.radius), (r.states.drop 1).map (fun s => s.rho))
      | .error _ => none) = some ([2, 2, 1, 1 / 2, 1 / 4], [.fin (-3), .fin (-3), .fin (-3), .fin (-3)]) := by
  decide +kernel

end run

section call

variable {K O : Type} [Field K] [LinearOrder K] [IsStrictOrderedRing K] [FloorRing K] {n m : Nat}
  {env : PyEnv K O} {ext : Externals K O n m} {a : Arguments K O (Option (Piece K n))} {x : Vec K n}
  {bounds : Bounds K n} {r : Run K n (VectorModel K n m) (ScalarModel K n)}

/-- C21 for calls without options for the radius and without noise, the rule in numbers: the radius is doubled after a step
of at least half the radius with `rho` at least 0.1, it stays after a shorter step with such a `rho`, and is
halved otherwise; then it is moved into the interval from `1e-6` to `1e6`. -/
theorem C21_default_call (hr : tranquiloCall env ext a x bounds = .ok (some r)) (hopt : a.radiusOptions = none)
    (hnoisy : ¬ ReadsBool env a.noisy true) (k : Nat) (s s' : LoopState K n (VectorModel K n m) (ScalarModel K n))
    (hs : r.states[k + 1]? = some s) (hs' : r.states[k + 2]? = some s') (hpos : 0 < s.trustregion.radius) :
    ∃ step target, s.stepLength = some step ∧
      s'.trustregion.radius = min (max target (1 / 10 ^ 6)) (10 ^ 6) ∧
      (XVal.fin (1 / 10) ≤ s.rho → s.trustregion.radius / 2 ≤ step → target = 2 * s.trustregion.radius) ∧
      (XVal.fin (1 / 10) ≤ s.rho → step < s.trustregion.radius / 2 → target = s.trustregion.radius) ∧
      (¬ (XVal.fin (1 / 10) ≤ s.rho) → target = s.trustregion.radius / 2) := by
  obtain ⟨c, b, radius, hrun, hu⟩ := C118_run_uses_the_arguments env ext a x bounds r hr
  obtain ⟨initial, hi1, hi2, hall⟩ := hu.radius
  rw [hopt] at hall
  have h1 := uses_default_num (hall ("min_radius", num (1 / 10 ^ 6), num c.radius.minRadius) (by simp [radiusTable]))
  have h2 := uses_default_num (hall ("max_radius", num (10 ^ 6), num c.radius.maxRadius) (by simp [radiusTable]))
  have h3 := uses_no_options (hall ("max_radius_to_step_ratio", .flt .pinf, .flt c.radius.maxRadiusToStepRatio)
    (by simp [radiusTable])) (fun i h => by cases h)
  injection h3 with h3
  have h4 := uses_default_num (hall ("rho_decrease", num (1 / 10), num c.radius.rhoDecrease) (by simp [radiusTable]))
  have h5 := uses_default_num (hall ("rho_increase", num (1 / 10), num c.radius.rhoIncrease) (by simp [radiusTable]))
  have h6 := uses_default_num (hall ("shrinking_factor", num (1 / 2), num c.radius.shrinkingFactor)
    (by simp [radiusTable]))
  have h7 := uses_default_num (hall ("expansion_factor", num 2, num c.radius.expansionFactor) (by simp [radiusTable]))
  have h8 := uses_default_num (hall ("large_step", num (1 / 2), num c.radius.largeStep) (by simp [radiusTable]))
  have hn : c.noisy = false := by
    cases hc : c.noisy
    · rfl
    · exact absurd (hc ▸ hu.noisy) hnoisy
  obtain ⟨len, inc, hlen, hinc, e⟩ := ((tranquiloR_regions hrun).next _ s s' hs hs').later (by omega)
  rw [hinc hn] at e
  unfold adjustRadius at e
  simp only [h1, h2, h3, h4, h5, h6, h7, h8, Bool.false_eq_true, or_false, npClip] at e
  have hlarge : XVal.fin (1 / 2) ≤ XVal.divFin len s.trustregion.radius ↔ s.trustregion.radius / 2 ≤ len := by
    rw [XVal.divFin, if_neg hpos.ne', XVal.fin_le_fin, le_div_iff₀ hpos, div_mul_eq_mul_div, one_mul]
  simp only [hlarge] at e
  refine ⟨len, _, hlen, e, fun g1 g2 => ?_, fun g1 g2 => ?_, fun g1 => ?_⟩
  · rw [if_pos ⟨g1, g2⟩, mul_comm]
  · rw [if_neg (fun h => absurd h.2 (not_le.2 g2)), if_pos g1]
  · rw [if_neg (fun h => g1 h.1), if_neg g1, mul_one_div]

end call

/-- Not vacuous: a call with default options that makes two iterations and meets the hypotheses of `C21_default_call`. -/
example : ∃ r s s', tranquiloCall plainEnv coresExternals
      { functype := "least_squares", x := [], maxIter := .int 2 } (fun _ => 1)
      ⟨fun _ => none, fun _ => none⟩ = .ok (some r) ∧ r.states[1]? = some s ∧ r.states[2]? = some s' ∧
    0 < s.trustregion.radius ∧ ∃ target, s'.trustregion.radius = min (max target (1 / 10 ^ 6)) (10 ^ 6) := by
  have key : (match tranquiloCall plainEnv coresExternals
        { functype := "least_squares", x := [], maxIter := .int 2 } (fun _ => 1)
        ⟨fun _ => none, fun _ => none⟩ with
      | .ok (some r) => decide (r.states.length = 3)
      | _ => false) = true := by
    decide +kernel
  split at key
  · rename_i r hr
    have key := of_decide_eq_true key
    have hs := List.getElem?_eq_getElem (l := r.states) (i := 1) (by omega)
    have hs' := List.getElem?_eq_getElem (l := r.states) (i := 2) (by omega)
    obtain ⟨initial, h1, -, h2⟩ := (C20_default_call_partial hr rfl).1
    have hpos : 0 < r.states[1].trustregion.radius := by
      rw [h2 1 _ hs le_rfl]
      refine lt_of_lt_of_le ?_ (h1 0)
      norm_num
    obtain ⟨step, target, -, h3, -⟩ := C21_default_call hr rfl (by rintro (h | h)) 0 _ _ hs hs' hpos
    exact ⟨r, _, _, hr, hs, hs', hpos, target, h3⟩
  · cases key

end Tranquilo
