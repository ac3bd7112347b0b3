import Verif.Props.RunRadius
import Verif.Props.RunCounts
import Verif.Props.CallUses
import Verif.Props.CallGuarantees
import Verif.Props.Cores

/-!
# C20 and C22 for whole calls

The limits are those of the arguments: what the user passed, or the documented defaults.
-/

namespace Tranquilo

variable {K O : Type} [Field K] [LinearOrder K] [IsStrictOrderedRing K] [FloorRing K] {n m : Nat}
  {env : PyEnv K O} {ext : Externals K O n m} {a : Arguments K O (Option (Piece K n))} {x : Vec K n}
  {bounds : Bounds K n} {r : Run K n (VectorModel K n m) (ScalarModel K n)}

omit [IsStrictOrderedRing K] [FloorRing K] in
/-- Without options of the user the default is in force. -/
theorem uses_no_options {name : String} {d w : PyVal K O} (h : Uses env none name d w) (hd : ∀ i, d ≠ .int i) :
    w = d := by
  rcases h with (⟨h, -⟩ | ⟨d', v, h | h, -⟩) | ⟨i, (⟨h, -⟩ | ⟨d', v, h | h, -⟩), -⟩
  · exact h
  · cases h
  · cases h
  · exact absurd h.symm (hd i)
  · cases h
  · cases h

omit [IsStrictOrderedRing K] [FloorRing K] in
theorem uses_no_options_int {name : String} {i j : ℤ} (h : Uses env none name (.int i : PyVal K O) (.int j)) : j = i := by
  rcases h with (⟨h, -⟩ | ⟨d', v, h | h, -⟩) | ⟨i, -, h⟩
  · injection h
  · cases h
  · cases h
  · cases h

/-- C20 for calls: `lo` and `hi` are the values in force of the options `min_radius` and `max_radius`. Missing, as above:
a finite `max_radius_to_step_ratio`, and the first iteration. -/
theorem C20_call_partial (hr : tranquiloCall env ext a x bounds = .ok (some r))
    (hlim : ∀ lo hi, Uses env a.radiusOptions "min_radius" (num (1 / 10 ^ 6)) (num lo) →
      Uses env a.radiusOptions "max_radius" (num (10 ^ 6)) (num hi) → lo ≤ hi)
    (hratio : ∀ q, ¬ Uses env a.radiusOptions "max_radius_to_step_ratio" (.flt .pinf) (num q)) :
    ∃ lo hi, Uses env a.radiusOptions "min_radius" (num (1 / 10 ^ 6)) (num lo) ∧
      Uses env a.radiusOptions "max_radius" (num (10 ^ 6)) (num hi) ∧
      (∀ k s, r.states[k]? = some s → 2 ≤ k → lo ≤ s.trustregion.radius ∧ s.trustregion.radius ≤ hi) ∧
      (2 ≤ r.states.length → lo ≤ r.state.trustregion.radius ∧ r.state.trustregion.radius ≤ hi) := by
  obtain ⟨c, b, radius, hrun, hu⟩ := C118_run_uses_the_arguments env ext a x bounds r hr
  obtain ⟨initial, -, -, hall⟩ := hu.radius
  have h1 := hall ("min_radius", num (1 / 10 ^ 6), num c.radius.minRadius) (by simp [radiusTable])
  have h2 := hall ("max_radius", num (10 ^ 6), num c.radius.maxRadius) (by simp [radiusTable])
  have h3 := hall ("max_radius_to_step_ratio", .flt .pinf, .flt c.radius.maxRadiusToStepRatio) (by simp [radiusTable])
  obtain ⟨-, q1, q2⟩ := C20_radius_in_a_run_partial hrun (hlim _ _ h1 h2)
    (fun q h => hratio q (by rw [h] at h3; exact h3))
  exact ⟨_, _, h1, h2, q1, q2⟩

/-- C20 for calls without options for the radius: the first radius is a tenth of the largest parameter of the start
vector, all later ones are between `1e-6` and `1e6`. -/
theorem C20_default_call_partial (hr : tranquiloCall env ext a x bounds = .ok (some r)) (hopt : a.radiusOptions = none) :
    (∃ initial, (∀ i, |x i| / 10 ≤ initial) ∧ (∃ i, initial = |x i| / 10) ∧
      ∀ k s, r.states[k]? = some s → k ≤ 1 → s.trustregion.radius = initial) ∧
    (∀ k s, r.states[k]? = some s → 2 ≤ k →
      1 / 10 ^ 6 ≤ s.trustregion.radius ∧ s.trustregion.radius ≤ 10 ^ 6) := by
  obtain ⟨c, b, radius, hrun, hu⟩ := C118_run_uses_the_arguments env ext a x bounds r hr
  obtain ⟨initial, hi1, hi2, hall⟩ := hu.radius
  rw [hopt] at hall
  have h0 := uses_default_num (hall ("initial_radius", num initial, num radius) (by simp [radiusTable]))
  have h1 := uses_default_num (hall ("min_radius", num (1 / 10 ^ 6), num c.radius.minRadius) (by simp [radiusTable]))
  have h2 := uses_default_num (hall ("max_radius", num (10 ^ 6), num c.radius.maxRadius) (by simp [radiusTable]))
  have h3 := uses_no_options (hall ("max_radius_to_step_ratio", .flt .pinf, .flt c.radius.maxRadiusToStepRatio)
    (by simp [radiusTable])) (fun i h => by cases h)
  injection h3 with h3
  have hle : c.radius.minRadius ≤ c.radius.maxRadius := by rw [h1, h2]; norm_num
  obtain ⟨q0, q1, -⟩ := C20_radius_in_a_run_partial hrun hle (fun q h => by rw [h3] at h; cases h)
  rw [h1, h2] at q1
  rw [h0] at q0
  exact ⟨⟨initial, hi1, hi2, q0⟩, q1⟩

/-- C22 for calls without options for the noise adaptation and for the number of evaluations per point: the first
iteration uses one evaluation per point, and the number changes by at most one per iteration and stays between one and
thirty; without noise it stays one. -/
theorem C22_default_call_partial (hr : tranquiloCall env ext a x bounds = .ok (some r))
    (hopt : a.noiseAdaptationOptions = none) (hper : a.nEvalsPerPoint = .none) :
    ∃ counts : List Int, (r.states.drop 1).map (·.nEvalsPerPoint) = counts.map some ∧
      (∀ e, counts.head? = some e → e = 1) ∧ (∀ e ∈ counts, 1 ≤ e ∧ e ≤ 30) ∧
      (∀ (k : ℕ) e e', counts[k]? = some e → counts[k + 1]? = some e' → e - 1 ≤ e' ∧ e' ≤ e + 1) ∧
      (ReadsBool env a.noisy false → ¬ ReadsBool env a.noisy true → ∀ e ∈ counts, e = 1) := by
  obtain ⟨c, b, radius, hrun, hu⟩ := C118_run_uses_the_arguments env ext a x bounds r hr
  have hall := hu.noise
  rw [hopt] at hall
  have h1 := uses_no_options_int (hall ("min_n_evals", .int 1, .int c.noise.minNEvals) (by simp [noiseTable]))
  have h2 := uses_no_options_int (hall ("max_n_evals", .int 30, .int c.noise.maxNEvals) (by simp [noiseTable]))
  have h3 : c.nEvalsPerPoint = 1 := by
    rcases hu.perPoint with ⟨-, h⟩ | h
    · rw [h, h1]; split <;> rfl
    · rw [hper] at h
      rcases h with h | h | h
      · cases h
      · cases h.1
      · cases h.1
  obtain ⟨counts, q1, q2, q3, q4, q5⟩ := C22_in_a_run_partial hrun (by rw [h1, h3]) (by rw [h2, h3]; norm_num)
  rw [h3] at q2 q5
  rw [h1, h2] at q3
  refine ⟨counts, q1, q2, q3, q4, fun _ hn => q5 ?_⟩
  cases hc : c.noisy
  · rfl
  · exact absurd (hc ▸ hu.noisy) hn

/-- C22 for calls in general: with the values in force. -/
theorem C22_call_partial (hr : tranquiloCall env ext a x bounds = .ok (some r)) :
    ∃ c b radius, CallUses env ext a x c b radius ∧
      (c.noise.minNEvals ≤ c.nEvalsPerPoint → c.nEvalsPerPoint ≤ c.noise.maxNEvals →
        ∃ counts : List Int, (r.states.drop 1).map (·.nEvalsPerPoint) = counts.map some ∧
          (∀ e, counts.head? = some e → e = c.nEvalsPerPoint) ∧
          (∀ e ∈ counts, c.noise.minNEvals ≤ e ∧ e ≤ c.noise.maxNEvals) ∧
          (∀ (k : ℕ) e e', counts[k]? = some e → counts[k + 1]? = some e' → e - 1 ≤ e' ∧ e' ≤ e + 1)) := by
  obtain ⟨c, b, radius, hrun, hu⟩ := C118_run_uses_the_arguments env ext a x bounds r hr
  refine ⟨c, b, radius, hu, fun h1 h2 => ?_⟩
  obtain ⟨counts, q1, q2, q3, q4, -⟩ := C22_in_a_run_partial hrun h1 h2
  exact ⟨counts, q1, q2, q3, q4⟩

/-- Not vacuous: a call with default options that makes two iterations; the first uses the radius `1/10`, the second
one within the limits, and both one evaluation per point. -/
example : ∃ r s, tranquiloCall plainEnv coresExternals
      { functype := "least_squares", x := [], maxIter := .int 2 } (fun _ => 1)
      ⟨fun _ => none, fun _ => none⟩ = .ok (some r) ∧ r.states[2]? = some s ∧
    1 / 10 ^ 6 ≤ s.trustregion.radius ∧ s.trustregion.radius ≤ 10 ^ 6 ∧
    ∃ e e' : ℤ, (r.states.drop 1).map (·.nEvalsPerPoint) = [some e, some e'] ∧ e = 1 ∧ e' ≤ 2 := by
  have key : (match tranquiloCall plainEnv coresExternals
        { functype := "least_squares", x := [], maxIter := .int 2 } (fun _ => 1)
        ⟨fun _ => none, fun _ => none⟩ with
      | .ok (some r) => decide (r.states.length = 3)
      | _ => false) = true := by
    decide +kernel
  split at key
  · rename_i r hr
    have key := of_decide_eq_true key
    have hs := List.getElem?_eq_getElem (l := r.states) (i := 2) (by omega)
    obtain ⟨h1, h2⟩ := (C20_default_call_partial hr rfl).2 2 _ hs le_rfl
    obtain ⟨counts, q1, q2, -, q4, -⟩ := C22_default_call_partial hr rfl rfl
    have hl : counts.length = 2 := by
      have := congrArg List.length q1
      simp only [List.length_map, List.length_drop] at this
      omega
    match counts, hl with
    | [e, e'], _ =>
      have he := q2 e rfl
      have := (q4 0 e e' rfl rfl).2
      exact ⟨r, _, hr, hs, h1, h2, e, e', q1, he, by omega⟩
  · cases key

end Tranquilo
