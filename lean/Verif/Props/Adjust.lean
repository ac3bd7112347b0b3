import Verif.Lemmas.Clip
import Mathlib.Algebra.Order.Archimedean.Basic

/-!
# Properties C20 - C22 and C70: radius and number of evaluations
-/

namespace Tranquilo

variable {K : Type} [Field K] [LinearOrder K] [IsStrictOrderedRing K]

/-! ## C20 -/

/-- The upper limit in use. -/
theorem adjustRadius_le_max (radius : K) (rho : XVal K) (step : K) (o : RadiusOptions K) (b : Bool) :
    adjustRadius radius rho step o b ≤ o.maxRadius := by
  unfold adjustRadius
  refine le_trans (npClip_le _ _ _) ?_
  cases o.maxRadiusToStepRatio <;> simp

theorem radiusAfter_append (o : RadiusOptions K) (radius : K) (l : List (RadiusInput K))
    (i : RadiusInput K) :
    radiusAfter o radius (l ++ [i])
      = adjustRadius (radiusAfter o radius l) i.rho i.stepLength o i.nEvalsIsIncreased := by
  simp [radiusAfter]

/-- C20, upper limit: whatever the options are, after at least one iteration the radius is at most
`max_radius`. -/
theorem C20_radius_at_most_max (o : RadiusOptions K) (radius : K) (l : List (RadiusInput K))
    (hl : l ≠ []) : radiusAfter o radius l ≤ o.maxRadius := by
  rw [← List.dropLast_append_getLast hl, radiusAfter_append]
  exact adjustRadius_le_max _ _ _ _ _

/-- C20, with the default `max_radius_to_step_ratio = inf` (more generally: not finite): after any
non-empty sequence of iterations the radius is within its limits. Missing in comparison with the full
property: finite `max_radius_to_step_ratio`, for which it is false, see below. -/
theorem C20_radius_within_limits_partial (o : RadiusOptions K) (hlim : o.minRadius ≤ o.maxRadius)
    (hratio : ∀ r, o.maxRadiusToStepRatio ≠ .fin r) (radius : K) (l : List (RadiusInput K))
    (hl : l ≠ []) :
    o.minRadius ≤ radiusAfter o radius l ∧ radiusAfter o radius l ≤ o.maxRadius := by
  rw [← List.dropLast_append_getLast hl, radiusAfter_append]
  unfold adjustRadius
  cases h : o.maxRadiusToStepRatio with
  | fin r => exact absurd h (hratio r)
  | _ => exact npClip_mem hlim

/-- C20 with a finite ratio: the limits hold in iterations whose step is long enough. -/
theorem C20_finite_ratio_long_step_partial (o : RadiusOptions K) (hlim : o.minRadius ≤ o.maxRadius)
    (ratio : K) (hratio : o.maxRadiusToStepRatio = .fin ratio) (radius : K)
    (i : RadiusInput K) (hi : o.minRadius ≤ i.stepLength * ratio) :
    o.minRadius ≤ radiusAfter o radius [i] ∧ radiusAfter o radius [i] ≤ o.maxRadius := by
  have h2 := C20_radius_at_most_max o radius [i] (by simp)
  refine ⟨?_, h2⟩
  simp only [radiusAfter, List.foldl_cons, List.foldl_nil, adjustRadius, hratio]
  exact (npClip_mem (le_min hlim hi)).1

/-- C20 is false of the code for every finite `max_radius_to_step_ratio`: after a rejected step (step
length 0) the radius is 0, hence below `min_radius`. -/
theorem C20_violated_by_finite_step_ratio (o : RadiusOptions K) (ratio : K)
    (hratio : o.maxRadiusToStepRatio = .fin ratio) (hmin : 0 < o.minRadius)
    (hlim : o.minRadius ≤ o.maxRadius) (radius : K) (rho : XVal K) (b : Bool) :
    adjustRadius radius rho 0 o b = 0 ∧ adjustRadius radius rho 0 o b < o.minRadius := by
  have : adjustRadius radius rho 0 o b = 0 := by
    unfold adjustRadius
    rw [hratio]
    simp only [zero_mul, npClip]
    rw [min_eq_right (hmin.le.trans hlim), min_eq_right]
    exact hmin.le.trans (le_max_right _ _)
  rw [this]
  exact ⟨rfl, hmin⟩

/-! ## C21 -/

/-- C21, no enlargement: after a step with `rho < rho_increase` (or NaN), or a step that is small
in comparison with the radius, the new radius is at most the old one. -/
theorem C21_not_enlarged (o : RadiusOptions K) (radius : K) (rho : XVal K) (step : K) (b : Bool)
    (hmin : 0 < o.minRadius) (hr : o.minRadius ≤ radius) (hshrink : o.shrinkingFactor ≤ 1)
    (h : ¬ (XVal.fin o.rhoIncrease ≤ rho) ∨ step < o.largeStep * radius) :
    adjustRadius radius rho step o b ≤ radius := by
  have hpos : 0 < radius := hmin.trans_le hr
  have hlarge : XVal.fin o.largeStep ≤ XVal.divFin step radius ↔ o.largeStep * radius ≤ step := by
    rw [XVal.divFin, if_neg hpos.ne', XVal.fin_le_fin, le_div_iff₀ hpos]
  have hcond : ¬ (XVal.fin o.rhoIncrease ≤ rho ∧ XVal.fin o.largeStep ≤ XVal.divFin step radius) := by
    rw [hlarge]
    rintro ⟨h1, h2⟩
    rcases h with h | h
    · exact h h1
    · exact absurd h2 (not_le.2 h)
  unfold adjustRadius npClip
  refine le_trans (min_le_left _ _) ?_
  simp only [if_neg hcond]
  refine max_le ?_ hr
  split
  · exact le_rfl
  · calc radius * o.shrinkingFactor ≤ radius * 1 := mul_le_mul_of_nonneg_left hshrink hpos.le
      _ = radius := mul_one _

/-- C21, no reduction by the rho rule: if `rho >= rho_decrease`, or the number of evaluations was just
increased, the new radius is at least the old one, unless `max_radius_to_step_ratio` says
otherwise. -/
theorem C21_not_reduced (o : RadiusOptions K) (radius : K) (rho : XVal K) (step : K) (b : Bool)
    (hratio : ∀ r, o.maxRadiusToStepRatio ≠ .fin r)
    (hr0 : 0 ≤ radius) (hr : radius ≤ o.maxRadius) (hexp : 1 ≤ o.expansionFactor)
    (h : XVal.fin o.rhoDecrease ≤ rho ∨ b = true) :
    radius ≤ adjustRadius radius rho step o b := by
  have hnew : ∀ new : K, radius ≤ new → radius ≤ npClip new o.minRadius o.maxRadius :=
    fun new hn => le_min (le_trans hn (le_max_left _ _)) hr
  unfold adjustRadius
  cases hc : o.maxRadiusToStepRatio with
  | fin r => exact absurd hc (hratio r)
  | _ =>
    apply hnew
    split
    · calc radius = radius * 1 := (mul_one _).symm
        _ ≤ radius * o.expansionFactor := mul_le_mul_of_nonneg_left hexp hr0
    · exact le_rfl

/-- C21, exact values of the rule as long as the limits do not bind. -/
theorem C21_rule (o : RadiusOptions K) (radius : K) (rho : XVal K) (step : K) (b : Bool) (new : K)
    (hratio : ∀ r, o.maxRadiusToStepRatio ≠ .fin r) (hpos : 0 < radius)
    (h1 : o.minRadius ≤ new) (h2 : new ≤ o.maxRadius)
    (h : (XVal.fin o.rhoIncrease ≤ rho ∧ o.largeStep * radius ≤ step ∧
            new = radius * o.expansionFactor) ∨
         (¬ (XVal.fin o.rhoIncrease ≤ rho ∧ o.largeStep * radius ≤ step) ∧
            (XVal.fin o.rhoDecrease ≤ rho ∨ b = true) ∧ new = radius) ∨
         (¬ (XVal.fin o.rhoIncrease ≤ rho ∧ o.largeStep * radius ≤ step) ∧
            ¬ (XVal.fin o.rhoDecrease ≤ rho) ∧ b = false ∧ new = radius * o.shrinkingFactor)) :
    adjustRadius radius rho step o b = new := by
  have hlarge : XVal.fin o.largeStep ≤ XVal.divFin step radius ↔ o.largeStep * radius ≤ step := by
    rw [XVal.divFin, if_neg hpos.ne', XVal.fin_le_fin, le_div_iff₀ hpos]
  have hclip : npClip new o.minRadius o.maxRadius = new := by
    rw [npClip, max_eq_left h1, min_eq_left h2]
  unfold adjustRadius
  simp only [hlarge]
  cases hc : o.maxRadiusToStepRatio with
  | fin r => exact absurd hc (hratio r)
  | _ =>
    rcases h with ⟨ha, hb, rfl⟩ | ⟨ha, hb, rfl⟩ | ⟨ha, hb, rfl, rfl⟩
    · simp only [ha, hb, and_self, if_true, hclip]
    · simp only [if_neg ha, if_pos hb, hclip]
    · simp only [if_neg ha, hb, Bool.false_eq_true, or_self, if_false, hclip]

/-- An iteration that is unsuccessful: `rho` is below both thresholds (or NaN) and the number of
evaluations was not increased. -/
def Unsuccessful (o : RadiusOptions K) (i : RadiusInput K) : Prop :=
  ¬ (XVal.fin o.rhoDecrease ≤ i.rho) ∧ ¬ (XVal.fin o.rhoIncrease ≤ i.rho) ∧
    i.nEvalsIsIncreased = false

theorem unsuccessful_step (o : RadiusOptions K) (i : RadiusInput K) (hi : Unsuccessful o i)
    (hratio : ∀ r, o.maxRadiusToStepRatio ≠ .fin r) (hlim : o.minRadius ≤ o.maxRadius) (radius : K)
    (hle : radius * o.shrinkingFactor ≤ o.maxRadius) :
    adjustRadius radius i.rho i.stepLength o i.nEvalsIsIncreased
      = max (radius * o.shrinkingFactor) o.minRadius := by
  obtain ⟨h1, h2, h3⟩ := hi
  unfold adjustRadius
  cases hc : o.maxRadiusToStepRatio with
  | fin r => exact absurd hc (hratio r)
  | _ =>
    simp only [h1, h2, h3, false_and, if_false, Bool.false_eq_true, or_self, npClip]
    exact min_eq_left (max_le hle hlim)

/-- C21, shrinking: a run of unsuccessful iterations that is long enough (the number depends only on
the options) ends with the radius at `min_radius`, from every start radius within the limits. -/
theorem C21_unsuccessful_reaches_min [Archimedean K] (o : RadiusOptions K)
    (hmin : 0 < o.minRadius) (hlim : o.minRadius ≤ o.maxRadius)
    (hs0 : 0 ≤ o.shrinkingFactor) (hs1 : o.shrinkingFactor < 1)
    (hratio : ∀ r, o.maxRadiusToStepRatio ≠ .fin r) :
    ∃ N : Nat, ∀ (radius : K) (l : List (RadiusInput K)), 0 ≤ radius → radius ≤ o.maxRadius →
      (∀ i ∈ l, Unsuccessful o i) → N < l.length → radiusAfter o radius l = o.minRadius := by
  have key : ∀ (l : List (RadiusInput K)) (radius : K), 0 ≤ radius → radius ≤ o.maxRadius →
      (∀ i ∈ l, Unsuccessful o i) → l ≠ [] →
      radiusAfter o radius l = max (radius * o.shrinkingFactor ^ l.length) o.minRadius := by
    intro l
    induction l with
    | nil => intro _ _ _ _ h; exact absurd rfl h
    | cons i l ih =>
      intro radius h0 hle hall _
      have hstep := unsuccessful_step o i (hall i (by simp)) hratio hlim radius
        ((mul_le_of_le_one_right h0 hs1.le).trans hle)
      have : radiusAfter o radius (i :: l)
          = radiusAfter o (max (radius * o.shrinkingFactor) o.minRadius) l := by
        rw [← hstep]; rfl
      rw [this]
      by_cases hl : l = []
      · subst hl; simp [radiusAfter]
      · rw [ih _ (hmin.le.trans (le_max_right _ _))
          (max_le ((mul_le_of_le_one_right h0 hs1.le).trans hle) hlim)
          (fun j hj => hall j (by simp [hj])) hl]
        rw [max_mul_of_nonneg _ _ (pow_nonneg hs0 _), max_assoc,
          max_eq_right (a := o.minRadius * _) (mul_le_of_le_one_right hmin.le
            (pow_le_one₀ hs0 hs1.le)), List.length_cons, mul_assoc, ← pow_succ']
  have hmax : 0 < o.maxRadius := hmin.trans_le hlim
  obtain ⟨N, hN⟩ := exists_pow_lt_of_lt_one (div_pos hmin hmax) hs1
  refine ⟨N, fun radius l h0 hle hall hlen => ?_⟩
  rw [key l radius h0 hle hall (by rintro rfl; simp at hlen)]
  apply max_eq_right
  calc radius * o.shrinkingFactor ^ l.length
      ≤ o.maxRadius * o.shrinkingFactor ^ N :=
        mul_le_mul hle (pow_le_pow_of_le_one hs0 hs1.le hlen.le) (pow_nonneg hs0 _) hmax.le
    _ ≤ o.maxRadius * (o.minRadius / o.maxRadius) := mul_le_mul_of_nonneg_left hN.le hmax.le
    _ = o.minRadius := by field_simp

/-! ## C22 -/

/-- C22, one iteration. -/
theorem C22_single_change_partial (o : NEvalsOptions K) (n : Int) (rho : XVal K) (rhoNoise : List (XVal K))
    (h1 : o.minNEvals ≤ n) (h2 : n ≤ o.maxNEvals) :
    let new := (adjustNEvals n rho rhoNoise o).1
    o.minNEvals ≤ new ∧ new ≤ o.maxNEvals ∧ n - 1 ≤ new ∧ new ≤ n + 1 ∧
      ((adjustNEvals n rho rhoNoise o).2 = true ↔ n < new) := by
  simp only [adjustNEvals, decide_eq_true_eq, iff_self, and_true]
  split
  · omega
  · split <;> omega

/-- C22, all iterations: starting within the limits, the number of evaluations stays within the
limits. -/
theorem C22_n_evals_within_limits_partial (o : NEvalsOptions K) (n : Int)
    (inputs : List (XVal K × List (XVal K))) (h1 : o.minNEvals ≤ n) (h2 : n ≤ o.maxNEvals) :
    o.minNEvals ≤ nEvalsAfter o n inputs ∧ nEvalsAfter o n inputs ≤ o.maxNEvals := by
  induction inputs generalizing n with
  | nil => exact ⟨h1, h2⟩
  | cons i l ih =>
    have := C22_single_change_partial o n i.1 i.2 h1 h2
    exact ih _ this.1 this.2.1

/-- C22, direction: the number grows only if few of the simulated rhos are above the low threshold and
the step was not good, and falls only if many are above the high threshold. -/
theorem C22_direction (o : NEvalsOptions K) (n : Int) (rho : XVal K) (rhoNoise : List (XVal K))
    (hne : rhoNoise ≠ []) (h1 : o.minNEvals ≤ n) :
    (n < (adjustNEvals n rho rhoNoise o).1 →
      ((rhoNoise.filter fun r => XVal.fin o.lowRho < r).length : K)
          ≤ o.minShareLowRho * rhoNoise.length ∧ ¬ (XVal.fin o.goodRhoThreshold ≤ rho)) ∧
    ((adjustNEvals n rho rhoNoise o).1 < n → n ≤ o.maxNEvals →
      o.minShareHighRho * rhoNoise.length
        < ((rhoNoise.filter fun r => XVal.fin o.highRho < r).length : K)) := by
  have hlen : (0 : K) < (rhoNoise.length : K) := by
    exact_mod_cast List.length_pos_iff.2 hne
  have hshare : ∀ t s : K, shareAbove rhoNoise t s ↔
      s * rhoNoise.length < ((rhoNoise.filter fun r => XVal.fin t < r).length : K) := by
    intro t s
    rw [shareAbove, lt_div_iff₀ hlen]
    exact ⟨fun h => h.2, fun h => ⟨hne, h⟩⟩
  simp only [adjustNEvals]
  constructor
  · split
    · intro h; omega
    · split
      · intro h; omega
      · rename_i h2
        intro _
        rw [not_or, hshare, not_lt] at h2
        exact h2
  · split
    · rename_i h; intro _ _; exact (hshare _ _).1 h
    · split <;> intro h h' <;> omega

/-- C22 needs a start value within the limits: above `max_n_evals` the branch that is meant to
increase the number lowers it, by more than one. -/
theorem C22_violated_outside_limits :
    adjustNEvals 40 (.fin 0) [.fin 0] NEvalsOptions.default = (30, false) := by decide +kernel

/-! ## C70 -/

/-- The largest absolute value, independent of the model. -/
theorem foldl_max_spec (l : List K) (a : K) :
    (∀ y ∈ l, |y| ≤ l.foldl (fun m y => max m |y|) a) ∧ a ≤ l.foldl (fun m y => max m |y|) a ∧
      (l.foldl (fun m y => max m |y|) a = a ∨ ∃ y ∈ l, l.foldl (fun m y => max m |y|) a = |y|) := by
  induction l generalizing a with
  | nil => simp
  | cons b l ih =>
    obtain ⟨h1, h2, h3⟩ := ih (max a |b|)
    refine ⟨?_, (le_max_left _ _).trans h2, ?_⟩
    · intro y hy
      rcases List.mem_cons.1 hy with rfl | hy
      · exact (le_max_right _ _).trans h2
      · exact h1 y hy
    · rcases h3 with h3 | ⟨y, hy, h3⟩
      · rw [List.foldl_cons, h3]
        rcases max_choice a |b| with h | h
        · exact Or.inl h
        · exact Or.inr ⟨b, by simp, h⟩
      · exact Or.inr ⟨y, by simp [hy], h3⟩

/-- C70. The default start radius is a tenth of the largest absolute entry of the start vector; it is
positive iff some entry is nonzero, and it is within the default limits if the largest
absolute entry is between 1e-5 and 1e7. -/
theorem C70_default_radius_partial (x : List K) (hx : x ≠ []) :
    ∃ r, defaultRadius x = .ok r ∧ (∃ y ∈ x, 10 * r = |y|) ∧ (∀ y ∈ x, |y| ≤ 10 * r) ∧
      (0 < r ↔ ∃ y ∈ x, y ≠ 0) ∧
      ∀ lo hi : K, (∃ y ∈ x, 10 * lo ≤ |y|) → (∀ y ∈ x, |y| ≤ 10 * hi) → lo ≤ r ∧ r ≤ hi := by
  cases x with
  | nil => exact absurd rfl hx
  | cons a l =>
    obtain ⟨h1, h2, h3⟩ := foldl_max_spec l |a|
    refine ⟨_, rfl, ?_⟩
    generalize l.foldl (fun m y => max m |y|) |a| = M at h1 h2 h3
    have e : 10 * (1 / 10 * M) = M := by ring
    rw [e]
    have hex : ∃ y ∈ a :: l, M = |y| := by
      rcases h3 with h3 | ⟨y, hy, h3⟩
      · exact ⟨a, by simp, h3⟩
      · exact ⟨y, by simp [hy], h3⟩
    have hall : ∀ y ∈ a :: l, |y| ≤ M := by
      intro y hy
      rcases List.mem_cons.1 hy with rfl | hy
      · exact h2
      · exact h1 y hy
    refine ⟨hex, hall, ?_, ?_⟩
    · constructor
      · intro h
        obtain ⟨y, hy, rfl⟩ := hex
        refine ⟨y, hy, ?_⟩
        rintro rfl
        simp at h
      · rintro ⟨y, hy, hne⟩
        have := hall y hy
        have h0 : 0 < |y| := abs_pos.2 hne
        linarith
    · rintro lo hi ⟨y, hy, hlo⟩ hhi
      have := hall y hy
      obtain ⟨z, hz, rfl⟩ := hex
      have := hhi z hz
      constructor <;> linarith

/-- C70 is false of the code: for the start vector zero the default radius is zero. -/
theorem C70_violated_at_zero (n : Nat) :
    defaultRadius (List.replicate (n + 1) (0 : K)) = .ok 0 := by
  obtain ⟨r, h1, ⟨y, hy, h2⟩, -⟩ := C70_default_radius_partial (List.replicate (n + 1) (0 : K)) (by simp)
  rw [h1, List.eq_of_mem_replicate hy] at *
  simp at h2
  rw [h2]

section examples

/-- Non-vacuity for C20: the default options satisfy the hypotheses, and both limits are reached. -/
example : RadiusOptions.default.minRadius ≤ RadiusOptions.default.maxRadius ∧
    (∀ r, RadiusOptions.default.maxRadiusToStepRatio ≠ .fin r) ∧
    radiusAfter RadiusOptions.default 900000 [⟨.fin 1, 900000, false⟩] = 1000000 ∧
    radiusAfter RadiusOptions.default (1 / 700000) [⟨.ninf, 0, false⟩] = 1 / 1000000 ∧
    radiusAfter RadiusOptions.default 1 [⟨.fin 1, 1, false⟩, ⟨.fin 0, 1, false⟩, ⟨.fin 0, 1, true⟩]
      = 1 := by
  refine ⟨by decide +kernel, by simp [RadiusOptions.default], ?_, ?_, ?_⟩ <;> decide +kernel

/-- C20 violation with otherwise default options. -/
example : adjustRadius 1 .ninf 0 { RadiusOptions.default with maxRadiusToStepRatio := .fin 10 } false
    = 0 := by decide +kernel

/-- Non-vacuity for the shrinking statement of C21. -/
example : Unsuccessful RadiusOptions.default ⟨.fin 0, 0, false⟩ := by
  refine ⟨?_, ?_, rfl⟩ <;> decide +kernel

/-- Non-vacuity for C22. -/
example : nEvalsAfter NEvalsOptions.default 5
    [(.fin 0, [.fin 0, .fin 1]), (.fin 0, [.fin 1, .fin 1]), (.fin 0, [.fin (1/2), .fin (1/2)])] = 5 ∧
    (adjustNEvals 5 (.fin 0) [.fin 0, .fin 1] NEvalsOptions.default) = (6, true) := by decide +kernel

/-- Non-vacuity for C70. -/
example : defaultRadius [1, -3, (2 : ℚ)] = .ok (3 / 10) := by decide +kernel

end examples

end Tranquilo
