import Verif.Lemmas.Bntr
import Mathlib.Tactic.FinCases

/-!
# C46-C50: the solver for boxes
-/

namespace Tranquilo

variable {K : Type} [Field K] [LinearOrder K] [IsStrictOrderedRing K] {n : Nat}

/-! ## Results of the parts -/

omit [IsStrictOrderedRing K] in
theorem except_bind_eq_ok {α β : Type} {a : Except Err α} {f : α → Except Err β} {b : β}
    (h : (a >>= f) = .ok b) : ∃ c, a = .ok c ∧ f c = .ok b := by
  cases a with
  | error e => cases h
  | ok c => exact ⟨c, rfl, h⟩

variable (root : K → K) (eps : K) (broadcast : Bool) (inner : InnerSolver K) (o : BntrOptions K)
  (g : Vec K n) (h : Mat K n n) (l u : Vec K n)

omit [IsStrictOrderedRing K] in
/-- What a pass of the loop `while` returns. -/
theorem bntrTrial_cases (niter : Nat) (s s' : BntrState K n) (acc : Bool)
    (ht : bntrTrial root eps broadcast inner o g h l u niter s = .ok (s', acc)) :
    ∃ t r, trialStep root broadcast inner s.gradient h l u s.x s.active s.radius = .ok t ∧
      (let step := boundedStep s.active l u s.x t.1
       let x := applyBounds l u fun i => s.x i + step i
       cgUpdateRadius eps (bntrCriterion x g h)
         (predictedReduction s.gradient h s.active.inactive step t.1)
         (s.f - bntrCriterion x g h) t.2 s.radius = .ok (r, acc) ∧
       (acc = true → s'.x = x ∧ s'.f = bntrCriterion x g h ∧
         s'.gradient = (fun i => g i + matVec h x i) ∧
         s'.active = activeBounds x (fun i => g i + matVec h x i) l u ∧ s'.radius = r) ∧
       (acc = false → s'.x = s.x ∧ s'.f = s.f ∧ s'.gradient = s.gradient ∧ s'.active = s.active ∧
         s'.radius = r ∧ (r = s.radius → s'.converged = true))) := by
  unfold bntrTrial at ht
  obtain ⟨t, h1, ht⟩ := except_bind_eq_ok ht
  obtain ⟨⟨r, acc'⟩, h2, ht⟩ := except_bind_eq_ok ht
  dsimp only at ht
  refine ⟨t, r, h1, ?_⟩
  cases acc' with
  | true =>
    simp only [if_true] at ht
    cases ht
    exact ⟨h2, fun _ => ⟨rfl, rfl, rfl, rfl, rfl⟩, by simp⟩
  | false =>
    simp only [Bool.false_eq_true, if_false] at ht
    split at ht
    · rename_i hr
      cases ht
      exact ⟨h2, by simp, fun _ => ⟨rfl, rfl, rfl, rfl, hr.symm, fun _ => rfl⟩⟩
    · rename_i hr
      cases ht
      exact ⟨h2, by simp, fun _ => ⟨rfl, rfl, rfl, rfl, rfl, fun he => absurd he hr⟩⟩

omit [IsStrictOrderedRing K] in
/-- An invariant of the passes of the loop `while` holds at its end. -/
theorem bntrInner_induction (P : BntrState K n → Prop) (niter : Nat)
    (hP : ∀ s s' acc, bntrTrial root eps broadcast inner o g h l u niter s = .ok (s', acc) → P s → P s') :
    ∀ (fuel : Nat) (s s' : BntrState K n),
      bntrInner root eps broadcast inner o g h l u niter fuel s = .ok (some s') → P s → P s'
  | 0, s, s', hr, _ => by cases hr
  | fuel + 1, s, s', hr, hs => by
    unfold bntrInner at hr
    obtain ⟨⟨s1, acc⟩, h1, hr⟩ := except_bind_eq_ok hr
    have hs1 := hP s s1 acc h1 hs
    dsimp only at hr
    split at hr
    · cases hr; exact hs1
    · exact bntrInner_induction P niter hP fuel s1 s' hr hs1

omit [IsStrictOrderedRing K] in
/-- An invariant of the passes of the loop `while` holds at the end of the outer loop. -/
theorem bntrOuter_induction (P : BntrState K n → Prop)
    (hP : ∀ niter s s' acc,
      bntrTrial root eps broadcast inner o g h l u niter s = .ok (s', acc) → P s → P s') (fuel : Nat) :
    ∀ (k niter : Nat) (s s' : BntrState K n) (m : Nat),
      bntrOuter root eps broadcast inner o g h l u fuel k niter s = .ok (some (s', m)) → P s → P s'
  | 0, niter, s, s', m, hr, hs => by
    cases hr; exact hs
  | k + 1, niter, s, s', m, hr, hs => by
    unfold bntrOuter at hr
    split at hr
    · cases hr; exact hs
    · obtain ⟨c, h1, hr⟩ := except_bind_eq_ok hr
      cases c with
      | none => cases hr
      | some s1 =>
        exact bntrOuter_induction P hP fuel k (niter + 1) s1 s' m hr
          (bntrInner_induction root eps broadcast inner o g h l u P niter (hP niter) fuel s s1 h1 hs)

omit [IsStrictOrderedRing K] in
/-- A property of the preliminary state that the passes keep holds for the result. -/
theorem bntrFast_induction (P : BntrState K n → Prop) (x : Vec K n)
    (h0 : ∀ s, bntrPreliminary root eps o g h l u x = .ok s → P s)
    (hP : ∀ niter s s' acc,
      bntrTrial root eps broadcast inner o g h l u niter s = .ok (s', acc) → P s → P s')
    (fuel : Nat) (r : BntrResult K n)
    (hr : bntrFast root eps broadcast inner o fuel g h l u x = .ok (some r)) :
    ∃ s, P s ∧ r.x = s.x ∧ r.criterion = s.f ∧ r.success = s.converged ∧ r.message = s.reason := by
  unfold bntrFast at hr
  obtain ⟨s, hs, hr⟩ := except_bind_eq_ok hr
  obtain ⟨c, hc, hr⟩ := except_bind_eq_ok hr
  cases c with
  | none => cases hr
  | some c =>
    obtain ⟨s', m⟩ := c
    cases hr
    exact ⟨s', bntrOuter_induction root eps broadcast inner o g h l u P hP fuel _ _ s s' m hc (h0 s hs),
      rfl, rfl, rfl, rfl⟩

omit [IsStrictOrderedRing K] in
/-- The point after the preliminary steps is the start point or was cut off at the bounds. -/
theorem bntrPreliminary_x (x : Vec K n) (s : BntrState K n)
    (hs : bntrPreliminary root eps o g h l u x = .ok s) :
    s.x = x ∨ ∃ y, s.x = applyBounds l u y := by
  unfold bntrPreliminary at hs
  dsimp only at hs
  split at hs
  · cases hs; exact Or.inl rfl
  · obtain ⟨d, hd, hs⟩ := except_bind_eq_ok hs
    split at hs
    · cases hs; exact Or.inr ⟨_, rfl⟩
    · cases hs; exact Or.inl rfl

/-! ## C46 -/

omit [IsStrictOrderedRing K] in
/-- C46: the result satisfies the bounds if the start vector does, for every inner solver, all
tolerances and any number of iterations. -/
theorem C46_in_bounds (hlu : ∀ i, l i ≤ u i) (x : Vec K n) (hx : InBox l u x) (fuel : Nat)
    (r : BntrResult K n) (hr : bntrFast root eps broadcast inner o fuel g h l u x = .ok (some r)) :
    InBox l u r.x := by
  obtain ⟨s, hs, he, -⟩ := bntrFast_induction root eps broadcast inner o g h l u
    (fun s => InBox l u s.x) x (fun s hs => by
      rcases bntrPreliminary_x root eps o g h l u x s hs with h1 | ⟨y, h1⟩
      · rw [h1]; exact hx
      · rw [h1]; exact applyBounds_inBox l u y hlu)
    (fun niter s s' acc ht hs => by
      obtain ⟨t, r, -, -, h1, h2⟩ := bntrTrial_cases root eps broadcast inner o g h l u niter s s' acc ht
      cases acc with
      | true => rw [(h1 rfl).1]; exact applyBounds_inBox l u _ hlu
      | false => rw [(h2 rfl).1]; exact hs) fuel r hr
  rw [he]; exact hs

/-! ## C47 -/

theorem clipRadius_bounds (r : K) : bntrMinRadius ≤ clipRadius r ∧ clipRadius r ≤ bntrMaxRadius := by
  unfold clipRadius
  have h : (bntrMinRadius : K) ≤ bntrMaxRadius := by
    unfold bntrMinRadius bntrMaxRadius; norm_num
  exact ⟨le_min (le_max_right _ _) h, min_le_right _ _⟩

/-- The new radius of a rejected step. -/
theorem cgUpdateRadius_rejected (f predicted actual stepNorm radius r : K)
    (hr : cgUpdateRadius eps f predicted actual stepNorm radius = .ok (r, false)) :
    r = clipRadius (1 / 4 * min radius stepNorm) := by
  unfold cgUpdateRadius at hr
  split at hr
  · cases hr; rfl
  · obtain ⟨k, -, hr⟩ := except_bind_eq_ok hr
    split at hr
    · cases hr; rfl
    · cases hr

theorem cgUpdateRadius_clipped (f predicted actual stepNorm radius r : K) (acc : Bool)
    (hr : cgUpdateRadius eps f predicted actual stepNorm radius = .ok (r, acc)) :
    bntrMinRadius ≤ r ∧ r ≤ bntrMaxRadius := by
  unfold cgUpdateRadius at hr
  split at hr
  · cases hr; exact clipRadius_bounds _
  · obtain ⟨k, -, hr⟩ := except_bind_eq_ok hr
    split at hr <;> (cases hr; exact clipRadius_bounds _)

/-- C47: a rejected trial step divides the radius by at least four, or sets it to the minimal radius;
if it already was minimal then the solver stops. -/
theorem C47_rejected_step (niter : Nat) (s s' : BntrState K n)
    (ht : bntrTrial root eps broadcast inner o g h l u niter s = .ok (s', false)) :
    1 / 10 ^ 10 ≤ s'.radius ∧ (s'.radius ≤ s.radius / 4 ∨ s'.radius = 1 / 10 ^ 10) ∧
      (s.radius = 1 / 10 ^ 10 → s'.converged = true) := by
  obtain ⟨t, r, -, hu, -, h2⟩ := bntrTrial_cases root eps broadcast inner o g h l u niter s s' false ht
  obtain ⟨-, -, -, -, hrad, hconv⟩ := h2 rfl
  have hr := cgUpdateRadius_rejected eps _ _ _ _ _ _ hu
  have hb := clipRadius_bounds (1 / 4 * min s.radius t.2)
  rw [← hr] at hb
  have hle : 1 / 4 * min s.radius t.2 ≤ s.radius / 4 := by
    have := min_le_left s.radius t.2
    linarith
  have hcase : r ≤ s.radius / 4 ∨ r = 1 / 10 ^ 10 := by
    rw [hr]
    unfold clipRadius
    rcases le_total (1 / 4 * min s.radius t.2) (bntrMinRadius : K) with hm | hm
    · right
      rw [max_eq_right hm, min_eq_left]
      · rfl
      · unfold bntrMinRadius bntrMaxRadius; norm_num
    · left
      rw [max_eq_left hm]
      exact (min_le_left _ _).trans hle
  rw [hrad]
  refine ⟨hb.1, hcase, fun hs => hconv ?_⟩
  rcases hcase with hc | hc
  · have : (1 : K) / 10 ^ 10 ≤ r := hb.1
    rw [hs] at hc
    have : (0 : K) < 1 / 10 ^ 10 := by norm_num
    linarith
  · rw [hc, hs]

/-- The loop `while` makes at most `k + 1` passes when the radius is at most `4 ^ k` times the minimal
one. -/
theorem bntrInner_finishes (niter : Nat) : ∀ (k fuel : Nat) (s : BntrState K n),
    1 / 10 ^ 10 ≤ s.radius → s.radius ≤ 4 ^ k / 10 ^ 10 → k < fuel →
    bntrInner root eps broadcast inner o g h l u niter fuel s ≠ .ok none
  | _, 0, _, _, _, hk => by omega
  | k, fuel + 1, s, hmin, hmax, hk => by
    intro hn
    unfold bntrInner at hn
    obtain ⟨⟨s1, acc⟩, h1, hn⟩ := except_bind_eq_ok hn
    dsimp only at hn
    split at hn
    · cases hn
    · rename_i hstop
      simp only [Bool.or_eq_true, not_or, Bool.not_eq_true] at hstop
      obtain ⟨rfl, hconv⟩ := hstop
      obtain ⟨h2, h3, h4⟩ := C47_rejected_step root eps broadcast inner o g h l u niter s s1 h1
      cases k with
      | zero =>
        have : s.radius = 1 / 10 ^ 10 := le_antisymm (by simpa using hmax) hmin
        rw [h4 this] at hconv
        cases hconv
      | succ k =>
        refine bntrInner_finishes niter k fuel s1 h2 ?_ (by omega) hn
        rcases h3 with h3 | h3
        · refine h3.trans ?_
          rw [pow_succ] at hmax
          have h10 : (0 : K) < 10 ^ 10 := by norm_num
          rw [div_le_iff₀ (by norm_num), div_mul_eq_mul_div]
          exact hmax
        · rw [h3]
          have : (1 : K) ≤ 4 ^ k := one_le_pow₀ (by norm_num)
          gcongr

/-- The radius after the preliminary steps, and after each trial step. -/
theorem bntrPreliminary_radius (x : Vec K n) (s : BntrState K n)
    (hs : bntrPreliminary root eps o g h l u x = .ok s) (hc : s.converged = false) :
    bntrMinRadius ≤ s.radius ∧ s.radius ≤ bntrMaxRadius := by
  unfold bntrPreliminary at hs
  dsimp only at hs
  split at hs
  · cases hs; cases hc
  · obtain ⟨d, hd, hs⟩ := except_bind_eq_ok hs
    split at hs
    · cases hs
      dsimp only at hc ⊢
      rw [if_neg (by simp [hc])]
      exact clipRadius_bounds _
    · cases hs; exact clipRadius_bounds _

theorem bntrOuter_finishes (fuel : Nat) (hfuel : 34 < fuel) : ∀ (k niter : Nat) (s : BntrState K n),
    (s.converged = false → bntrMinRadius ≤ s.radius ∧ s.radius ≤ bntrMaxRadius) →
    bntrOuter root eps broadcast inner o g h l u fuel k niter s ≠ .ok none
  | 0, _, _, _ => by intro hn; cases hn
  | k + 1, niter, s, hs => by
    intro hn
    unfold bntrOuter at hn
    split at hn
    · cases hn
    · rename_i hc
      obtain ⟨hs1, hs2⟩ := hs (by simpa using hc)
      obtain ⟨c, h1, hn⟩ := except_bind_eq_ok hn
      cases c with
      | none =>
        refine bntrInner_finishes root eps broadcast inner o g h l u niter 34 fuel s hs1 ?_ hfuel h1
        refine hs2.trans ?_
        unfold bntrMaxRadius
        norm_num
      | some s1 =>
        refine bntrOuter_finishes fuel hfuel k (niter + 1) s1 (fun _ => ?_) hn
        exact bntrInner_induction root eps broadcast inner o g h l u
          (fun s => bntrMinRadius ≤ s.radius ∧ s.radius ≤ bntrMaxRadius) niter
          (fun s s' acc ht _ => by
            obtain ⟨t, r, -, hu, h2, h3⟩ :=
              bntrTrial_cases root eps broadcast inner o g h l u niter s s' acc ht
            have hr := cgUpdateRadius_clipped eps _ _ _ _ _ _ _ hu
            cases acc with
            | true => rw [(h2 rfl).2.2.2.2]; exact hr
            | false => rw [(h3 rfl).2.2.2.2.1]; exact hr) fuel s s1 h1 ⟨hs1, hs2⟩

/-- C47: the loop without limit ends after at most 35 passes, for every model, all bounds and every inner
solver: the limit of the model is never reached. -/
theorem C47_terminates (fuel : Nat) (hfuel : 35 ≤ fuel) (x : Vec K n) :
    bntrFast root eps broadcast inner o fuel g h l u x ≠ .ok none := by
  intro hn
  unfold bntrFast at hn
  obtain ⟨s, hs, hn⟩ := except_bind_eq_ok hn
  obtain ⟨c, hc, hn⟩ := except_bind_eq_ok hn
  cases c with
  | none =>
    exact bntrOuter_finishes root eps broadcast inner o g h l u fuel hfuel _ _ s
      (bntrPreliminary_radius root eps o g h l u x s hs) hc
  | some c => obtain ⟨s', m⟩ := c; cases hn

/-- More passes do not change the result of the loop `while`. -/
theorem bntrInner_mono (niter : Nat) : ∀ (fuel extra : Nat) (s : BntrState K n),
    bntrInner root eps broadcast inner o g h l u niter fuel s ≠ .ok none →
    bntrInner root eps broadcast inner o g h l u niter (fuel + extra) s
      = bntrInner root eps broadcast inner o g h l u niter fuel s
  | 0, _, _, hn => absurd rfl hn
  | fuel + 1, extra, s, hn => by
    rw [Nat.add_right_comm]
    unfold bntrInner at hn ⊢
    cases ht : bntrTrial root eps broadcast inner o g h l u niter s with
    | error e => rfl
    | ok r =>
      rw [ht] at hn
      change (if (r.2 || r.1.converged) = true then _ else _) ≠ _ at hn
      change (if (r.2 || r.1.converged) = true then _ else _)
        = (if (r.2 || r.1.converged) = true then _ else _)
      by_cases hc : (r.2 || r.1.converged) = true
      · rw [if_pos hc, if_pos hc]
      · rw [if_neg hc] at hn ⊢
        rw [if_neg hc]
        exact bntrInner_mono niter fuel extra r.1 hn

/-! ## C48 -/

/-- What acceptance of a step means. -/
theorem cgUpdateRadius_accepted (f predicted actual stepNorm radius r : K)
    (hr : cgUpdateRadius eps f predicted actual stepNorm radius = .ok (r, true)) :
    0 ≤ predicted ∧ (0 < actual ∨
      (|actual| ≤ max 1 (|f| * eps) ∧ |predicted| ≤ max 1 (|f| * eps))) := by
  unfold cgUpdateRadius at hr
  split at hr
  · cases hr
  · rename_i hp
    refine ⟨not_lt.1 hp, ?_⟩
    obtain ⟨k, hk, hr⟩ := except_bind_eq_ok hr
    unfold cgKappa at hk
    split at hk
    · rename_i hsmall; exact Or.inr hsmall
    · unfold checkedDiv at hk
      split at hk
      · cases hk
      · rename_i h0
        cases hk
        split at hr
        · cases hr
        · rename_i hk
          left
          have hpos : 0 < predicted := lt_of_le_of_ne (not_lt.1 hp) (Ne.symm h0)
          have h1 : (1 : K) / 10 ^ 4 ≤ actual / predicted := not_lt.1 hk
          rw [le_div_iff₀ hpos] at h1
          have : (0 : K) < 1 / 10 ^ 4 * predicted := by positivity
          linarith

/-- C47: the radius follows the agreement of the predicted and the actual reduction. For reductions that
are not both negligible and a radius within its limits: a step is accepted if the actual reduction is at
least 0.0001 of the predicted one; after a poor step (less than a quarter) the radius does not grow, and it
is halved if the step was on the boundary; a good step on the boundary (at least a half) at least doubles
it (up to the maximal radius). -/
theorem C47_radius_follows_agreement (f predicted actual stepNorm radius r : K) (accepted : Bool)
    (hp : 0 < predicted) (hbig : max 1 (|f| * eps) < |actual| ∨ max 1 (|f| * eps) < predicted)
    (hr0 : 1 / 10 ^ 10 ≤ radius) (hr1 : radius ≤ 10 ^ 10)
    (hr : cgUpdateRadius eps f predicted actual stepNorm radius = .ok (r, accepted)) :
    (accepted = true ↔ 1 / 10 ^ 4 * predicted ≤ actual) ∧
    (1 / 10 ^ 10 ≤ r ∧ r ≤ 10 ^ 10) ∧
    (actual < 1 / 4 * predicted → r ≤ radius ∧ (stepNorm = radius → r = 1 / 10 ^ 10 ∨ r ≤ radius / 2)) ∧
    (1 / 2 * predicted ≤ actual → stepNorm = radius → r = 10 ^ 10 ∨ 2 * radius ≤ r) ∧
    (1 / 10 ^ 4 * predicted ≤ actual → stepNorm ≠ radius → r = radius) := by
  have hk : cgKappa eps f predicted actual = .ok (actual / predicted) := by
    unfold cgKappa
    rw [if_neg, checkedDiv, if_neg hp.ne']
    rintro ⟨h1, h2⟩
    rw [abs_of_pos hp] at h2
    rcases hbig with h | h
    · exact absurd h1 (not_le.2 h)
    · exact absurd h2 (not_le.2 h)
  unfold cgUpdateRadius at hr
  rw [if_neg (not_lt.2 hp.le), hk] at hr
  change (if actual / predicted < 1 / 10 ^ 4 then _ else _) = _ at hr
  have hmin : (bntrMinRadius : K) = 1 / 10 ^ 10 := rfl
  have hmax : (bntrMaxRadius : K) = 10 ^ 10 := rfl
  have hr' : ∀ a : K, clipRadius a = min (max a (1 / 10 ^ 10)) (10 ^ 10) := fun a => rfl
  have hlim : (1 : K) / 10 ^ 10 ≤ 10 ^ 10 := by norm_num
  have hrpos : 0 < radius := lt_of_lt_of_le (by norm_num) hr0
  by_cases hc : actual < 1 / 10 ^ 4 * predicted
  · rw [if_pos ((div_lt_iff₀ hp).2 hc)] at hr
    cases hr
    have hsmall : actual < 1 / 4 * predicted := hc.trans (by
      refine mul_lt_mul_of_pos_right ?_ hp; norm_num)
    have hm : 1 / 4 * min radius stepNorm ≤ radius / 2 := by
      have := min_le_left radius stepNorm
      linarith
    have hle : clipRadius (1 / 4 * min radius stepNorm) = 1 / 10 ^ 10 ∨
        clipRadius (1 / 4 * min radius stepNorm) ≤ radius / 2 := by
      rw [hr']
      rcases le_total (1 / 4 * min radius stepNorm) (1 / 10 ^ 10) with h | h
      · left; rw [max_eq_right h, min_eq_left hlim]
      · right; rw [max_eq_left h]; exact (min_le_left _ _).trans hm
    refine ⟨⟨(fun h => by cases h), fun h => absurd hc (not_lt.2 h)⟩, clipRadius_bounds _, fun _ =>
      ⟨?_, fun _ => hle⟩, fun h => ?_, fun h => absurd hc (not_lt.2 h)⟩
    · rcases hle with h | h
      · rw [h]; exact hr0
      · linarith
    · linarith
  · rw [if_neg (fun hlt => hc ((div_lt_iff₀ hp).1 hlt))] at hr
    cases hr
    refine ⟨⟨fun _ => not_lt.1 hc, fun _ => rfl⟩, clipRadius_bounds _, fun h4 => ?_, fun h2 hs => ?_,
      fun _ hs => ?_⟩
    · have hb : boundaryFactor (actual / predicted) = 1 / 2 := by
        unfold boundaryFactor
        rw [if_pos ((div_lt_iff₀ hp).2 h4)]
      rw [hb]
      by_cases hs : stepNorm = radius
      · rw [if_pos hs, hr']
        rcases le_total (1 / 2 * radius) (1 / 10 ^ 10) with h | h
        · rw [max_eq_right h, min_eq_left hlim]
          exact ⟨hr0, fun _ => Or.inl rfl⟩
        · rw [max_eq_left h]
          have := min_le_left (1 / 2 * radius) (10 ^ 10)
          exact ⟨by linarith, fun _ => Or.inr (by linarith)⟩
      · rw [if_neg hs, hr', max_eq_left hr0, min_eq_left hr1]
        exact ⟨le_refl _, fun h => absurd h hs⟩
    · have hb : 2 ≤ boundaryFactor (actual / predicted) := by
        have h3 : 1 / 2 ≤ actual / predicted := (le_div_iff₀ hp).2 h2
        unfold boundaryFactor
        rw [if_neg (not_lt.2 (le_trans (by norm_num) h3)), if_neg (not_lt.2 h3)]
        split <;> norm_num
      rw [if_pos hs, hr']
      have h5 : 2 * radius ≤ boundaryFactor (actual / predicted) * radius :=
        mul_le_mul_of_nonneg_right hb hrpos.le
      rcases le_total (10 ^ 10) (boundaryFactor (actual / predicted) * radius) with h | h
      · left; exact min_eq_right (h.trans (le_max_left _ _))
      · right
        refine le_min (h5.trans (le_max_left _ _)) (h5.trans h)
    · rw [if_neg hs, hr', max_eq_left hr0, min_eq_left hr1]

/-- C48, in part: an accepted step decreases the value, except when both the predicted and the actual
change are at most one (or at most `eps` relative to the value). Then an increase of this size is
accepted, see `C48_violated`. -/
theorem C48_accepted_step_partial (niter : Nat) (s s' : BntrState K n)
    (ht : bntrTrial root eps broadcast inner o g h l u niter s = .ok (s', true)) :
    s'.f < s.f ∨ |s.f - s'.f| ≤ max 1 (|s'.f| * eps) := by
  obtain ⟨t, r, -, hu, h1, -⟩ := bntrTrial_cases root eps broadcast inner o g h l u niter s s' true ht
  obtain ⟨-, hf, -⟩ := h1 rfl
  obtain ⟨-, h2 | ⟨h2, -⟩⟩ := cgUpdateRadius_accepted eps _ _ _ _ _ _ hu
  · left; rw [hf]; linarith
  · right; rw [hf]; exact h2

omit [IsStrictOrderedRing K] in
/-- Within the bounds only the free parameters are moved. -/
theorem boundedStep_of_inBox (x gr : Vec K n) (hx : InBox l u x)
    (step : Vec K (maskIndices (activeBounds x gr l u).inactive).length) :
    boundedStep (activeBounds x gr l u) l u x step = unmask (activeBounds x gr l u).inactive step := by
  funext i
  unfold boundedStep
  have hoff : (activeBounds x gr l u).inactive i = false →
      unmask (activeBounds x gr l u).inactive step i = 0 := unmask_of_false _ _ _
  split
  · rename_i hf
    rw [hoff]
    simp only [activeBounds, Bool.and_eq_true, decide_eq_true_eq] at hf ⊢
    simp [hf.2.2]
  · split
    · rename_i hf
      rw [hoff]
      · simp only [activeBounds, Bool.and_eq_true, decide_eq_true_eq] at hf
        rw [le_antisymm hf.2.1 (hx i).2, sub_self]
      · simp only [activeBounds, Bool.and_eq_true, decide_eq_true_eq] at hf ⊢
        simp [hf.2]
    · split
      · rename_i hf
        rw [hoff]
        · simp only [activeBounds, Bool.and_eq_true, decide_eq_true_eq] at hf
          rw [le_antisymm hf.1 (hx i).1, sub_self]
        · simp only [activeBounds, Bool.and_eq_true, decide_eq_true_eq] at hf ⊢
          simp [hf]
      · rfl

/-- C48, in part: an accepted step that the bounds do not cut off does not increase the value of the
model. -/
theorem C48_step_within_bounds_partial (hsym : SymmetricMat h) (niter : Nat) (s s' : BntrState K n)
    (hx : InBox l u s.x) (hg : s.gradient = quadGradient g h s.x)
    (ha : s.active = activeBounds s.x s.gradient l u)
    (ht : bntrTrial root eps broadcast inner o g h l u niter s = .ok (s', true))
    (t : Vec K (maskIndices s.active.inactive).length × K)
    (htr : trialStep root broadcast inner s.gradient h l u s.x s.active s.radius = .ok t)
    (hin : InBox l u fun i => s.x i + unmask s.active.inactive t.1 i) :
    s'.x = (fun i => s.x i + unmask s.active.inactive t.1 i) ∧
      quadModel g h s'.x ≤ quadModel g h s.x := by
  obtain ⟨t', r, h0, hu, h1, -⟩ := bntrTrial_cases root eps broadcast inner o g h l u niter s s' true ht
  rw [htr] at h0
  cases h0
  obtain ⟨hx', hf', -⟩ := h1 rfl
  have hstep : boundedStep s.active l u s.x t.1 = unmask s.active.inactive t.1 := by
    revert t
    rw [ha]
    intro t _ _ _ _ _ _
    exact boundedStep_of_inBox l u s.x s.gradient hx t.1
  rw [hstep] at hx' hu
  rw [applyBounds_of_inBox l u _ hin] at hx' hu
  refine ⟨hx', ?_⟩
  obtain ⟨hp, -⟩ := cgUpdateRadius_accepted eps _ _ _ _ _ _ hu
  have hpred : predictedReduction s.gradient h s.active.inactive (unmask s.active.inactive t.1) t.1
      = -(bntrCriterion (unmask s.active.inactive t.1) s.gradient h) := by
    have := bntrCriterion_mask s.active.inactive s.gradient (unmask s.active.inactive t.1) h
      (fun i hi => unmask_of_false _ _ i hi)
    unfold predictedReduction
    rw [maskVec_unmask] at this ⊢
    rw [this]
    split <;> rfl
  rw [hpred] at hp
  have hval := quadModel_axpy g h hsym s.x (unmask s.active.inactive t.1) 1
  simp only [one_mul] at hval
  rw [hx', hval]
  unfold bntrCriterion at hp
  rw [hg] at hp
  unfold quadGradient at hp
  unfold matVec
  linarith

/-! ## C49 -/

/-- C49: the measure of convergence is zero exactly at the points that satisfy the bounds and the first
order conditions. -/
theorem C49_zero_iff_first_order {root : K → K} (hroot : SqrtSpec root) (hlu : ∀ i, l i ≤ u i)
    (x gr : Vec K n) :
    norm2 root (fbDirection root x gr l u) = 0 ↔ FirstOrder l u x gr := by
  rw [norm2_eq_zero_iff hroot]
  constructor
  · intro hz
    have := fun i => (fbDirection_eq_zero_iff hroot x gr l u i (hlu i)).1 (hz i)
    exact ⟨fun i => (this i).1, fun i => (this i).2⟩
  · rintro ⟨h1, h2⟩ i
    exact (fbDirection_eq_zero_iff hroot x gr l u i (hlu i)).2 ⟨h1 i, h2 i⟩

/-- C49: with positive tolerance the solver stops at once at such a point. -/
theorem C49_stops_at_first_order {root : K → K} (hroot : SqrtSpec root) (hlu : ∀ i, l i ≤ u i)
    (htol : 0 < o.gtolAbs) (x : Vec K n) (hx : FirstOrder l u x (quadGradient g h x)) (fuel : Nat) :
    bntrFast root eps broadcast inner o fuel g h l u x
      = .ok (some { x := x, criterion := bntrCriterion x g h, nIterations := 0, success := true
                    message := 1 }) := by
  have h0 := (C49_zero_iff_first_order l u hroot hlu x (quadGradient g h x)).2 hx
  have hc : bntrConverged root o x (bntrCriterion x g h) (fun i => g i + matVec h x i) g l u false 0 none
      = (true, 1) := by
    unfold bntrConverged
    have h0' : norm2 root (fbDirection root x (fun i => g i + matVec h x i) l u) = 0 := h0
    rw [h0']
    exact if_pos htol
  have hp : bntrPreliminary root eps o g h l u x
      = .ok { x := x, f := bntrCriterion x g h, gradient := fun i => g i + matVec h x i, radius := 100
              active := activeBounds x g l u, converged := true, reason := 1 } := by
    unfold bntrPreliminary
    simp only [hc, if_true]
  unfold bntrFast
  rw [hp]
  rfl

/-! ## C50 -/

omit [Field K] [IsStrictOrderedRing K] in
/-- How many of the four classes parameter `i` belongs to. -/
def numClasses (a : ActiveBounds n) (i : Fin n) : Nat :=
  (a.lower i).toNat + (a.upper i).toNat + (a.fixed i).toNat + (a.inactive i).toNat

omit [IsStrictOrderedRing K] in
/-- C50: each parameter belongs to exactly one class; the classes are what their names say; and a free
parameter can be moved a bit in the direction of descent. -/
theorem C50_partition (x gr : Vec K n) (hx : InBox l u x) (i : Fin n) :
    let a := activeBounds x gr l u
    numClasses a i = 1 ∧
    (a.lower i = true → x i = l i ∧ 0 < gr i) ∧
    (a.upper i = true → x i = u i ∧ gr i < 0) ∧
    (a.fixed i = true → l i = u i) ∧
    (a.inactive i = true ↔ l i < u i ∧ (0 < gr i → l i < x i) ∧ (gr i < 0 → x i < u i)) := by
  obtain ⟨h1, h2⟩ := hx i
  simp only [activeBounds, numClasses]
  refine ⟨?_, ?_, ?_, ?_, ?_⟩
  · cases decide (x i ≤ l i) <;> cases decide (0 < gr i) <;> cases decide (u i ≤ x i) <;>
      cases decide (gr i < 0) <;> cases decide (l i = u i) <;> rfl
  · simp only [Bool.and_eq_true, decide_eq_true_eq]
    rintro ⟨h3, h4⟩
    exact ⟨le_antisymm h3 h1, h4⟩
  · simp only [Bool.and_eq_true, decide_eq_true_eq]
    rintro ⟨-, h3, h4⟩
    exact ⟨le_antisymm h2 h3, h4⟩
  · simp only [Bool.and_eq_true, decide_eq_true_eq]
    rintro ⟨-, -, h3⟩
    exact h3
  · simp only [Bool.and_eq_true, Bool.not_eq_true', Bool.and_eq_false_iff, decide_eq_false_iff_not,
      not_le, not_lt]
    constructor
    · rintro ⟨h3, h4, h5⟩
      refine ⟨lt_of_le_of_ne (h1.trans h2) h5, fun hg => ?_, fun hg => ?_⟩
      · rcases h3 with h3 | h3
        · exact h3
        · exact absurd hg (not_lt.2 h3)
      · rcases h4 with h4 | h4
        · exact h4
        · exact absurd hg (not_lt.2 h4)
    · rintro ⟨h3, h4, h5⟩
      refine ⟨?_, ?_, h3.ne⟩
      · rcases lt_or_ge 0 (gr i) with hg | hg
        · exact Or.inl (h4 hg)
        · exact Or.inr hg
      · rcases lt_or_ge (gr i) 0 with hg | hg
        · exact Or.inl (h5 hg)
        · exact Or.inr hg

/-- C50: without free parameters the point satisfies the first order conditions. -/
theorem C50_no_free_parameter (x gr : Vec K n) (hx : InBox l u x)
    (hn : ∀ i, (activeBounds x gr l u).inactive i = false) : FirstOrder l u x gr := by
  refine ⟨hx, fun i => ?_⟩
  obtain ⟨h1, h2, h3, h4, -⟩ := C50_partition l u x gr hx i
  unfold numClasses at h1
  rw [hn i] at h1
  cases ha : (activeBounds x gr l u).lower i with
  | true =>
    obtain ⟨h5, h6⟩ := h2 ha
    exact ⟨fun _ => h6.le, fun h => absurd h5 h.ne'⟩
  | false =>
    cases hb : (activeBounds x gr l u).upper i with
    | true =>
      obtain ⟨h5, h6⟩ := h3 hb
      exact ⟨fun h => absurd h5 h.ne, fun _ => h6.le⟩
    | false =>
      cases hc : (activeBounds x gr l u).fixed i with
      | true =>
        have h5 := h4 hc
        have hx' := hx i
        rw [← h5] at hx' ⊢
        exact ⟨fun h => absurd hx'.1 (not_le.2 h), fun h => absurd hx'.2 (not_le.2 h)⟩
      | false => rw [ha, hb, hc] at h1; simp at h1

/-! ## C93 -/

/-- C93, in part: the reported value is the value of the model at the reported point, if the initial
gradient descent is switched off or if a step of the main loop was accepted. What is missing is the point
after the gradient descent, see `C93_violated`. -/
theorem C93_reported_value_partial (x : Vec K n) (fuel : Nat) (r : BntrResult K n) (s0 : BntrState K n)
    (hs0 : bntrPreliminary root eps o g h l u x = .ok s0)
    (hr : bntrFast root eps broadcast inner o fuel g h l u x = .ok (some r))
    (hc : o.maxiterGradientDescent = 0 ∨ r.x ≠ s0.x) :
    r.criterion = quadModel g h r.x := by
  obtain ⟨s, hs, hx, hf, -⟩ := bntrFast_induction root eps broadcast inner o g h l u
    (fun s => s.f = bntrCriterion s.x g h ∨ (s.x = s0.x ∧ s.f = s0.f)) x
    (fun s hs => by
      rw [hs0] at hs
      cases hs
      exact Or.inr ⟨rfl, rfl⟩)
    (fun niter s s' acc ht hs => by
      obtain ⟨t, r, -, -, h1, h2⟩ := bntrTrial_cases root eps broadcast inner o g h l u niter s s' acc ht
      cases acc with
      | true =>
        obtain ⟨hx, hf, -⟩ := h1 rfl
        left
        rw [hx, hf]
      | false =>
        obtain ⟨hx, hf, -⟩ := h2 rfl
        rw [hx, hf]
        exact hs) fuel r hr
  rw [hx, hf, ← bntrCriterion_eq]
  rcases hs with hs | ⟨hs, hs'⟩
  · exact hs
  · rcases hc with hc | hc
    · rw [hs, hs']
      unfold bntrPreliminary at hs0
      dsimp only at hs0
      split at hs0
      · cases hs0; rfl
      · rw [hc] at hs0
        change (if (bntrCriterion x g h) < bntrCriterion x g h then _ else _) = _ at hs0
        rw [if_neg (lt_irrefl _)] at hs0
        cases hs0; rfl
    · exact absurd (hx.trans hs) hc

/-! ## C73: the two versions -/

omit [Field K] [IsStrictOrderedRing K] in
/-- C73: both versions cut off points in the same way. -/
theorem C73_apply_bounds (hlu : ∀ i, l i ≤ u i) (x : Vec K n) :
    applyBoundsNp l u x = applyBounds l u x := by
  funext i
  unfold applyBoundsNp applyBounds
  dsimp only
  by_cases h1 : x i ≤ l i
  · simp only [if_pos h1]
    split
    · rename_i h2; exact le_antisymm h2 (hlu i)
    · rfl
  · simp only [if_neg h1]

omit [IsStrictOrderedRing K] in
/-- C73: both versions find the same free parameters and the same parameters at active bounds. The fixed
parameters of the version for numba are those that are not at an active bound. -/
theorem C73_active_bounds (x gr : Vec K n) :
    (activeSets x gr l u).lower = maskIndices (activeBounds x gr l u).lower ∧
    (activeSets x gr l u).upper = maskIndices (activeBounds x gr l u).upper ∧
    (activeSets x gr l u).inactive = maskIndices (activeBounds x gr l u).inactive ∧
    maskIndices (activeBounds x gr l u).fixed
      = (activeSets x gr l u).fixed.filter fun i =>
          decide (i ∉ (activeSets x gr l u).lower) && decide (i ∉ (activeSets x gr l u).upper) := by
  refine ⟨rfl, ?_, ?_, ?_⟩
  · unfold maskIndices
    refine List.filter_congr fun i _ => ?_
    simp only [activeBounds]
    rcases lt_or_ge 0 (gr i) with hg | hg
    · simp [hg, not_lt.2 hg.le]
    · simp [not_lt.2 hg]
  · unfold maskIndices
    refine List.filter_congr fun i _ => ?_
    simp only [activeSets, activeBounds, List.mem_filter, List.mem_finRange, true_and]
    generalize decide (x i ≤ l i) = a, decide (0 < gr i) = b, decide (u i ≤ x i) = c,
      decide (gr i < 0) = d, decide (l i = u i) = e
    revert a b c d e
    decide
  · unfold maskIndices
    simp only [activeSets, activeBounds, List.filter_filter]
    refine List.filter_congr fun i _ => ?_
    simp only [List.mem_filter, List.mem_finRange, true_and]
    generalize decide (x i ≤ l i) = a, decide (0 < gr i) = b, decide (u i ≤ x i) = c,
      decide (gr i < 0) = d, decide (l i = u i) = e
    revert a b c d e
    decide

omit [IsStrictOrderedRing K] in
/-- C73: within the bounds both versions complete the step of the free parameters in the same way. -/
theorem C73_bounded_step (x gr : Vec K n) (hx : InBox l u x)
    (step : Vec K (maskIndices (activeBounds x gr l u).inactive).length) :
    boundedStepNp (activeSets x gr l u) l u x
        (fun k => step (k.cast (by rw [(C73_active_bounds l u x gr).2.2.1])))
      = boundedStep (activeBounds x gr l u) l u x step := by
  rw [boundedStep_of_inBox l u x gr hx]
  obtain ⟨hlow, hup, hin, -⟩ := C73_active_bounds l u x gr
  funext i
  obtain ⟨-, h2, h3, h4, h5⟩ := C50_partition l u x gr hx i
  have hmem : ∀ mask : Fin n → Bool, i ∈ maskIndices mask ↔ mask i = true := fun mask => mem_maskIndices _ _
  have hoff : (activeBounds x gr l u).inactive i = false →
      unmask (activeBounds x gr l u).inactive step i = 0 := unmask_of_false _ _ _
  have hfix : i ∈ (activeSets x gr l u).fixed ↔ l i = u i := by
    simp [activeSets]
  unfold boundedStepNp setAt
  dsimp only
  split
  · rename_i hf
    rw [hfix] at hf
    rw [hoff]
    rw [Bool.eq_false_iff, ne_eq, h5]
    exact fun hc => hc.1.ne hf
  · split
    · rename_i hf
      rw [hup, hmem] at hf
      obtain ⟨h6, h7⟩ := h3 hf
      rw [hoff]
      · simp only [List.get_eq_getElem, List.getElem_idxOf]
        rw [h6, sub_self]
      · rw [Bool.eq_false_iff, ne_eq, h5]
        exact fun hc => absurd h6 (hc.2.2 h7).ne
    · split
      · rename_i hf
        rw [hlow, hmem] at hf
        obtain ⟨h6, h7⟩ := h2 hf
        rw [hoff]
        · simp only [List.get_eq_getElem, List.getElem_idxOf]
          rw [h6, sub_self]
        · rw [Bool.eq_false_iff, ne_eq, h5]
          exact fun hc => absurd h6 (hc.2.1 h7).ne'
      · unfold unmask
        split
        · rename_i hm
          rw [hin] at hm
          rw [dif_pos hm]
          congr 1
          simp [hin]
        · rename_i hm
          rw [hin] at hm
          rw [dif_neg hm]

omit [IsStrictOrderedRing K] in
/-- C73: both versions compute the same measure of convergence. -/
theorem C73_fischer_burmeister (x gr : Vec K n) :
    fbDirectionNp root x gr l u = fbDirection root x gr l u := rfl

/-! ## The hypotheses can be satisfied -/

/-- An inner solver for examples: a step along the negative gradient. -/
def exInner : InnerSolver ℚ := fun _ g _ _ _ _ => .ok fun i => -(g i)

/-- Options for examples. -/
def exBntr : BntrOptions ℚ :=
  { maxiter := 20, maxiterGradientDescent := 0, gtolAbs := 1 / 10 ^ 8, gtolRel := 1 / 10 ^ 8
    gtolScaled := 0 }

/-- The state at the start for the model `x² / 2 - x / 2` on `[-1, 1]`. -/
def exState : BntrState ℚ 1 :=
  { x := fun _ => 0, f := 0, gradient := fun _ => -1 / 2, radius := 100
    active := activeBounds (K := ℚ) (fun _ => 0) (fun _ => -1 / 2) (fun _ => -1) (fun _ => 1)
    converged := false, reason := 0 }

/-- C48: an accepted step within the bounds. -/
example : (bntrTrial (fun _ => 1) 0 true exInner exBntr (fun _ : Fin 1 => -1 / 2) (fun _ _ => 1)
      (fun _ => -1) (fun _ => 1) 0 exState).toOption.map (fun r => (r.1.x 0, r.2)) = some (1 / 2, true) ∧
    exState.gradient = quadGradient (fun _ => -1 / 2) (fun _ _ => 1) exState.x := by
  refine ⟨by decide +kernel, ?_⟩
  funext i; fin_cases i; decide +kernel

/-- C47: a rejected step: the model increases along the step. -/
example : (bntrTrial (fun _ => 1) 0 true exInner exBntr (fun _ : Fin 1 => -1 / 2) (fun _ _ => 100)
      (fun _ => -1) (fun _ => 1) 0 exState).toOption.map (fun r => (r.1.radius, r.2))
    = some (1 / 4, false) := by
  decide +kernel

/-- C46, C93: a run with result. -/
example : (bntrFast (fun _ => 1) 0 true exInner exBntr 35 (fun _ : Fin 1 => -1 / 2)
      (fun _ _ => 1) (fun _ => -1) (fun _ => 1) (fun _ => 0)).toOption.map
        (fun r => r.map fun r => (r.x 0, r.criterion)) = some (some (1 / 2, -1 / 8)) := by
  decide +kernel

/-- C49: a stationary point on the boundary, and one that is not stationary. -/
example : FirstOrder (fun _ : Fin 1 => (-1 : ℚ)) (fun _ => 1) (fun _ => 1) (fun _ => -1) ∧
    ¬ FirstOrder (fun _ : Fin 1 => (-1 : ℚ)) (fun _ => 1) (fun _ => 1) (fun _ => 1) := by
  constructor
  · exact ⟨fun _ => by norm_num, fun _ => by norm_num⟩
  · rintro ⟨-, h⟩
    have := (h 0).2
    norm_num at this

/-- C50: all classes occur. -/
example : activeBounds (![0, 1, 2, 1 / 2] : Vec ℚ 4) ![1, -1, 0, 1] ![0, 0, 2, 0] ![1, 1, 2, 1]
    = { lower := ![true, false, false, false], upper := ![false, true, false, false]
        fixed := ![false, false, true, false], inactive := ![false, false, false, true] } := by
  unfold activeBounds
  congr 1 <;> (funext i; fin_cases i <;> decide +kernel)

end Tranquilo
