import Verif.Props.Bntr
import Mathlib.Data.Fin.VecNotation

/-! # C97: the radius of the gradient descent of bntr -/

namespace Tranquilo

variable {K : Type} [Field K] [LinearOrder K] [IsStrictOrderedRing K] {n : Nat}

theorem gdKappa_cases {eps predicted actual kappa : K} (h : gdKappa eps predicted actual = .ok kappa) :
    ((|actual| ≤ eps ∧ |predicted| ≤ eps) ∧ kappa = 1) ∨
      (¬(|actual| ≤ eps ∧ |predicted| ≤ eps) ∧ predicted ≠ 0 ∧ kappa = actual / predicted) := by
  unfold gdKappa at h
  split at h
  · rename_i hc
    cases h
    exact Or.inl ⟨hc, rfl⟩
  · rename_i hc
    unfold checkedDiv at h
    split at h
    · cases h
    · rename_i hp
      cases h
      exact Or.inr ⟨hc, hp, rfl⟩

theorem checkedDiv_ok {a b c : K} (h : checkedDiv a b = .ok c) : b ≠ 0 ∧ c = a / b := by
  unfold checkedDiv at h
  split at h
  · cases h
  · rename_i hb
    cases h
    exact ⟨hb, rfl⟩

/-- The distance of the ratio of the reductions to one. -/
theorem ratio_sub_one {predicted actual : K} (hp : predicted ≠ 0) (c : K) :
    |actual / predicted - 1| ≤ c ↔ |actual - predicted| ≤ c * |predicted| := by
  have e : actual / predicted - 1 = (actual - predicted) / predicted := by field_simp
  rw [e, abs_div, div_le_iff₀ (abs_pos.2 hp)]

/-- The parts of an update. -/
theorem gdUpdateRadius_cases {eps radius lower predicted actual gradientNorm r lower' : K}
    (h : gdUpdateRadius eps radius lower predicted actual gradientNorm = .ok (r, lower')) :
    ∃ kappa d1 d2, gdKappa eps predicted actual = .ok kappa ∧
      d1 = 1 / 4 * gradientNorm * radius + (1 - 1 / 4) * predicted - actual ∧ d1 ≠ 0 ∧
      d2 = 1 / 4 * gradientNorm * radius - (1 + 1 / 4) * predicted + actual ∧ d2 ≠ 0 ∧
      r = radius * gdTau kappa (1 / 4 * gradientNorm * radius / d1) (1 / 4 * gradientNorm * radius / d2) ∧
      lower' = if |kappa - 1| ≤ 1 / 2 then max lower radius else lower := by
  unfold gdUpdateRadius at h
  obtain ⟨kappa, hk, h⟩ := except_bind_eq_ok h
  obtain ⟨t1, ht1, h⟩ := except_bind_eq_ok h
  obtain ⟨t2, ht2, h⟩ := except_bind_eq_ok h
  obtain ⟨h1, e1⟩ := checkedDiv_ok ht1
  obtain ⟨h2, e2⟩ := checkedDiv_ok ht2
  subst e1 e2
  have h' := Except.ok.inj h
  exact ⟨kappa, _, _, hk, rfl, h1, rfl, h2, (congrArg Prod.fst h').symm, (congrArg Prod.snd h').symm⟩

/-- The factor in general. -/
theorem gdTau_lower (kappa tau1 tau2 : K) : 1 / 16 ≤ gdTau kappa tau1 tau2 := by
  unfold gdTau
  dsimp only
  split
  · split
    · norm_num
    · split
      · norm_num
      · rename_i h _; exact le_trans (by norm_num) (not_lt.1 h)
  · split
    · split
      · norm_num
      · split
        · norm_num
        · rename_i h _; exact le_trans (by norm_num) (not_lt.1 h)
    · split
      · norm_num
      · split
        · exact le_refl _
        · rename_i h
          split
          · exact le_refl _
          · split
            · rename_i h1; exact h1.1
            · split
              · rename_i h1; exact h1.1
              · exact not_lt.1 h

/-- C97, in part. The radius is never divided by more than 16. If the actual reduction is within 35% of the
prediction the radius is not reduced and grows by at most five, if it is within 50% the factor is between a
half and five, and the radius becomes a lower bound for the final one. If it is not, the lower bound is
unchanged and the radius is not enlarged, *except* when the reduction exceeds five quarters of the
prediction and three quarters of it by less than a quarter of the linear reduction. -/
theorem C97_radius_of_descent_partial {eps radius lower predicted actual gradientNorm r lower' : K}
    (hrad : 0 < radius) (hnorm : 0 < gradientNorm) (hbig : eps < |actual| ∨ eps < |predicted|)
    (h : gdUpdateRadius eps radius lower predicted actual gradientNorm = .ok (r, lower')) :
    radius / 16 ≤ r ∧
    (|actual - predicted| ≤ 35 / 100 * |predicted| → radius ≤ r ∧ r ≤ 5 * radius) ∧
    (|actual - predicted| ≤ 1 / 2 * |predicted| →
      radius / 2 ≤ r ∧ r ≤ 5 * radius ∧ lower' = max lower radius) ∧
    (1 / 2 * |predicted| < |actual - predicted| → lower' = lower ∧
      (¬(5 / 4 * predicted < actual ∧ 3 / 4 * predicted ≤ actual ∧
          actual - 3 / 4 * predicted < 1 / 4 * gradientNorm * radius) → r ≤ radius)) := by
  obtain ⟨kappa, d1, d2, hk, hd1, hd1', hd2, hd2', hr, hl⟩ := gdUpdateRadius_cases h
  rcases gdKappa_cases hk with ⟨⟨h1, h2⟩, -⟩ | ⟨-, hp, hkap⟩
  · rcases hbig with hb | hb
    · exact absurd h1 (not_le.2 hb)
    · exact absurd h2 (not_le.2 hb)
  have hA : 0 < 1 / 4 * gradientNorm * radius := by positivity
  generalize hAe : 1 / 4 * gradientNorm * radius = A at *
  have hgreat : |kappa - 1| ≤ 35 / 100 ↔ |actual - predicted| ≤ 35 / 100 * |predicted| := by
    rw [hkap]; exact ratio_sub_one hp _
  have hgood : |kappa - 1| ≤ 1 / 2 ↔ |actual - predicted| ≤ 1 / 2 * |predicted| := by
    rw [hkap]; exact ratio_sub_one hp _
  have hone : |kappa - 1| ≤ 35 / 100 → 1 ≤ gdTau kappa (A / d1) (A / d2) ∧
      gdTau kappa (A / d1) (A / d2) ≤ 5 := by
    intro hc
    unfold gdTau
    dsimp only
    rw [if_pos hc]
    split
    · exact ⟨by norm_num, by norm_num⟩
    · rename_i h1
      split
      · exact ⟨by norm_num, le_refl _⟩
      · rename_i h5
        exact ⟨not_lt.1 h1, not_lt.1 h5⟩
  have htwo : |kappa - 1| ≤ 1 / 2 → 1 / 2 ≤ gdTau kappa (A / d1) (A / d2) ∧
      gdTau kappa (A / d1) (A / d2) ≤ 5 := by
    intro hc
    by_cases hc1 : |kappa - 1| ≤ 35 / 100
    · exact ⟨le_trans (by norm_num) (hone hc1).1, (hone hc1).2⟩
    · unfold gdTau
      dsimp only
      rw [if_neg hc1, if_pos hc]
      split
      · exact ⟨le_refl _, by norm_num⟩
      · rename_i h1
        split
        · exact ⟨by norm_num, by norm_num⟩
        · rename_i h5
          exact ⟨not_lt.1 h1, le_trans (not_lt.1 h5) (by norm_num)⟩
  refine ⟨?_, fun hc => ?_, fun hc => ?_, fun hc => ?_⟩
  · rw [hr]
    have := mul_le_mul_of_nonneg_left (gdTau_lower kappa (A / d1) (A / d2)) hrad.le
    linarith
  · obtain ⟨q1, q2⟩ := hone (hgreat.2 hc)
    rw [hr]
    have := mul_le_mul_of_nonneg_left q1 hrad.le
    have := mul_le_mul_of_nonneg_left q2 hrad.le
    exact ⟨by linarith, by linarith⟩
  · obtain ⟨q1, q2⟩ := htwo (hgood.2 hc)
    rw [hr, hl, if_pos (hgood.2 hc)]
    have := mul_le_mul_of_nonneg_left q1 hrad.le
    have := mul_le_mul_of_nonneg_left q2 hrad.le
    exact ⟨by linarith, by linarith, rfl⟩
  · have hng : ¬|kappa - 1| ≤ 1 / 2 := fun hh => absurd (hgood.1 hh) (not_le.2 hc)
    rw [hl, if_neg hng]
    refine ⟨rfl, fun hex => ?_⟩
    have hfac : gdTau kappa (A / d1) (A / d2) ≤ 1 := by
      have hng1 : ¬|kappa - 1| ≤ 35 / 100 := fun hh => hng (hh.trans (by norm_num))
      unfold gdTau
      dsimp only
      rw [if_neg hng1, if_neg hng]
      split
      · norm_num
      · rename_i b1
        split
        · norm_num
        · rename_i b2
          split
          · norm_num
          · rename_i b3
            split
            · rename_i b4; exact b4.2.1.le
            · rename_i b4
              split
              · rename_i b5; exact b5.2.1.le
              · by_contra hn
                have hmax := not_le.1 hn
                have hmin1 : min (A / d1) (A / d2) ≤ 1 := not_lt.1 b1
                have hmin2 : 1 / 16 ≤ min (A / d1) (A / d2) := by
                  by_contra hm
                  exact b3 ⟨not_le.1 hm, hmax.le⟩
                -- the ratio is not in the middle
                have hne1 : actual ≠ 3 / 4 * predicted := by
                  intro e
                  rw [e] at hc
                  have : |3 / 4 * predicted - predicted| = 1 / 4 * |predicted| := by
                    rw [show 3 / 4 * predicted - predicted = -(1 / 4 * predicted) by ring, abs_neg, abs_mul,
                      abs_of_pos (by norm_num : (0 : K) < 1 / 4)]
                  rw [this] at hc
                  have := abs_nonneg predicted
                  linarith
                rcases le_total (A / d1) (A / d2) with hle | hle
                · rw [min_eq_left hle] at hmin1 hmin2
                  rw [max_eq_right hle] at hmax
                  rcases hmin1.lt_or_eq with hlt | heq
                  · exact b4 ⟨hmin2, hlt, Or.inr hmax.le⟩
                  · rw [div_eq_one_iff_eq hd1'] at heq
                    apply hne1
                    rw [heq] at hd1
                    linarith
                · rw [min_eq_right hle] at hmin1 hmin2
                  rw [max_eq_left hle] at hmax
                  have hd1p : 0 < d1 := by
                    by_contra hneg
                    have := div_nonpos_of_nonneg_of_nonpos hA.le (not_lt.1 hneg)
                    linarith
                  have hd2p : 0 < d2 := by
                    by_contra hneg
                    have := div_nonpos_of_nonneg_of_nonpos hA.le (not_lt.1 hneg)
                    have : (0 : K) < 1 / 16 := by norm_num
                    linarith
                  rw [one_lt_div hd1p] at hmax
                  rw [div_le_one hd2p] at hmin1
                  have hlt : A ≠ d2 := by
                    intro e
                    have e2 : actual = 5 / 4 * predicted := by rw [e] at hd2; linarith
                    rw [e2] at hc
                    have : |5 / 4 * predicted - predicted| = 1 / 4 * |predicted| := by
                      rw [show 5 / 4 * predicted - predicted = 1 / 4 * predicted by ring, abs_mul,
                        abs_of_pos (by norm_num : (0 : K) < 1 / 4)]
                    rw [this] at hc
                    have := abs_nonneg predicted
                    linarith
                  have hlt' := lt_of_le_of_ne hmin1 hlt
                  refine hex ⟨?_, ?_, ?_⟩
                  · linarith
                  · linarith
                  · linarith
    rw [hr]
    have := mul_le_mul_of_nonneg_left hfac hrad.le
    linarith

/-- C97, violated: in the third comparison for bad agreement the code tests `tau_2` twice. One parameter,
linear term 1, square term 1/40 and bounds ±1: the first step of the descent predicts an *increase* of the
model by 25, and the radius grows from 100 to more than 475. -/
theorem C97_violated_growth (eps : ℚ) (heps : eps < 1) :
    ∃ s', gdStep eps 0 1 (fun _ : Fin 1 => (1 : ℚ)) (fun _ => 1) (fun _ _ => 1 / 40) (fun _ => -1) (fun _ => 1)
        (fun _ => true) { x := fun _ => 0, fMin := 0, stepSize := 0, radius := 100, lower := 0 } = .ok s' ∧
      475 < s'.radius := by
  have h1 : ¬(|(79 / 80 : ℚ)| ≤ eps ∧ |(-25 : ℚ)| ≤ eps) := by
    rintro ⟨-, h⟩
    norm_num at h
    linarith
  have hk : gdKappa eps (-25) (79 / 80) = .ok (-79 / 2000) := by
    unfold gdKappa
    rw [if_neg h1]
    decide +kernel
  have hu : gdUpdateRadius eps 100 0 (-25) (79 / 80) 1 = .ok (200000 / 421, 0) := by
    unfold gdUpdateRadius
    rw [hk]
    change (checkedDiv _ _ >>= _) = _
    decide +kernel
  have hx : (applyBounds (fun _ => -1) (fun _ => 1) fun i : Fin 1 => (0 : ℚ) - 100 * 1) = fun _ => -1 := by
    decide +kernel
  have hp : (100 : ℚ) * (1 - 1 / 2 * 100 * quadForm (maskMat (fun _ : Fin 1 => true) fun _ _ => 1 / 40)
      (maskVec (fun _ : Fin 1 => true) fun _ => -1 - 0) / 1 ^ 2) = -25 := by
    decide +kernel
  have hf : (0 : ℚ) - bntrCriterion (fun _ : Fin 1 => (-1 : ℚ)) (fun _ => 1) (fun _ _ => 1 / 40)
      = 79 / 80 := by
    decide +kernel
  have hd : checkedDiv (100 : ℚ) 1 = .ok 100 := by decide +kernel
  unfold gdStep
  dsimp only
  rw [hd]
  change ∃ s', (gdUpdateRadius eps 100 0 _ _ 1 >>= _) = _ ∧ _
  rw [hx, hp, hf, hu]
  exact ⟨_, rfl, by norm_num⟩

/-- The radius can grow after a step that increased the criterion: predicted −1, actual −1/10. -/
theorem C97_violated_after_increase (eps : ℚ) (heps : eps < 1 / 10) :
    gdUpdateRadius eps 1 0 (-1) (-1 / 10) (14 / 5) = .ok (14, 0) := by
  unfold gdUpdateRadius gdKappa
  have h1 : ¬(|(-1 / 10 : ℚ)| ≤ eps ∧ |(-1 : ℚ)| ≤ eps) := by
    rintro ⟨-, h⟩
    norm_num at h
    linarith
  rw [if_neg h1]
  have e1 : checkedDiv (-1 / 10 : ℚ) (-1) = .ok (1 / 10) := by
    unfold checkedDiv; rw [if_neg (by norm_num)]; norm_num
  rw [e1]
  change (checkedDiv _ _ >>= _) = _
  decide +kernel

end Tranquilo
