import Verif.Model.SampleSize
import Verif.Lemmas.Clip
import Mathlib.Tactic.Positivity
import Mathlib.Tactic.FieldSimp

/-!
# Properties C18, C19 and C60: sample sizes of the noisy acceptance step, full batches
-/

namespace Tranquilo

variable {K : Type} [Field K] [LinearOrder K] [IsStrictOrderedRing K] [FloorRing K]

omit [FloorRing K] in
theorem effect_pos (ei : K) : 0 < max ei (1 / 100000000) :=
  lt_max_of_lt_right (by positivity)

omit [FloorRing K] in
/-- The infinite factor of `_compute_factor` cannot occur: the effect size is clipped. -/
theorem C18_factor_is_finite (ei zc zp : K) :
    computeFactor (max ei (1 / 100000000)) zc zp
      = some (((zc + zp) / max ei (1 / 100000000)) ^ 2) := by
  rw [computeFactor, if_neg (effect_pos ei).ne']

/-- C19. The candidate gets between `n_min` and `n_max` evaluations; the current point gets a
nonnegative number of new evaluations, and its total is at most `n_max`, or it gets
none if it already has more. Holds for every noise level, in particular for zero noise, and for all
quantiles. -/
theorem C19_sample_sizes_within_limits (sigma : K) (existing : Nat) (ei zc zp : K) (nMin nMax : Nat)
    (hlim : nMin ≤ nMax) (n1 n2 : Int)
    (h : getAcceptanceSampleSizes sigma existing ei zc zp nMin nMax = (n1, n2)) :
    (nMin : Int) ≤ n2 ∧ n2 ≤ nMax ∧ 0 ≤ n1 ∧ n1 + existing ≤ max (nMax : Int) existing ∧
      (nMax ≤ existing → n1 = 0) := by
  simp only [getAcceptanceSampleSizes, Prod.mk.injEq] at h
  obtain ⟨h1, h2⟩ := h
  generalize (getOptimalSampleSizes sigma sigma existing
    ((computeFactor (max ei (1 / 100000000)) zc zp).getD 0)) = raw at h1 h2
  have hc2 := npClip_mem (a := raw.2) (lo := (nMin : K)) (hi := (nMax : K)) (by exact_mod_cast hlim)
  set M : Int := max 0 ((nMax : Int) - existing) with hM
  have hc1 := npClip_mem (a := raw.1) (lo := (0 : K)) (hi := (M : K))
    (by exact_mod_cast le_max_left _ _)
  have a1 : 0 ≤ n1 := by rw [← h1]; exact Int.ceil_nonneg hc1.1
  have a2 : n1 ≤ M := by rw [← h1]; exact Int.ceil_le.2 hc1.2
  have b1 : (nMin : Int) ≤ n2 := by
    have : ((nMin : Int) : K) ≤ ((n2 : Int) : K) := by
      rw [← h2]; exact le_trans (by simpa using hc2.1) (Int.le_ceil _)
    exact_mod_cast this
  have b2 : n2 ≤ (nMax : Int) := by rw [← h2]; exact Int.ceil_le.2 (by simpa using hc2.2)
  refine ⟨b1, b2, a1, ?_, ?_⟩ <;> omega

/-- The unrounded sample sizes give exactly the variance bound, or (second group infinitely precise)
a smaller value. -/
theorem optimal_sizes_spec (sigma : K) (hs : 0 < sigma) (existing : Nat) (F : K) (hF : 0 < F)
    (m1 m2 : K) (h : getOptimalSampleSizes sigma sigma existing F = (m1, m2)) :
    0 ≤ m1 ∧ 0 < m2 ∧ 0 < m1 + existing ∧ sigma ^ 2 / (m1 + existing) + sigma ^ 2 / m2 = 1 / F := by
  have hs2 : 0 < sigma ^ 2 := by positivity
  simp only [getOptimalSampleSizes] at h
  split at h
  · rename_i hle
    simp only [Prod.mk.injEq] at h
    obtain ⟨rfl, rfl⟩ := h
    have hpos : 0 < sigma * (sigma + sigma) * F := by positivity
    refine ⟨sub_nonneg.2 hle, hpos, by linarith, ?_⟩
    rw [sub_add_cancel]
    field_simp
    try ring
  · rename_i hle
    rw [not_le] at hle
    simp only [Prod.mk.injEq] at h
    obtain ⟨rfl, rfl⟩ := h
    have hpos : 0 < sigma * (sigma + sigma) * F := by positivity
    have hex : (0 : K) < existing := hpos.trans hle
    have hd : 0 < F⁻¹ - sigma ^ 2 / existing := by
      rw [sub_pos, div_lt_iff₀ hex, inv_mul_eq_div, lt_div_iff₀ hF]
      nlinarith
    refine ⟨le_rfl, by positivity, by linarith, ?_⟩
    rw [zero_add]
    have : sigma ^ 2 / (sigma ^ 2 * (F⁻¹ - sigma ^ 2 / existing)⁻¹) = F⁻¹ - sigma ^ 2 / existing := by
      field_simp
    rw [this]; ring

/-- C18. Unless cut off by `n_max`, the numbers `n1` (new evaluations of the current point) and
`n2` (evaluations of the candidate) make the variance of the difference of the two means at
most `(effect / (z_conf + z_power))^2`, where `effect` is the expected improvement (at least 1e-8).
"Not cut off" is expressed through the results: `n2 < n_max`, and `n1 + existing < n_max` or the
existing evaluations of the current point are enough for the optimal design. -/
theorem C18_power (sigma : K) (hs : 0 < sigma) (existing : Nat) (ei zc zp : K) (hz : 0 < zc + zp)
    (nMin nMax : Nat) (n1 n2 : Int)
    (h : getAcceptanceSampleSizes sigma existing ei zc zp nMin nMax = (n1, n2))
    (hcut1 : n1 + existing < nMax ∨
      (sigma * (sigma + sigma)) * ((zc + zp) / max ei (1 / 100000000)) ^ 2 ≤ existing)
    (hcut2 : n2 < nMax) :
    0 < n1 + (existing : Int) ∧ 0 < n2 ∧
    sigma ^ 2 / ((n1 : K) + existing) + sigma ^ 2 / (n2 : K)
      ≤ (max ei (1 / 100000000) / (zc + zp)) ^ 2 := by
  have he := effect_pos (K := K) ei
  have hF : 0 < ((zc + zp) / max ei (1 / 100000000)) ^ 2 := by positivity
  simp only [getAcceptanceSampleSizes, C18_factor_is_finite, Option.getD_some, Prod.mk.injEq] at h
  set F := ((zc + zp) / max ei (1 / 100000000)) ^ 2 with hFdef
  obtain ⟨m1, m2, hm⟩ : ∃ m1 m2, getOptimalSampleSizes sigma sigma existing F = (m1, m2) := ⟨_, _, rfl⟩
  obtain ⟨p1, p2, p3, hvar⟩ := optimal_sizes_spec sigma hs existing F hF m1 m2 hm
  rw [hm] at h
  obtain ⟨h1, h2⟩ := h
  -- the clipped values are at least the raw ones
  have q2 : m2 ≤ (n2 : K) := by
    have hc : npClip m2 (nMin : K) (nMax : K) ≤ (n2 : K) := by rw [← h2]; exact Int.le_ceil _
    have hlt : (n2 : K) < (nMax : K) := by exact_mod_cast hcut2
    unfold npClip at hc
    rcases min_le_iff.1 hc with hc | hc
    · exact le_trans (le_max_left _ _) hc
    · linarith
  have q1 : m1 ≤ (n1 : K) := by
    have hc : npClip m1 0 ((max 0 ((nMax : Int) - existing) : Int) : K) ≤ (n1 : K) := by
      rw [← h1]; exact Int.le_ceil _
    rcases hcut1 with hcut1 | hle
    · have hlt : (n1 : K) < ((max 0 ((nMax : Int) - existing) : Int) : K) := by
        have : n1 < max 0 ((nMax : Int) - existing) := by omega
        exact_mod_cast this
      unfold npClip at hc
      rcases min_le_iff.1 hc with hc | hc
      · exact le_trans (le_max_left _ _) hc
      · linarith
    · have h0 : 0 ≤ n1 := by
        rw [← h1]; exact Int.ceil_nonneg (npClip_mem (by exact_mod_cast le_max_left _ _)).1
      refine le_trans ?_ (show (0 : K) ≤ (n1 : K) by exact_mod_cast h0)
      simp only [getOptimalSampleSizes] at hm
      split at hm
      · simp only [Prod.mk.injEq] at hm
        rw [← hm.1]; linarith
      · simp only [Prod.mk.injEq] at hm
        rw [← hm.1]
  have r1 : 0 < (n1 : K) + existing := by linarith
  have r2 : 0 < (n2 : K) := by linarith
  refine ⟨by exact_mod_cast r1, by exact_mod_cast r2, ?_⟩
  have hs2 : 0 ≤ sigma ^ 2 := by positivity
  calc sigma ^ 2 / ((n1 : K) + existing) + sigma ^ 2 / (n2 : K)
      ≤ sigma ^ 2 / (m1 + existing) + sigma ^ 2 / m2 :=
        add_le_add (div_le_div_of_nonneg_left hs2 p3 (by linarith))
          (div_le_div_of_nonneg_left hs2 p2 q2)
    _ = 1 / F := hvar
    _ = (max ei (1 / 100000000) / (zc + zp)) ^ 2 := by
        rw [hFdef, div_pow, div_pow, one_div_div]

/-- C60. `next_multiple(n, base)` is a multiple of `base`, at least `n`, and the smallest such. -/
theorem C60_next_multiple (n base : Nat) (hb : 1 ≤ base) :
    (base : Int) ∣ nextMultiple (K := K) n base ∧ (n : Int) ≤ nextMultiple (K := K) n base ∧
      ∀ m : Int, (base : Int) ∣ m → (n : Int) ≤ m → nextMultiple (K := K) n base ≤ m := by
  have hbK : (0 : K) < base := by exact_mod_cast hb
  refine ⟨⟨_, Int.mul_comm _ _⟩, ?_, ?_⟩
  · have h := Int.le_ceil ((n : K) / (base : K))
    rw [div_le_iff₀ hbK] at h
    have : ((n : Int) : K) ≤ ((nextMultiple (K := K) n base : Int) : K) := by
      simpa [nextMultiple] using h
    exact_mod_cast this
  · rintro m ⟨k, rfl⟩ hm
    have hk : ⌈((n : K) / (base : K))⌉ ≤ k := by
      apply Int.ceil_le.2
      rw [div_le_iff₀ hbK]
      have : ((n : Int) : K) ≤ (((base : Int) * k : Int) : K) := by exact_mod_cast hm
      push_cast at this
      linarith
    rw [nextMultiple, Int.mul_comm]
    exact Int.mul_le_mul_of_nonneg_left hk (by positivity)

section examples

/-- Non-vacuity for C18: noise 2, two existing evaluations, expected improvement 1, both quantiles 1:
30 further evaluations of the current point, 32 of the candidate; none of the limits is hit. -/
example : getAcceptanceSampleSizes (2 : ℚ) 2 1 1 1 4 50 = (30, 32) ∧
    (30 : Int) + (2 : Nat) < (50 : Nat) ∧ (32 : Int) < (50 : Nat) := by
  refine ⟨by decide +kernel, by decide, by decide⟩

/-- The second case: the current point already has more evaluations than needed. -/
example : getAcceptanceSampleSizes (1 : ℚ) 40 1 1 1 4 30 = (0, 5) := by decide +kernel

example : nextMultiple (K := ℚ) 7 3 = 9 ∧ nextMultiple (K := ℚ) 6 3 = 6 ∧
    nextMultiple (K := ℚ) 0 4 = 0 := by decide +kernel

end examples

end Tranquilo
