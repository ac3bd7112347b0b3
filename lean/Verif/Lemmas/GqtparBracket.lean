import Verif.Lemmas.Gqtpar

/-!
# The bracket for the multiplier
-/

namespace Tranquilo

variable {K : Type} [Field K] [LinearOrder K] [IsStrictOrderedRing K] {n : Nat}

/-- Cauchy-Schwarz for a positive semidefinite form. -/
theorem psd_cauchy {a : Mat K n n} (hs : SymmetricMat a) (hpsd : ∀ y : Vec K n, 0 ≤ quadForm a y)
    (x y : Vec K n) : dot (matVec a x) y ^ 2 ≤ quadForm a x * quadForm a y := by
  by_cases hy : quadForm a y = 0
  · have hc : dot (matVec a x) y = 0 := by
      by_contra hne
      have h := hpsd (fun i => x i + (-(quadForm a x + 1) / (2 * dot (matVec a x) y)) * y i)
      rw [quadForm_axpy a hs, hy] at h
      have e : quadForm a x + 2 * (-(quadForm a x + 1) / (2 * dot (matVec a x) y))
          * dot (matVec a x) y + (-(quadForm a x + 1) / (2 * dot (matVec a x) y)) ^ 2 * 0 = -1 := by
        field_simp
        ring
      rw [e] at h
      linarith
    rw [hc, hy]; simp
  · have hy' : 0 < quadForm a y := lt_of_le_of_ne (hpsd y) (Ne.symm hy)
    have h := hpsd (fun i => x i + (-(dot (matVec a x) y / quadForm a y)) * y i)
    rw [quadForm_axpy a hs] at h
    have e : quadForm a x + 2 * (-(dot (matVec a x) y / quadForm a y)) * dot (matVec a x) y
        + (-(dot (matVec a x) y / quadForm a y)) ^ 2 * quadForm a y
        = quadForm a x - dot (matVec a x) y ^ 2 / quadForm a y := by
      field_simp
      ring
    rw [e, sub_nonneg, div_le_iff₀ hy'] at h
    exact h

/-- A positive semidefinite matrix with form at most `c` does not stretch vectors by more than `c`. -/
theorem psd_norm_le {a : Mat K n n} (hs : SymmetricMat a) (hpsd : ∀ y : Vec K n, 0 ≤ quadForm a y)
    {c : K} (hc : ∀ y : Vec K n, quadForm a y ≤ c * dot y y) (x : Vec K n) :
    dot (matVec a x) (matVec a x) ≤ c ^ 2 * dot x x := by
  set y := matVec a x with hy
  by_cases h0 : dot y y = 0
  · rw [h0]; exact mul_nonneg (sq_nonneg _) (dot_self_nonneg x)
  · have hpos : 0 < dot y y := lt_of_le_of_ne (dot_self_nonneg y) (Ne.symm h0)
    have h1 := psd_cauchy hs hpsd x y
    rw [← hy] at h1
    have hx := hc x
    have hyy := hc y
    have h2 : quadForm a x * quadForm a y ≤ (c * dot x x) * (c * dot y y) :=
      mul_le_mul hx hyy (hpsd y) ((hpsd x).trans hx)
    have h3 : dot y y * dot y y ≤ (c ^ 2 * dot x x) * dot y y := by nlinarith
    exact le_of_mul_le_mul_right h3 hpos

theorem norm2_sq {root : K → K} (hroot : SqrtSpec root) (v : Vec K n) :
    0 ≤ norm2 root v ∧ norm2 root v ^ 2 = dot v v := by
  have h := hroot _ (dot_self_nonneg v)
  exact ⟨h.1, by rw [sq]; exact h.2⟩

/-- A direction in which the shifted form is at most `c` bounds every multiplier from below. -/
theorem multiplier_ge_of_form {g : Vec K n} {h : Mat K n n} {x : Vec K n} {mu : K}
    (m : IsMultiplier g h x mu) {lam c : K} {v : Vec K n} (hv : 0 < dot v v)
    (hc : quadForm (addDiag h lam) v ≤ c) : lam - c / dot v v ≤ mu := by
  have h1 := isMultiplier_psd m v
  rw [quadForm_addDiag] at h1 hc
  rw [sub_le_iff_le_add, ← sub_le_iff_le_add', le_div_iff₀ hv]
  linarith

/-- If the stationary point for `lam` has norm at least one, every multiplier is at least `lam`. -/
theorem multiplier_ge_of_outside {g : Vec K n} {h : Mat K n n} {x : Vec K n}
    {mu : K} (m : IsMultiplier g h x mu) {lam : K} {p : Vec K n}
    (hpsd : ∀ y : Vec K n, 0 ≤ quadForm (addDiag h lam) y)
    (hp : matVec (addDiag h lam) p = fun i => -(g i)) (hout : 1 ≤ dot p p) : lam ≤ mu := by
  by_contra hlt
  push Not at hlt
  have hx := isMultiplier_matVec m
  have hball : dot x x ≤ 1 := by
    have := m.inBall
    rwa [NormLe, sumSq_eq_dot, one_pow] at this
  -- (H + lam) (p - x) = (mu - lam) x and (H + mu) (p - x) = (mu - lam) p
  have hA : matVec (addDiag h lam) (fun i => p i + (-1) * x i) = fun i => (mu - lam) * x i := by
    rw [matVec_axpy, hp]
    funext i
    have h1 := congrFun hx i
    simp only [matVec_addDiag] at h1 ⊢
    linear_combination -h1
  have hB : matVec (addDiag h mu) (fun i => p i + (-1) * x i) = fun i => (mu - lam) * p i := by
    rw [matVec_axpy, hx]
    funext i
    have h1 := congrFun hp i
    simp only [matVec_addDiag] at h1 ⊢
    linear_combination h1
  have h1 := hpsd (fun i => p i + (-1) * x i)
  have h2 := isMultiplier_psd m (fun i => p i + (-1) * x i)
  rw [quadForm_eq_dot, hA, dot_smul_right, dot_axpy] at h1
  rw [quadForm_eq_dot, hB, dot_smul_right, dot_axpy] at h2
  have h1' : dot p x - dot x x ≤ 0 := by nlinarith
  have h2' : dot p p - dot x p ≤ 0 := by nlinarith
  have hcomm := dot_comm p x
  have hz : dot (fun i => p i + (-1) * x i) (fun i => p i + (-1) * x i) = 0 := by
    refine le_antisymm ?_ (dot_self_nonneg _)
    rw [norm_axpy]; linarith
  have hpx := dot_self_eq_zero hz
  have hpeq : p = x := by
    funext i
    have := congrFun hpx i
    linarith
  rw [hpx] at hB
  have h0 : ∀ i, (mu - lam) * p i = 0 := by
    intro i
    have := congrFun hB i
    simp only [matVec, mul_zero, Finset.sum_const_zero] at this
    exact this.symm
  have hp0 : dot p p = 0 := by
    rw [dot]
    refine Finset.sum_eq_zero fun i _ => ?_
    rcases mul_eq_zero.1 (h0 i) with h3 | h3
    · exact absurd h3 (by linarith [hlt] : mu - lam < 0).ne
    · rw [h3, mul_zero]
  linarith

/-- If the stationary point for `lam ≥ 0` lies in the ball, every multiplier is at most `lam`. -/
theorem multiplier_le_of_inside {g : Vec K n} {h : Mat K n n} {x : Vec K n}
    {mu : K} (m : IsMultiplier g h x mu) {lam : K} {p : Vec K n} (hlam : 0 ≤ lam)
    (hpsd : ∀ y : Vec K n, 0 ≤ quadForm (addDiag h lam) y)
    (hp : matVec (addDiag h lam) p = fun i => -(g i)) (hin : dot p p < 1) : mu ≤ lam := by
  by_contra hlt
  push Not at hlt
  have hx := isMultiplier_matVec m
  have hone : dot x x = 1 := by
    have := m.complementary
    rw [sumSq_eq_dot] at this
    rcases mul_eq_zero.1 this with h1 | h1
    · linarith
    · linarith
  have hA : matVec (addDiag h lam) (fun i => p i + (-1) * x i) = fun i => (mu - lam) * x i := by
    rw [matVec_axpy, hp]
    funext i
    have h1 := congrFun hx i
    simp only [matVec_addDiag] at h1 ⊢
    linear_combination -h1
  have h1 := hpsd (fun i => p i + (-1) * x i)
  rw [quadForm_eq_dot, hA, dot_smul_right, dot_axpy] at h1
  have h1' : 0 ≤ dot p x - dot x x := by nlinarith
  have hcs := cauchy_schwarz p x
  rw [hone, mul_one] at hcs
  nlinarith

/-- `_get_new_lambda_candidate` is never negative. -/
theorem newLambda_nonneg {root : K → K} (hroot : SqrtSpec root) (lo up : K) :
    0 ≤ newLambda root lo up := le_max_of_le_left (hroot _ (le_max_left _ _)).1

end Tranquilo
