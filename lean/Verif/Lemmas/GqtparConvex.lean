import Verif.Lemmas.GqtparLoop

/-!
# The loop of gqtpar on convex models
-/

namespace Tranquilo

variable {K : Type} [Field K] [LinearOrder K] [IsStrictOrderedRing K] {n : Nat}

/-- Equal images under a matrix with a Cholesky factor come from equal vectors. -/
theorem upperFactor_cancel {u a : Mat K n n} (hu : UpperFactor u a) {x y : Vec K n}
    (hxy : matVec a x = matVec a y) : x = y := by
  by_contra hne
  have hd : (fun i => x i + -1 * y i) ≠ fun _ => 0 := fun h0 => hne (funext fun i => by
    have := congrFun h0 i
    linarith)
  have hpos := upperFactor_pos hu hd
  rw [quadForm_eq_dot, matVec_axpy, hxy] at hpos
  have : dot (fun i => x i + -1 * y i) (fun i => matVec a y i + -1 * matVec a y i) = 0 := by
    have e : (fun i => matVec a y i + -1 * matVec a y i) = fun _ => 0 := by funext i; ring
    rw [e, dot_zero_right]
  linarith

/-- The norm that enters the Newton step: `|w|² = p' A⁻¹ p`. -/
theorem newton_weight {ext : GqExternal K n} (hext : GqSpec ext) {u a : Mat K n n} (hu : UpperFactor u a)
    (p : Vec K n) : ∃ v : Vec K n, matVec a v = p ∧
      dot (ext.solveTransposed u p) (ext.solveTransposed u p) = dot v p := by
  set w := ext.solveTransposed u p with hw
  have hwp : ∀ i, ∑ j, u j i * w j = p i := hext.solveTransposed u a p hu
  set v := ext.solveUpper u w with hv
  have hvw : ∀ i, ∑ j, u i j * v j = w i := hext.solveUpper u a w hu
  have hav : matVec a v = p := by
    funext i
    simp only [matVec]
    have h1 : ∀ j, a i j * v j = ∑ l, u l i * (u l j * v j) := fun j => by
      rw [← hu.2.2 i j, Finset.sum_mul]
      exact Finset.sum_congr rfl fun l _ => by ring
    rw [Finset.sum_congr rfl fun j _ => h1 j, Finset.sum_comm, ← hwp i]
    refine Finset.sum_congr rfl fun l _ => ?_
    rw [← Finset.mul_sum, hvw l]
  refine ⟨v, hav, ?_⟩
  have h2 := quadForm_upperFactor hu v
  have e : matVec u v = w := funext hvw
  rw [e, quadForm_eq_dot, hav] at h2
  exact h2.symm

/-- Newton's step on the reciprocal of the norm of the point leads to a factor whose point is not inside of the ball: the
reciprocal is concave in the factor. `hkey` says that the form of `A (A + δ)` is not negative. -/
theorem newton_outside_core {root : K → K} (hroot : SqrtSpec root) {ext : GqExternal K n} (hext : GqSpec ext)
    {g : Vec K n} {h u : Mat K n n} (hs : SymmetricMat h) {lam : K} (hu : UpperFactor u (addDiag h lam))
    {p : Vec K n} (hp : matVec (addDiag h lam) p = fun i => -(g i)) (hPpos : 0 < norm2 root p)
    (hkey : ∀ e : Vec K n, 0 ≤ dot (matVec (addDiag h lam) e) (matVec (addDiag h lam) e)
      + (norm2 root p / norm2 root (ext.solveTransposed u p)) ^ 2 * (norm2 root p - 1)
        * dot e (matVec (addDiag h lam) e)) {q : Vec K n}
    (hq : matVec (addDiag h (newtonStep lam (norm2 root p) (norm2 root (ext.solveTransposed u p)))) q
      = fun i => -(g i)) : 1 ≤ dot q q := by
  obtain ⟨v, hv, hw⟩ := newton_weight hext hu p
  obtain ⟨hP0, hP⟩ := norm2_sq hroot p
  obtain ⟨hW0, hW⟩ := norm2_sq hroot (ext.solveTransposed u p)
  rw [hw] at hW
  set P := norm2 root p with hPdef
  set W := norm2 root (ext.solveTransposed u p) with hWdef
  have hppos : 0 < dot p p := by rw [← hP]; positivity
  have hvne : v ≠ fun _ => 0 := by
    rintro rfl
    have : p = fun _ => 0 := by rw [← hv]; funext i; simp [matVec]
    rw [this, dot_zero_left] at hppos
    exact lt_irrefl _ hppos
  have hsymm := addDiag_symm hs lam
  have hvp : 0 < dot v p := by
    have := upperFactor_pos hu hvne
    rwa [quadForm_eq_dot, hv] at this
  have hWpos : 0 < W := by
    rcases hW0.eq_or_lt with h0 | h0
    · rw [← h0] at hW; simp only [ne_eq, OfNat.ofNat_ne_zero, not_false_eq_true, zero_pow] at hW; linarith
    · exact h0
  set δ := (P / W) ^ 2 * (P - 1) with hδ
  have hnewton : newtonStep lam P W = lam + δ := rfl
  rw [hnewton] at hq
  set t := ext.choSolve u q with ht
  have hat : matVec (addDiag h lam) t = q := funext fun i => hext.choSolve u _ q hu i
  have hpq : p = fun i => q i + δ * t i := by
    apply upperFactor_cancel hu
    rw [matVec_axpy, hat, hp, ← hq]
    funext i
    simp only [matVec_addDiag]
    ring
  have hsum : ∀ y : Vec K n, dot y p = dot y q + δ * dot y t := fun y => by
    conv_lhs => rw [hpq]
    exact dot_axpy_right q t y δ
  -- the form of I + δ A⁻¹
  have hform : ∀ x y : K, 0 ≤ x ^ 2 * dot q p + 2 * (x * y) * dot p p + y ^ 2 * (dot p p + δ * dot v p) := by
    intro x y
    have h2 := hkey (fun i => (fun i => x * t i) i + y * v i)
    have hmv : matVec (addDiag h lam) (fun i => (fun i => x * t i) i + y * v i)
        = fun i => (fun i => x * q i) i + y * p i := by
      rw [matVec_axpy, hv]
      funext i
      have : matVec (addDiag h lam) (fun i => x * t i) i = x * q i := by
        rw [← hat]
        simp only [matVec, Finset.mul_sum]
        exact Finset.sum_congr rfl fun j _ => by ring
      simp only [this]
    rw [hmv, norm_axpy, dot_smul_left, dot_smul_left, dot_smul_right, dot_axpy_right, dot_axpy, dot_axpy,
      dot_smul_left, dot_smul_left, dot_smul_right] at h2
    have h3 : dot v q = dot t p := by
      rw [← hat, ← hv, dot_comm, ← matVec_symm _ hsymm, dot_comm]
    have h4 := hsum q
    have h5 : dot p p = dot q p + δ * dot t p := by
      rw [hsum p, dot_comm p q, dot_comm p t]
    have h6 : dot v (fun i => x * q i) = x * dot v q := dot_smul_right _ _ _
    rw [h3] at h6
    rw [dot_comm t q, h6] at h2
    have e : x ^ 2 * dot q p + 2 * (x * y) * dot p p + y ^ 2 * (dot p p + δ * dot v p)
        = (x * (x * dot q q) + 2 * y * (x * dot q p) + y ^ 2 * dot p p)
          + δ * (x ^ 2 * dot q t + 2 * y * (x * dot t p) + y ^ 2 * dot v p) := by
      linear_combination x ^ 2 * h4 + 2 * x * y * h5
    rw [e]
    refine h2.trans_eq (by ring)
  have hB : dot p p + δ * dot v p = P ^ 3 := by
    rw [← hP, ← hW, hδ]; field_simp; ring
  have h1 := hform (P ^ 3) (-(P ^ 2))
  rw [hB, ← hP] at h1
  have h2 : 0 ≤ P ^ 6 * (dot q p - P) := by nlinarith
  have h3 : P ≤ dot q p := by
    by_contra hc
    push Not at hc
    have := mul_pos (pow_pos hPpos 6) (sub_pos.2 hc)
    nlinarith
  have h4 := cauchy_schwarz q p
  rw [← hP] at h4
  have h5 : P ^ 2 ≤ dot q p ^ 2 := pow_le_pow_left₀ hP0 h3 2
  have h6 : 1 * P ^ 2 ≤ dot q q * P ^ 2 := by linarith
  exact le_of_mul_le_mul_right h6 (by positivity)

/-- A Newton step from a factor whose point is not inside of the ball leads to a factor whose point is not inside of the
ball. -/
theorem newton_stays_outside {root : K → K} (hroot : SqrtSpec root) {ext : GqExternal K n} (hext : GqSpec ext)
    {g : Vec K n} {h u : Mat K n n} (hs : SymmetricMat h) {lam : K} (hu : UpperFactor u (addDiag h lam))
    {p : Vec K n} (hp : matVec (addDiag h lam) p = fun i => -(g i)) (hout : 1 ≤ norm2 root p) {q : Vec K n}
    (hq : matVec (addDiag h (newtonStep lam (norm2 root p) (norm2 root (ext.solveTransposed u p)))) q
      = fun i => -(g i)) : 1 ≤ dot q q := by
  refine newton_outside_core hroot hext hs hu hp (lt_of_lt_of_le one_pos hout) (fun e => ?_) hq
  have h1 := upperFactor_psd hu e
  rw [quadForm_eq_dot] at h1
  exact add_nonneg (dot_self_nonneg _) (mul_nonneg (mul_nonneg (sq_nonneg _) (by linarith)) h1)

/-- A Newton step from a factor whose point is inside of the ball leads to a factor whose point is not inside, if the
matrix with the new factor is positive definite. -/
theorem newton_from_inside {root : K → K} (hroot : SqrtSpec root) {ext : GqExternal K n} (hext : GqSpec ext)
    {g : Vec K n} {h u : Mat K n n} (hs : SymmetricMat h) {lam : K} (hu : UpperFactor u (addDiag h lam))
    {p : Vec K n} (hp : matVec (addDiag h lam) p = fun i => -(g i)) (hPpos : 0 < norm2 root p)
    (hin : norm2 root p < 1)
    (hpsd : ∀ y : Vec K n, 0 ≤ quadForm
      (addDiag h (newtonStep lam (norm2 root p) (norm2 root (ext.solveTransposed u p)))) y) {q : Vec K n}
    (hq : matVec (addDiag h (newtonStep lam (norm2 root p) (norm2 root (ext.solveTransposed u p)))) q
      = fun i => -(g i)) : 1 ≤ dot q q := by
  refine newton_outside_core hroot hext hs hu hp hPpos (fun e => ?_) hq
  have h1 := hpsd e
  set δ := (norm2 root p / norm2 root (ext.solveTransposed u p)) ^ 2 * (norm2 root p - 1) with hδ
  have hδ0 : δ ≤ 0 := mul_nonpos_of_nonneg_of_nonpos (sq_nonneg _) (by linarith)
  have hnewton : newtonStep lam (norm2 root p) (norm2 root (ext.solveTransposed u p)) = lam + δ := rfl
  rw [hnewton, quadForm_eq_dot] at h1
  set f := matVec (addDiag h (lam + δ)) e with hf
  have hAe : matVec (addDiag h lam) e = fun i => f i + -δ * e i := by
    rw [hf]
    funext i
    simp only [matVec_addDiag]
    ring
  rw [hAe, norm_axpy, dot_axpy_right]
  have h2 := dot_self_nonneg f
  rw [dot_comm f e]
  nlinarith [mul_nonneg (neg_nonneg.2 hδ0) h1]

/-- The step to the boundary is the shorter one of two. -/
theorem stepLen_sq_le {ext : GqExternal K n} (hext : GqSpec ext) {x z : Vec K n} (hz : dot z z = 1)
    (hx : dot x x ≤ 1) : stepLen ext x z ^ 2 ≤ 1 - dot x x := by
  have hr := hext.roots (dot z z) (2 * dot x z) (dot x x - 1) (by rw [hz]; exact one_ne_zero)
    (by rw [hz]; nlinarith [sq_nonneg (dot x z)]) 0
  rw [hz] at hr
  simp only [stepLen]
  rw [hz]
  set r := ext.roots 1 (2 * dot x z) (dot x x - 1)
  have hprod : r.1 * r.2 = dot x x - 1 := by linear_combination -hr
  have habs : |r.1| * |r.2| = 1 - dot x x := by
    rw [← abs_mul, hprod, abs_of_nonpos (by linarith)]; ring
  split
  · rename_i h1
    rw [← sq_abs]
    nlinarith [abs_nonneg r.1]
  · rename_i h1
    push Not at h1
    rw [← sq_abs]
    nlinarith [abs_nonneg r.2]

/-- The estimate for all factors that gqtpar tries when the gradient is longer than the bound `c` for the curvature:
whatever step to the boundary it makes, the error is at most 53 percent. -/
theorem inside_error {g : Vec K n} {h : Mat K n n} (hs : SymmetricMat h) (hconv : PosSemidef h) {c mu : K}
    (hc : ∀ y : Vec K n, quadForm h y ≤ c * dot y y) (hc0 : 0 ≤ c) (hmu : 0 ≤ mu) (hM : mu ^ 2 ≤ dot g g - 999 / 1000 * c ^ 2)
    {p : Vec K n} (hp : matVec (addDiag h mu) p = fun i => -(g i)) :
    (c + mu) * (1 - dot p p) ≤ 53 / 100 * (quadForm (addDiag h mu) p + mu) := by
  have hpsd : ∀ y : Vec K n, 0 ≤ quadForm (addDiag h mu) y := fun y => by
    rw [quadForm_addDiag]
    have := hconv y
    rw [sum_form_eq] at this
    have := mul_nonneg hmu (dot_self_nonneg y)
    linarith
  have hbound : ∀ y : Vec K n, quadForm (addDiag h mu) y ≤ (c + mu) * dot y y := fun y => by
    rw [quadForm_addDiag]; linarith [hc y]
  set Q := quadForm (addDiag h mu) p with hQ
  have hsymm := addDiag_symm hs mu
  have hs0 : 0 ≤ c + mu := by linarith
  -- |A p|² ≤ (c + mu) p'Ap
  have hgQ : dot g g ≤ (c + mu) * Q := by
    have h1 := psd_cauchy hsymm hpsd p (matVec (addDiag h mu) p)
    have h2 := hbound (matVec (addDiag h mu) p)
    have hAA : dot (matVec (addDiag h mu) p) (matVec (addDiag h mu) p) = dot g g := by
      rw [hp, dot_neg_left, dot_neg_right, neg_neg]
    rw [hAA] at h1 h2
    rcases (dot_self_nonneg g).eq_or_lt with h0 | h0
    · rw [← h0]; exact mul_nonneg hs0 (hpsd p)
    · have h3 : dot g g * dot g g ≤ dot g g * ((c + mu) * Q) := by
        nlinarith [mul_le_mul_of_nonneg_left h2 (hpsd p)]
      exact le_of_mul_le_mul_left h3 h0
  have hQp := hbound p
  rw [← hQ] at hQp
  rcases hs0.eq_or_lt with h0 | h0
  · rw [← h0, zero_mul]
    have := hpsd p
    positivity
  · have key : (c + mu) * (c + mu - 53 / 100 * mu) ≤ (c + mu) * (153 / 100 * Q) := by
      nlinarith [sq_nonneg (106 * mu - 147 / 2 * c), sq_nonneg c]
    have := le_of_mul_le_mul_left key h0
    linarith

end Tranquilo
