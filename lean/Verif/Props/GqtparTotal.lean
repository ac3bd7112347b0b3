import Verif.Props.GqtparConvex
import Verif.Props.GqtparWitness
import Verif.Props.SlowSolvers
import Mathlib.Algebra.Order.Archimedean.Basic

/-!
# C112: gqtpar ends with success on positive definite models
-/

namespace Tranquilo

variable {K : Type} [Field K] [LinearOrder K] [IsStrictOrderedRing K] {n : Nat}

/-- `(|p| / |w|)²` in the Newton step is at least the smallest curvature. -/
theorem newton_slope_ge {root : K → K} (hroot : SqrtSpec root) {ext : GqExternal K n} (hext : GqSpec ext)
    {h u : Mat K n n} {a lam : K} (ha : ∀ v : Vec K n, a * dot v v ≤ quadForm h v)
    (hpos : 0 < a + lam) (hu : UpperFactor u (addDiag h lam)) {p : Vec K n} (hPpos : 0 < norm2 root p) :
    a + lam ≤ (norm2 root p / norm2 root (ext.solveTransposed u p)) ^ 2 := by
  obtain ⟨v, hv, hw⟩ := newton_weight hext hu p
  obtain ⟨hP0, hP⟩ := norm2_sq hroot p
  obtain ⟨hW0, hW⟩ := norm2_sq hroot (ext.solveTransposed u p)
  rw [hw] at hW
  have hppos : 0 < dot p p := by rw [← hP]; positivity
  have h1 : (a + lam) * dot v v ≤ dot v p := by
    have h2 := ha v
    have h3 : quadForm (addDiag h lam) v = dot v p := by rw [quadForm_eq_dot, hv]
    rw [quadForm_addDiag] at h3
    linarith
  have h2 : (a + lam) * dot v p ≤ dot p p := by
    have h3 := cauchy_schwarz v p
    have h4 : 0 ≤ dot v p := (mul_nonneg hpos.le (dot_self_nonneg v)).trans h1
    by_contra hc
    push Not at hc
    have h5 : 0 < dot v p := by
      rcases h4.eq_or_lt with h0 | h0
      · rw [← h0, mul_zero] at hc; linarith
      · exact h0
    have h6 : dot v p * dot v p * (a + lam) ≤ (a + lam) * dot v v * dot p p := by nlinarith
    have h7 : (a + lam) * dot v v * dot p p ≤ dot v p * dot p p := mul_le_mul_of_nonneg_right h1 hppos.le
    nlinarith
  have hvne : v ≠ fun _ => 0 := by
    rintro rfl
    have : p = fun _ => 0 := by rw [← hv]; funext i; simp [matVec]
    rw [this, dot_zero_left] at hppos
    exact lt_irrefl _ hppos
  have hvp : 0 < dot v p := by
    have := upperFactor_pos hu hvne
    rwa [quadForm_eq_dot, hv] at this
  rw [div_pow, hW, hP, le_div_iff₀ hvp]
  exact h2

/-- The factor grows at least geometrically while the points are outside: `kEasy` is the tolerance for the norm. -/
theorem newton_growth {root : K → K} (hroot : SqrtSpec root) {ext : GqExternal K n} (hext : GqSpec ext)
    {h u : Mat K n n} {a lam kEasy : K} (ha : ∀ v : Vec K n, a * dot v v ≤ quadForm h v)
    (hpos : 0 < a + lam) (hu : UpperFactor u (addDiag h lam)) {p : Vec K n} (hkEasy : 0 ≤ kEasy)
    (hout : 1 + kEasy < norm2 root p) :
    (1 + kEasy) * (a + lam) ≤ a + newtonStep lam (norm2 root p) (norm2 root (ext.solveTransposed u p)) := by
  have h3 := newton_slope_ge hroot hext ha hpos hu (p := p) (by linarith)
  simp only [newtonStep]
  have h4 := mul_le_mul h3 (by linarith : kEasy ≤ norm2 root p - 1) hkEasy (sq_nonneg _)
  linarith

/-- A stationary point outside of the ball bounds the factor. -/
theorem outside_factor_le {root : K → K} (hroot : SqrtSpec root) {g : Vec K n} {h : Mat K n n}
    {a lam : K} (ha : ∀ v : Vec K n, a * dot v v ≤ quadForm h v) (hpos : 0 < a + lam) {p : Vec K n}
    (hp : matVec (addDiag h lam) p = fun i => -(g i)) (hout : 1 ≤ dot p p) : a + lam ≤ norm2 root g := by
  obtain ⟨hG0, hG⟩ := norm2_sq hroot g
  have h1 : (a + lam) * dot p p ≤ -dot g p := by
    have h2 : quadForm (addDiag h lam) p = -dot g p := by
      rw [quadForm_eq_dot, hp, dot_neg_right, dot_comm]
    rw [quadForm_addDiag] at h2
    linarith [ha p]
  have h2 := cauchy_schwarz g p
  rw [← hG] at h2
  have hpp := dot_self_nonneg p
  have h3 : ((a + lam) * dot p p) ^ 2 ≤ (dot g p) ^ 2 := by
    rw [← neg_sq (dot g p)]
    exact pow_le_pow_left₀ (mul_nonneg hpos.le hpp) h1 2
  have h4 : (a + lam) ^ 2 * dot p p ≤ norm2 root g ^ 2 := by
    have : ((a + lam) ^ 2 * dot p p) * dot p p ≤ norm2 root g ^ 2 * dot p p := by nlinarith
    exact le_of_mul_le_mul_right this (by linarith)
  by_contra hc
  push Not at hc
  have h5 : norm2 root g ^ 2 < (a + lam) ^ 2 := pow_lt_pow_left₀ hc hG0 two_ne_zero
  nlinarith [mul_nonneg (sq_nonneg (a + lam)) (sub_nonneg.2 hout)]

/-- One pass from a factor whose point is outside: success, or the factor has grown by the share `kEasy`. -/
theorem left_progress {root : K → K} (hroot : SqrtSpec root) {ext : GqExternal K n} (hext : GqSpec ext)
    {g : Vec K n} {h : Mat K n n} (hs : SymmetricMat h) {threshold kEasy kHard : K} (hg : threshold < norm2 root g)
    {a : K} (ha0 : 0 < a) (ha : ∀ v : Vec K n, a * dot v v ≤ quadForm h v) (hkEasy : 0 ≤ kEasy) {s : GqState K n}
    (hleft : GqLeft g h s) :
    (gqIteration root ext g h threshold kEasy kHard s).converged = true ∨
    (1 + kEasy) * (a + s.lam) ≤ a + (gqIteration root ext g h threshold kEasy kHard s).lam := by
  have hpd : ∀ v : Vec K n, 0 < dot v v → 0 < quadForm h v := fun v hv =>
    (mul_pos ha0 hv).trans_le (ha v)
  have hinfo : (ext.chol (addDiag h s.lam)).info = 0 :=
    chol_of_posDef hext (addDiag_symm hs _) (posDef_addDiag hpd hleft.nonneg)
  have hu := hext.chol_ok _ (addDiag_symm hs s.lam) hinfo
  have e : refactorize ext h s = { s with hPlus := addDiag h s.lam, fac := ext.chol (addDiag h s.lam) } := by
    simp [refactorize, hleft.fresh]
  simp only [gqIteration, e, hinfo, hg, and_self, if_true]
  set p := ext.choSolve (ext.chol (addDiag h s.lam)).upper (fun i => -(g i)) with hp
  have hpm : matVec (addDiag h s.lam) p = fun i => -(g i) := choSolve_matVec hext hu
  have hpp := hleft.outside p hpm
  have hx : ¬ norm2 root p < 1 := fun hlt => absurd ((norm2_lt_one hroot).1 hlt) (not_lt.2 hpp)
  simp only [findNew, ← hp, hx, if_false]
  by_cases heasy : |norm2 root p - 1| ≤ kEasy
  · left; simp [heasy]
  · right
    rw [abs_of_nonneg (by linarith [not_lt.1 hx])] at heasy
    exact newton_growth hroot hext ha (by linarith [hleft.nonneg]) hu hkEasy (by linarith)

/-- The loop from a factor whose point is outside ends with success in time. -/
theorem left_terminates {root : K → K} (hroot : SqrtSpec root) {ext : GqExternal K n} (hext : GqSpec ext)
    {g : Vec K n} {h : Mat K n n} (hs : SymmetricMat h) {threshold kEasy kHard : K} (hg : threshold < norm2 root g)
    {a : K} (ha0 : 0 < a) (ha : ∀ v : Vec K n, a * dot v v ≤ quadForm h v) (hkEasy : 0 ≤ kEasy) (m : Nat) :
    ∀ (s : GqState K n) (k : Nat), GqLeft g h s → norm2 root g < (a + s.lam) * (1 + kEasy) ^ m →
      (gqLoop (gqIteration root ext g h threshold kEasy kHard) m k s).2.converged = true := by
  have hpd : ∀ v : Vec K n, 0 < dot v v → 0 < quadForm h v := fun v hv =>
    (mul_pos ha0 hv).trans_le (ha v)
  have hbound : ∀ s : GqState K n, GqLeft g h s → a + s.lam ≤ norm2 root g := fun s hleft => by
    have hinfo : (ext.chol (addDiag h s.lam)).info = 0 :=
      chol_of_posDef hext (addDiag_symm hs _) (posDef_addDiag hpd hleft.nonneg)
    have hu := hext.chol_ok _ (addDiag_symm hs s.lam) hinfo
    have hpm := choSolve_matVec (g := g) hext hu
    exact outside_factor_le hroot ha (by linarith [hleft.nonneg]) hpm (hleft.outside _ hpm)
  induction m with
  | zero =>
    intro s k hleft hlt
    rw [pow_zero, mul_one] at hlt
    exact absurd (hbound s hleft) (not_le.2 hlt)
  | succ m ih =>
    intro s k hleft hlt
    simp only [gqLoop]
    by_cases hc : (gqIteration root ext g h threshold kEasy kHard s).converged = true
    · simp [hc]
    · simp only [hc, Bool.false_eq_true, if_false]
      refine ih _ _ (left_next hroot hext hs hg hpd hleft) (hlt.trans_le ?_)
      have := (left_progress (kHard := kHard) hroot hext hs hg ha0 ha hkEasy hleft).resolve_left hc
      rw [pow_succ, ← mul_assoc, mul_right_comm]
      have h0 : 0 ≤ (1 + kEasy) ^ m := pow_nonneg (by linarith) m
      nlinarith [mul_le_mul_of_nonneg_right this h0]

/-- A loop that has converged stays so with a larger limit. -/
theorem gqLoop_more (step : GqState K n → GqState K n) (m : Nat) : ∀ (m' : Nat) (k : Nat) (s : GqState K n), m ≤ m' →
    s.converged = false → (gqLoop step m k s).2.converged = true → (gqLoop step m' k s).2.converged = true := by
  induction m with
  | zero => intro m' k s _ hc h; simp [gqLoop, hc] at h
  | succ m ih =>
    intro m' k s hm hc h
    obtain ⟨m', rfl⟩ : ∃ j, m' = j + 1 := ⟨m' - 1, by omega⟩
    simp only [gqLoop] at h ⊢
    by_cases hs : (step s).converged = true
    · simp [hs]
    · simp only [hs, Bool.false_eq_true, if_false] at h ⊢
      exact ih _ _ _ (by omega) (by simpa using hs) h

/-- The stationary points of larger factors are shorter: if one is not inside of the ball, those of smaller factors are
not inside either. -/
theorem outside_mono {ext : GqExternal K n} (hext : GqSpec ext) {g : Vec K n} {h : Mat K n n} (hs : SymmetricMat h)
    (hpd : ∀ v : Vec K n, 0 < dot v v → 0 < quadForm h v) {lam nu : K} (h0 : 0 ≤ lam) (hle : lam ≤ nu)
    (hout : ∀ q, matVec (addDiag h nu) q = (fun i => -(g i)) → 1 ≤ dot q q) (q : Vec K n)
    (hq : matVec (addDiag h lam) q = fun i => -(g i)) : 1 ≤ dot q q := by
  have hu := hext.chol_ok _ (addDiag_symm hs lam)
    (chol_of_posDef hext (addDiag_symm hs _) (posDef_addDiag hpd h0))
  have hu' := hext.chol_ok _ (addDiag_symm hs nu)
    (chol_of_posDef hext (addDiag_symm hs _) (posDef_addDiag hpd (h0.trans hle)))
  have hr := choSolve_matVec (g := g) hext hu'
  set r := ext.choSolve (ext.chol (addDiag h nu)).upper (fun i => -(g i)) with hrdef
  set w := ext.choSolve (ext.chol (addDiag h lam)).upper r with hwdef
  have hw : matVec (addDiag h lam) w = r := funext fun i => hext.choSolve _ _ r hu i
  have hqr : q = fun i => r i + (nu - lam) * w i := by
    apply upperFactor_cancel hu
    rw [matVec_axpy, hw, hq, ← hr]
    funext i
    simp only [matVec_addDiag]
    ring
  have h1 := hout r hr
  have h2 := upperFactor_psd hu w
  rw [quadForm_eq_dot, hw] at h2
  rw [hqr, norm_axpy, dot_comm r w]
  have h3 := mul_nonneg (sub_nonneg.2 hle) h2
  have h4 := mul_nonneg (sq_nonneg (nu - lam)) (dot_self_nonneg w)
  linarith

/-- `(|p| / |w|)²` in the Newton step is at most the largest curvature. -/
theorem newton_slope_le {root : K → K} (hroot : SqrtSpec root) {ext : GqExternal K n} (hext : GqSpec ext)
    {h u : Mat K n n} (hs : SymmetricMat h) {c lam : K} (hc : ∀ v : Vec K n, quadForm h v ≤ c * dot v v)
    (hu : UpperFactor u (addDiag h lam)) {p : Vec K n} (hPpos : 0 < norm2 root p) :
    (norm2 root p / norm2 root (ext.solveTransposed u p)) ^ 2 ≤ c + lam := by
  obtain ⟨v, hv, hw⟩ := newton_weight hext hu p
  obtain ⟨hP0, hP⟩ := norm2_sq hroot p
  obtain ⟨hW0, hW⟩ := norm2_sq hroot (ext.solveTransposed u p)
  rw [hw] at hW
  have hppos : 0 < dot p p := by rw [← hP]; positivity
  have hvne : v ≠ fun _ => 0 := by
    rintro rfl
    have : p = fun _ => 0 := by rw [← hv]; funext i; simp [matVec]
    rw [this, dot_zero_left] at hppos
    exact lt_irrefl _ hppos
  have hvp : 0 < dot v p := by
    have := upperFactor_pos hu hvne
    rwa [quadForm_eq_dot, hv] at this
  rw [div_pow, hW, hP, div_le_iff₀ hvp]
  have h1 := psd_cauchy (addDiag_symm hs lam) (upperFactor_psd hu) v p
  rw [hv, quadForm_eq_dot _ v, hv] at h1
  have h2 : quadForm (addDiag h lam) p ≤ (c + lam) * dot p p := by
    rw [quadForm_addDiag]
    linarith [hc p]
  have h3 : dot p p * dot p p ≤ ((c + lam) * dot v p) * dot p p := by
    nlinarith [mul_le_mul_of_nonneg_left h2 hvp.le]
  exact le_of_mul_le_mul_right h3 hppos

/-- A state whose factorization is reused, and for which the next fresh factor has its point outside. -/
structure GqStale (root : K → K) (ext : GqExternal K n) (g : Vec K n) (h : Mat K n n) (u : Mat K n n) (nu : K)
    (s : GqState K n) : Prop where
  already : s.already = true
  info : s.fac.info = 0
  factor : s.fac.upper = u
  lower_nonneg : 0 ≤ s.lower
  lower : s.lower ≤ nu
  lam : s.lam ≤ nu
  chol : (ext.chol (addDiag h s.lam)).info = 0

/-- Passes that reuse the factorization subtract the same number from the factor each time, so that they end, and the
loop ends with success after at most `m` more passes. -/
theorem stale_terminates {root : K → K} (hroot : SqrtSpec root) {ext : GqExternal K n} (hext : GqSpec ext)
    {g : Vec K n} {h : Mat K n n} (hs : SymmetricMat h) {threshold kEasy kHard : K} (hg : threshold < norm2 root g)
    {a : K} (ha0 : 0 < a) (ha : ∀ v : Vec K n, a * dot v v ≤ quadForm h v) (hkEasy : 0 ≤ kEasy) {m : Nat}
    (hm : norm2 root g < a * (1 + kEasy) ^ m) {v0 : Vec K n} {b : K} (hv0 : 0 < dot v0 v0)
    (hb : quadForm h v0 ≤ b * dot v0 v0) {u : Mat K n n} {nu : K} (hnu0 : 0 ≤ nu)
    (hnu : ∀ q, matVec (addDiag h nu) q = (fun i => -(g i)) → 1 ≤ dot q q)
    (hin : norm2 root (ext.choSolve u fun i => -(g i)) < 1) {d : K}
    (hd : d = (norm2 root (ext.choSolve u fun i => -(g i))
      / norm2 root (ext.solveTransposed u (ext.choSolve u fun i => -(g i)))) ^ 2
        * (1 - norm2 root (ext.choSolve u fun i => -(g i)))) (N : Nat) :
    ∀ (s : GqState K n) (k : Nat), GqStale root ext g h u nu s → s.lam + b ≤ N * d →
      (gqLoop (gqIteration root ext g h threshold kEasy kHard) (N + m) k s).2.converged = true := by
  have hpd : ∀ v : Vec K n, 0 < dot v v → 0 < quadForm h v := fun v hv =>
    (mul_pos ha0 hv).trans_le (ha v)
  induction N with
  | zero =>
    intro s k hst hle
    exfalso
    have hu := hext.chol_ok _ (addDiag_symm hs s.lam) hst.chol
    have hpos := upperFactor_pos hu (d := v0) (by rintro rfl; rw [dot_zero_left] at hv0; exact lt_irrefl _ hv0)
    rw [quadForm_addDiag] at hpos
    rw [Nat.cast_zero, zero_mul] at hle
    nlinarith
  | succ N ih =>
    intro s k hst hle
    rw [show N + 1 + m = (N + m) + 1 by omega]
    simp only [gqLoop]
    by_cases hc : (gqIteration root ext g h threshold kEasy kHard s).converged = true
    · simp [hc]
    simp only [hc, Bool.false_eq_true, if_false]
    have hcf : (gqIteration root ext g h threshold kEasy kHard s).converged = false := by simpa using hc
    have e : refactorize ext h s = { s with already := false } := by simp [refactorize, hst.already]
    obtain ⟨hi, hf⟩ := And.intro hst.info hst.factor
    have hstep : gqIteration root ext g h threshold kEasy kHard s
        = findNew root ext g h kEasy kHard { s with already := false } := by
      simp only [gqIteration, e, hi, hg, and_self, if_true]
    set s' := gqIteration root ext g h threshold kEasy kHard s with hs'
    set newton := newtonStep s.lam (norm2 root (ext.choSolve u fun i => -(g i)))
      (norm2 root (ext.solveTransposed u (ext.choSolve u fun i => -(g i)))) with hnewton
    have hnd : newton = s.lam - d := by rw [hd, hnewton, newtonStep]; ring
    have hnle : newton ≤ s.lam := newtonStep_le hin
    simp only [findNew, hf, hin, if_true, withinUpdate] at hstep
    rw [← hnewton] at hstep
    by_cases hok : (ext.chol (addDiag h newton)).info = 0
    · refine ih s' (k + 1) ⟨?_, ?_, ?_, ?_, ?_, ?_, ?_⟩ ?_
      · rw [hstep]; simp [hok]
      · rw [hstep]; exact hi
      · rw [hstep]; exact hf
      · rw [hstep]; simp only [hok, if_true]; exact le_max_of_le_left hst.lower_nonneg
      · rw [hstep]; simp only [hok, if_true]
        exact max_le hst.lower (le_trans (sub_le_self _ (sq_nonneg _)) hst.lam)
      · rw [hstep]; simp only [hok, if_true]; exact hnle.trans hst.lam
      · rw [hstep]; simp only [hok, if_true]
      · rw [hstep]; simp only [hok, if_true]
        rw [hnd]; push_cast at hle; linarith
    · have hlow0 : 0 ≤ max (max s.lower (s.lam - (smallestSingular root ext u).1 ^ 2)) newton :=
        le_max_of_le_left (le_max_of_le_left hst.lower_nonneg)
      have hlow : max (max s.lower (s.lam - (smallestSingular root ext u).1 ^ 2)) newton ≤ nu :=
        max_le (max_le hst.lower (le_trans (sub_le_self _ (sq_nonneg _)) hst.lam)) (hnle.trans hst.lam)
      have hlam' : s'.lam = newLambda root
          (max (max s.lower (s.lam - (smallestSingular root ext u).1 ^ 2)) newton) s.lam := by
        rw [hstep]; simp only [hok, if_false]
      have hleft : GqLeft g h s' := by
        refine ⟨by rw [hstep]; simp [hok], by rw [hlam']; exact newLambda_nonneg hroot _ _, ?_⟩
        rw [hlam']
        exact outside_mono hext hs hpd (newLambda_nonneg hroot _ _) (newLambda_le hroot hlow0 hlow hst.lam) hnu
      have h0 : 0 ≤ (1 + kEasy) ^ m := pow_nonneg (by linarith) m
      have := left_terminates (kHard := kHard) hroot hext hs hg ha0 ha hkEasy m s' (k + 1) hleft
        (by nlinarith [mul_nonneg hleft.nonneg h0])
      exact gqLoop_more _ m (N + m) (k + 1) _ (by omega) hcf this

/-- The first factor for a positive definite model with a long gradient is not below the lower end of the bracket. -/
theorem start_bracket {root : K → K} (hroot : SqrtSpec root) (hn : 0 < n)
    {g : Vec K n} {h : Mat K n n} (hs : SymmetricMat h)
    (hpd : ∀ v : Vec K n, 0 < dot v v → 0 < quadForm h v) (hlow : initialLower root g h ≠ 0) (x0 : Vec K n) :
    0 < curvatureBound root h ∧ initialLower root g h = norm2 root g - curvatureBound root h ∧
    initialLower root g h ≤ (gqStart root g h x0).lam := by
  set c := curvatureBound root h with hc
  set G := norm2 root g with hGdef
  have hdiag : ∀ i, 0 < h i i := fun i => by
    have := hpd (fun j => if j = i then 1 else 0) (by rw [(quadForm_unit h i).2]; exact one_pos)
    rwa [(quadForm_unit h i).1] at this
  have hc0 : h ⟨0, hn⟩ ⟨0, hn⟩ ≤ c := by
    have h1 := form_le_upper hroot h hs (fun j => if j = ⟨0, hn⟩ then 1 else 0)
    rw [(quadForm_unit h ⟨0, hn⟩).1, (quadForm_unit h ⟨0, hn⟩).2, mul_one] at h1
    exact h1
  obtain ⟨i, hi⟩ := vecMin_attained (fun i => h i i) hn
  have hL : initialLower root g h = G - c := by
    have h1 : initialLower root g h = max 0 (max (-(h i i)) (G - c)) := by rw [initialLower, hi]; rfl
    rw [h1] at hlow ⊢
    rcases le_total (G - c) 0 with h2 | h2
    · exact absurd (max_eq_left (max_le (by linarith [hdiag i]) h2)) hlow
    · rw [max_eq_right (by linarith [hdiag i] : -(h i i) ≤ G - c), max_eq_right h2]
  refine ⟨(hdiag _).trans_le hc0, hL, ?_⟩
  have hlam : (gqStart root g h x0).lam = newLambda root (initialLower root g h) (initialUpper root g h) := by
    simp only [gqStart, initialLambda, if_neg hlow]
  rw [hlam]
  refine le_max_of_le_right ?_
  have hU : initialLower root g h ≤ initialUpper root g h := by
    rw [hL]
    refine le_max_of_le_right ?_
    have h1 := form_ge_lower hroot h hs (fun j => if j = ⟨0, hn⟩ then 1 else 0)
    rw [(quadForm_unit h ⟨0, hn⟩).1, (quadForm_unit h ⟨0, hn⟩).2, mul_one] at h1
    linarith
  linarith

/-- The Newton step of a pass that has not ended the loop is not small. `q` is `p' A p`, `w` is `z' A z` for the estimate
`z` of the singular vector, `t` the step to the boundary, `r` the slope in the Newton step. -/
theorem inside_step_ge {a c lam kHard P pp q w t r : K} (ha0 : 0 < a) (hac : a ≤ c) (hlam0 : 0 ≤ lam)
    (hk0 : 0 ≤ kHard) (hP0 : 0 ≤ P) (hP : P ^ 2 = pp) (hPP : pp < 1)
    (herr : (c + lam) * (1 - pp) ≤ 53 / 100 * (q + lam)) (hQge : (a + lam) * pp ≤ q) (hw0 : 0 ≤ w)
    (hw : w ≤ c + lam) (ht : t ^ 2 ≤ 1 - pp) (hns : ¬ t ^ 2 * w / (q + lam) ≤ kHard) (hr : a + lam ≤ r) :
    kHard * (a + lam) ^ 2 ≤ 4 * (c + lam) * (r * (1 - P)) := by
  have hP1 : P < 1 := by
    by_contra hcon
    push Not at hcon
    nlinarith
  have hQl : (a + lam) / 2 ≤ q + lam := by
    rcases le_total (1 / 2) pp with h1 | h1
    · nlinarith
    · nlinarith [mul_nonneg (by linarith : 0 ≤ c + lam) (by linarith : (0 : K) ≤ 1 / 2 - pp)]
  have hQpos : 0 < q + lam := by linarith
  rw [not_le, lt_div_iff₀ hQpos] at hns
  have h3 : t ^ 2 * w ≤ (1 - pp) * (c + lam) := mul_le_mul ht hw hw0 (by linarith)
  have h4 : kHard * ((a + lam) / 2) ≤ (1 - pp) * (c + lam) := by
    have := mul_le_mul_of_nonneg_left hQl hk0
    linarith
  have h5 : 1 - pp ≤ 2 * (1 - P) := by rw [← hP]; nlinarith [sq_nonneg (1 - P)]
  have h6 : (a + lam) * (1 - P) ≤ r * (1 - P) := mul_le_mul_of_nonneg_right hr (by linarith)
  have h7 : (1 - pp) * (c + lam) ≤ 2 * (1 - P) * (c + lam) := mul_le_mul_of_nonneg_right h5 (by linarith)
  have h8 : kHard * ((a + lam) / 2) * (a + lam) ≤ 2 * (1 - P) * (c + lam) * (a + lam) :=
    mul_le_mul_of_nonneg_right (h4.trans h7) (by linarith)
  have h9 : 2 * (c + lam) * ((a + lam) * (1 - P)) ≤ 2 * (c + lam) * (r * (1 - P)) :=
    mul_le_mul_of_nonneg_left h6 (by linarith)
  linarith

/-- How often such a step can be subtracted. -/
theorem stale_count {a b c lam kHard d : K} {N : Nat} (ha0 : 0 < a) (hab : a ≤ b) (hac : a ≤ c) (hlam0 : 0 ≤ lam)
    (hN : 4 * c * b ≤ N * kHard * a ^ 2) (hdge : kHard * (a + lam) ^ 2 ≤ 4 * (c + lam) * d) : lam + b ≤ N * d := by
  have hb0 := ha0.trans_le hab
  have hc0 := ha0.trans_le hac
  have h1 : (lam + b) * a ≤ b * (a + lam) := by nlinarith
  have h2 : (c + lam) * a ≤ c * (a + lam) := by nlinarith
  have h3 : ((lam + b) * a) * ((c + lam) * a) ≤ (b * (a + lam)) * (c * (a + lam)) :=
    mul_le_mul h1 h2 (by positivity) (by positivity)
  have h5 := mul_le_mul_of_nonneg_right hN (sq_nonneg (a + lam))
  have h6 := mul_le_mul_of_nonneg_left hdge (by positivity : (0 : K) ≤ N * a ^ 2)
  have h4 : (lam + b) * (4 * a ^ 2 * (c + lam)) ≤ (N * d) * (4 * a ^ 2 * (c + lam)) := by linarith
  exact le_of_mul_le_mul_right h4 (by positivity)

/-- C112, long gradients: gqtpar reports success if the limit of iterations is large enough. -/
theorem success_long_gradient {root : K → K} (hroot : SqrtSpec root) {ext : GqExternal K n}
    (hext : GqSpec ext) (hn : 0 < n) {eps kEasy kHard : K} (he0 : 0 ≤ kEasy) (hk0 : 0 ≤ kHard) {maxiter m N : Nat}
    {g : Vec K n} {x0 : Vec K n} {h : Mat K n n} (hs : SymmetricMat h)
    {a b : K} (ha0 : 0 < a) (ha : ∀ v : Vec K n, a * dot v v ≤ quadForm h v) {v0 : Vec K n} (hv0 : 0 < dot v0 v0)
    (hb : quadForm h v0 ≤ b * dot v0 v0) (heps : 0 ≤ eps)
    (hg : gqThreshold eps h < norm2 root g) (hlow : initialLower root g h ≠ 0)
    (hm : norm2 root g < a * (1 + kEasy) ^ m) (hN : 4 * curvatureBound root h * b ≤ N * kHard * a ^ 2)
    (hiter : 1 + N + m ≤ maxiter) :
    (gqRun root ext eps kEasy kHard maxiter g h x0).2.converged = true := by
  have hpd : ∀ v : Vec K n, 0 < dot v v → 0 < quadForm h v := fun v hv =>
    (mul_pos ha0 hv).trans_le (ha v)
  have hconv : PosSemidef h := fun v => by
    rw [sum_form_eq]
    exact (mul_nonneg ha0.le (dot_self_nonneg v)).trans (ha v)
  obtain ⟨hc0, hL, hlamlo⟩ := start_bracket hroot hn hs hpd hlow x0
  obtain ⟨M, hM, hbelow⟩ := start_below (ext := ext) (x0 := x0) hroot hn hs hpd hlow
  set c := curvatureBound root h with hcdef
  have hc : ∀ y : Vec K n, quadForm h y ≤ c * dot y y := form_le_upper hroot h hs
  set s := gqStart root g h x0 with hsdef
  obtain ⟨hlam0, hlamM⟩ := hbelow.fresh rfl
  have hL0 : 0 < initialLower root g h := lt_of_le_of_ne (le_max_left _ _) (Ne.symm hlow)
  have hslow : s.lower = initialLower root g h := rfl
  simp only [gqRun, ← hsdef]
  refine gqLoop_more _ (1 + N + m) maxiter 0 _ hiter rfl ?_
  rw [show 1 + N + m = (N + m) + 1 by omega]
  simp only [gqLoop]
  by_cases hcv : (gqIteration root ext g h (gqThreshold eps h) kEasy kHard s).converged = true
  · simp [hcv]
  simp only [hcv, Bool.false_eq_true, if_false]
  have hcf : (gqIteration root ext g h (gqThreshold eps h) kEasy kHard s).converged = false := by simpa using hcv
  have hinfo : (ext.chol (addDiag h s.lam)).info = 0 :=
    chol_of_posDef hext (addDiag_symm hs _) (posDef_addDiag hpd hlam0)
  have hu := hext.chol_ok _ (addDiag_symm hs s.lam) hinfo
  have e : refactorize ext h s = { s with hPlus := addDiag h s.lam, fac := ext.chol (addDiag h s.lam) } := by
    simp [refactorize, hsdef, gqStart]
  have hstep : gqIteration root ext g h (gqThreshold eps h) kEasy kHard s
      = findNew root ext g h kEasy kHard { s with hPlus := addDiag h s.lam, fac := ext.chol (addDiag h s.lam) } := by
    simp only [gqIteration, e, hinfo, hg, and_self, if_true]
  have hpow : 0 ≤ (1 + kEasy) ^ m := pow_nonneg (by linarith) m
  set s' := gqIteration root ext g h (gqThreshold eps h) kEasy kHard s with hs'
  set u := (ext.chol (addDiag h s.lam)).upper with hudef
  set p := ext.choSolve u (fun i => -(g i)) with hp
  have hpm : matVec (addDiag h s.lam) p = fun i => -(g i) := choSolve_matVec hext hu
  by_cases hx : norm2 root p < 1
  swap
  · -- the point is outside
    have hleft : GqLeft g h s' := by
      rw [hstep]
      simp only [findNew, ← hudef, ← hp, hx, if_false]
      exact ⟨rfl, hlam0.trans (newtonStep_ge (not_lt.1 hx)),
        fun q hq => newton_stays_outside hroot hext hs hu hpm (not_lt.1 hx) hq⟩
    have := left_terminates (kHard := kHard) hroot hext hs hg ha0 ha he0 m s' 1 hleft
      (by nlinarith [mul_nonneg hleft.nonneg hpow])
    exact gqLoop_more _ m (N + m) 1 _ (by omega) hcf this
  -- the point is inside
  obtain ⟨hP0, hP⟩ := norm2_sq hroot p
  obtain ⟨hG0, hG⟩ := norm2_sq hroot g
  have hthr : 0 ≤ gqThreshold eps h := mul_nonneg (mul_nonneg (Nat.cast_nonneg n) heps) (infNorm_nonneg h hn)
  have hGpos : 0 < norm2 root g := hthr.trans_lt hg
  -- |g| ≤ (c + lam) |p|
  have hGP : norm2 root g ≤ (c + s.lam) * norm2 root p := by
    have h1 := psd_norm_le (addDiag_symm hs s.lam) (upperFactor_psd hu) (c := c + s.lam)
      (fun y => by rw [quadForm_addDiag]; linarith [hc y]) p
    rw [hpm, dot_neg_right, dot_comm, dot_neg_right, neg_neg, ← hG, ← hP, ← mul_pow] at h1
    exact (pow_le_pow_iff_left₀ hG0 (mul_nonneg (by linarith) hP0) two_ne_zero).1 h1
  have hPpos : 0 < norm2 root p := by
    rcases hP0.eq_or_lt with h0 | h0
    · rw [← h0, mul_zero] at hGP; linarith
    · exact h0
  set W := norm2 root (ext.solveTransposed u p) with hW
  set P := norm2 root p with hPdef
  have hsl := newton_slope_le hroot hext hs hc hu hPpos
  have hsg := newton_slope_ge hroot hext ha (by linarith : 0 < a + s.lam) hu hPpos
  rw [← hW, ← hPdef] at hsl hsg
  set d := (P / W) ^ 2 * (1 - P) with hd
  set newton := newtonStep s.lam P W with hnewton
  have hnd : newton = s.lam - d := by rw [hd, hnewton, newtonStep]; ring
  have hdle : d ≤ c + s.lam - norm2 root g := by
    have := mul_le_mul_of_nonneg_right hsl (by linarith : (0 : K) ≤ 1 - P)
    rw [hd]
    nlinarith
  have hn0 : 0 ≤ newton := by rw [hnd]; linarith
  have hok : (ext.chol (addDiag h newton)).info = 0 :=
    chol_of_posDef hext (addDiag_symm hs _) (posDef_addDiag hpd hn0)
  have hu1 := hext.chol_ok _ (addDiag_symm hs newton) hok
  have hout1 : ∀ q, matVec (addDiag h newton) q = (fun i => -(g i)) → 1 ≤ dot q q := fun q hq =>
    newton_from_inside hroot hext hs hu hpm hPpos hx (fun y => by
      have := upperFactor_psd hu1 y
      rwa [hnewton] at this) hq
  have hlow1 : initialLower root g h ≤ newton := by rw [hnd, hL]; linarith
  simp only [findNew, ← hudef, ← hp, ← hPdef, ← hW, ← hnewton, withinUpdate] at hstep
  rw [if_pos hx] at hstep
  have hz := smallestSingular_spec hroot hext hn hu
  -- the step `d` is not small, as the pass has not ended the loop
  have hPP : dot p p < 1 := (norm2_lt_one hroot).1 hx
  have hppos : 0 < dot p p := by rw [← hP]; positivity
  have herr := inside_error hs hconv hc hc0.le hlam0 ((pow_le_pow_left₀ hlam0 hlamM 2).trans hM) hpm
  have hQge : (a + s.lam) * dot p p ≤ quadForm (addDiag h s.lam) p := by rw [quadForm_addDiag]; linarith [ha p]
  have hac : a ≤ c := le_of_mul_le_mul_right ((ha p).trans (hc p)) hppos
  have hns : ¬ (stepLen ext p (smallestSingular root ext u).2 ^ 2 * (smallestSingular root ext u).1 ^ 2)
      / (quadForm (addDiag h s.lam) p + s.lam) ≤ kHard := by
    intro hstop
    rw [hstep] at hcf
    simp only [hstop, if_true] at hcf
    cases hcf
  have h2 : quadForm (addDiag h s.lam) (smallestSingular root ext u).2 ≤ c + s.lam := by
    rw [quadForm_addDiag]
    have := hc (smallestSingular root ext u).2
    rw [hz.1] at this ⊢
    linarith
  rw [hz.2] at hns
  have hdge := inside_step_ge ha0 hac hlam0 hk0 hP0 hP hPP herr hQge (upperFactor_psd hu _) h2
    (stepLen_sq_le hext hz.1 hPP.le) hns hsg
  have hab : a ≤ b := le_of_mul_le_mul_right ((ha v0).trans hb) hv0
  have hcount : s.lam + b ≤ N * d := stale_count ha0 hab hac hlam0 hN hdge
  refine stale_terminates hroot hext hs hg ha0 ha he0 hm hv0 hb hn0 hout1 hx (d := d) hd N s' 1
    ⟨?_, ?_, ?_, ?_, ?_, ?_, ?_⟩ ?_
  · rw [hstep]; simp [hok]
  · rw [hstep]; exact hinfo
  · rw [hstep]
  · rw [hstep]; simp only [hok, if_true]; exact le_max_of_le_left hL0.le
  · rw [hstep]; simp only [hok, if_true]
    refine max_le hlow1 ?_
    have h1 := ha (smallestSingular root ext u).2
    rw [hz.2, quadForm_addDiag, hz.1]
    rw [hz.1] at h1
    linarith
  · rw [hstep]; simp only [hok, if_true]; exact le_rfl
  · rw [hstep]; simp only [hok, if_true]
  · rw [hstep]; simp only [hok, if_true]
    have : 0 ≤ d := mul_nonneg (sq_nonneg _) (by linarith)
    rw [hnd]; linarith

/-- C112: on a positive definite model with smallest curvature at least `a` and a gradient that is not longer than the
bound for the curvature, gqtpar reports success if the limit of iterations is at least the number `m` of times that `a`
has to be multiplied by `1 + k_easy` to exceed the length of the gradient. -/
theorem C112_success_moderate_gradient {root : K → K} (hroot : SqrtSpec root) {ext : GqExternal K n}
    (hext : GqSpec ext) (hn : 0 < n) {eps kEasy kHard : K} (he0 : 0 ≤ kEasy) {maxiter m : Nat}
    {model : ScalarModel K n} {x0 : Vec K n} {h : Mat K n n} (hh : model.squareTerms = some h) (hs : SymmetricMat h)
    {a : K} (ha0 : 0 < a) (ha : ∀ v : Vec K n, a * sumSq v ≤ ∑ i, ∑ j, h i j * v i * v j)
    (hg : gqThreshold eps h < norm2 root model.linearTerms)
    (hmoderate : norm2 root model.linearTerms ≤ min (gershgorinUpper h) (min (froNorm root h) (infNorm h)))
    (hm : norm2 root model.linearTerms < a * (1 + kEasy) ^ m) (hiter : m ≤ maxiter) (hpos : 0 < maxiter) :
    ∃ raw, gqtpar root ext eps kEasy kHard maxiter model x0 = .ok raw ∧ raw.success = true := by
  set g := model.linearTerms with hgdef
  have ha' : ∀ v : Vec K n, a * dot v v ≤ quadForm h v := fun v => by
    have := ha v
    rwa [sum_form_eq, sumSq_eq_dot] at this
  have hpd : ∀ v : Vec K n, 0 < dot v v → 0 < quadForm h v := fun v hv =>
    (mul_pos ha0 hv).trans_le (ha' v)
  have hdiag : ∀ i, 0 < h i i := fun i => by
    have := hpd (fun j => if j = i then 1 else 0) (by rw [(quadForm_unit h i).2]; exact one_pos)
    rwa [(quadForm_unit h i).1] at this
  have hlow : initialLower root g h = 0 := by
    obtain ⟨i, hi⟩ := vecMin_attained (fun i => h i i) hn
    rw [initialLower, hi]
    exact max_eq_left (max_le (by linarith [hdiag i]) (by linarith))
  simp only [gqtpar, hh, if_neg hpos.ne']
  refine ⟨_, rfl, ?_⟩
  simp only [gqRun, ← hgdef]
  have hlam : (gqStart root g h x0).lam = 0 := by simp [gqStart, initialLambda, hlow]
  -- the first pass
  obtain ⟨j, rfl⟩ : ∃ j, maxiter = j + 1 := ⟨maxiter - 1, by omega⟩
  simp only [gqLoop]
  by_cases hc : (gqIteration root ext g h (gqThreshold eps h) kEasy kHard (gqStart root g h x0)).converged = true
  · simp [hc]
  · simp only [hc, Bool.false_eq_true, if_false]
    have hcf : (gqIteration root ext g h (gqThreshold eps h) kEasy kHard (gqStart root g h x0)).converged = false := by
      simpa using hc
    have hreach : GqReach (gqIteration root ext g h (gqThreshold eps h) kEasy kHard) (gqStart root g h x0)
        (gqIteration root ext g h (gqThreshold eps h) kEasy kHard (gqStart root g h x0)) := .next .start rfl hcf
    -- the start state is itself one whose point is outside
    have hstart : GqLeft g h (gqStart root g h x0) := by
      refine ⟨rfl, hlam.ge, fun q hq => ?_⟩
      by_contra hlt
      push Not at hlt
      set s := gqStart root g h x0 with hsdef
      have hinfo : (ext.chol (addDiag h s.lam)).info = 0 :=
        chol_of_posDef hext (addDiag_symm hs _) (posDef_addDiag hpd hlam.ge)
      have hu := hext.chol_ok _ (addDiag_symm hs s.lam) hinfo
      have e : refactorize ext h s = { s with hPlus := addDiag h s.lam, fac := ext.chol (addDiag h s.lam) } := by
        simp [refactorize, hsdef, gqStart]
      have hqp : q = ext.choSolve (ext.chol (addDiag h s.lam)).upper (fun i => -(g i)) :=
        upperFactor_cancel hu (hq.trans (choSolve_matVec hext hu).symm)
      rw [hqp] at hlt
      have hx := (norm2_lt_one hroot).2 hlt
      simp only [gqIteration, e, hinfo, hg, and_self, if_true] at hcf
      set p := ext.choSolve (ext.chol (addDiag h s.lam)).upper (fun i => -(g i)) with hp
      simp only [findNew, ← hp, hx, if_true, withinUpdate] at hcf
      rw [if_pos (show norm2 root p ≤ 1 ∧ s.lam = 0 from ⟨hx.le, hlam⟩)] at hcf
      split at hcf <;> cases hcf
    have hall := left_terminates (kHard := kHard) hroot hext hs hg ha0 ha' he0 m (gqStart root g h x0) 0 hstart
      (by rw [hlam, add_zero]; exact hm)
    have := gqLoop_more _ m (j + 1) 0 _ hiter rfl hall
    simp only [gqLoop, hc, Bool.false_eq_true, if_false] at this
    exact this

/-- C112: gqtpar reports success on every positive definite model if the limit of iterations is large enough. `a` is a
lower bound for the curvature in all directions, `b` an upper bound for the curvature in some direction (for example, both
are the smallest eigenvalue), and the third number is the bound for the curvature that the code computes. -/
theorem C112_success {root : K → K} (hroot : SqrtSpec root) {ext : GqExternal K n}
    (hext : GqSpec ext) (hn : 0 < n) {eps kEasy kHard : K} (heps : 0 ≤ eps) (he0 : 0 ≤ kEasy) (hk0 : 0 ≤ kHard)
    {maxiter m N : Nat} {model : ScalarModel K n} {x0 : Vec K n} {h : Mat K n n} (hh : model.squareTerms = some h)
    (hs : SymmetricMat h) {a b : K} (ha0 : 0 < a) (ha : ∀ v : Vec K n, a * sumSq v ≤ ∑ i, ∑ j, h i j * v i * v j)
    {v0 : Vec K n} (hv0 : 0 < sumSq v0) (hb : ∑ i, ∑ j, h i j * v0 i * v0 j ≤ b * sumSq v0)
    (hg : gqThreshold eps h < norm2 root model.linearTerms)
    (hm : norm2 root model.linearTerms < a * (1 + kEasy) ^ m)
    (hN : 4 * min (gershgorinUpper h) (min (froNorm root h) (infNorm h)) * b ≤ N * kHard * a ^ 2)
    (hiter : 1 + N + m ≤ maxiter) :
    ∃ raw, gqtpar root ext eps kEasy kHard maxiter model x0 = .ok raw ∧ raw.success = true := by
  have ha' : ∀ v : Vec K n, a * dot v v ≤ quadForm h v := fun v => by
    have := ha v
    rwa [sum_form_eq, sumSq_eq_dot] at this
  rw [sumSq_eq_dot] at hv0
  rw [sum_form_eq, sumSq_eq_dot] at hb
  by_cases hlow : initialLower root model.linearTerms h = 0
  · refine C112_success_moderate_gradient hroot hext hn he0 hh hs ha0 ha hg ?_ hm (by omega) (by omega)
    have h1 : max (-(vecMin fun i => h i i)) (norm2 root model.linearTerms - curvatureBound root h)
        ≤ initialLower root model.linearTerms h := le_max_right _ _
    rw [hlow] at h1
    have h2 := (le_max_right _ _).trans h1
    rw [curvatureBound] at h2
    linarith
  · have hne : maxiter ≠ 0 := by omega
    simp only [gqtpar, hh, if_neg hne]
    refine ⟨_, rfl, ?_⟩
    exact success_long_gradient hroot hext hn he0 hk0 hs ha0 ha' hv0 hb heps hg hlow hm hN hiter

/-- C112: total correctness of gqtpar on positive definite models. From some limit of iterations on, gqtpar returns with
success a point in the ball of radius `1 + k_easy` whose reduction of the model is at least the share `1 - k_hard`, but in
no case less than 47 percent, of the reduction at any point of the unit ball. -/
theorem C112_total_correctness [Archimedean K] {root : K → K} (hroot : SqrtSpec root) {ext : GqExternal K n}
    (hext : GqSpec ext) (hn : 0 < n) {eps kEasy kHard : K} (heps : 0 ≤ eps) (he0 : 0 < kEasy) (hk0 : 0 < kHard)
    (hk1 : kHard ≤ 1) {model : ScalarModel K n} {x0 : Vec K n} {h : Mat K n n} (hh : model.squareTerms = some h)
    (hs : SymmetricMat h) {a : K} (ha0 : 0 < a) (ha : ∀ v : Vec K n, a * sumSq v ≤ ∑ i, ∑ j, h i j * v i * v j)
    (hg : gqThreshold eps h < norm2 root model.linearTerms) :
    ∃ limit, ∀ maxiter, limit ≤ maxiter → ∃ raw, gqtpar root ext eps kEasy kHard maxiter model x0 = .ok raw ∧
      raw.success = true ∧ NormLe raw.x (1 + kEasy) ∧ ∀ y, NormLe y 1 →
        quadModel model.linearTerms h raw.x ≤ min (1 - kHard) (47 / 100) * quadModel model.linearTerms h y := by
  obtain ⟨m, hm⟩ := pow_unbounded_of_one_lt (norm2 root model.linearTerms / a) (by linarith : 1 < 1 + kEasy)
  rw [div_lt_iff₀ ha0, mul_comm] at hm
  obtain ⟨N, hN⟩ := exists_nat_ge
    (4 * min (gershgorinUpper h) (min (froNorm root h) (infNorm h)) * h ⟨0, hn⟩ ⟨0, hn⟩ / (kHard * a ^ 2))
  rw [div_le_iff₀ (by positivity)] at hN
  refine ⟨1 + N + m, fun maxiter hiter => ?_⟩
  have hunit := quadForm_unit h ⟨0, hn⟩
  obtain ⟨raw, hraw, hsucc⟩ := C112_success (x0 := x0) hroot hext hn heps he0.le hk0.le hh hs ha0 ha
    (v0 := fun j => if j = ⟨0, hn⟩ then 1 else 0) (b := h ⟨0, hn⟩ ⟨0, hn⟩) (m := m) (N := N)
    (by rw [sumSq_eq_dot, hunit.2]; exact one_pos)
    (by rw [sum_form_eq, sumSq_eq_dot, hunit.1, hunit.2, mul_one]) hg hm (by linarith) hiter
  exact ⟨raw, hraw, hsucc, C40_gqtpar_norm_partial hroot hext hn heps he0.le hk1
    (fun h' hh' => by rw [hh] at hh'; cases hh'; exact ⟨hs, hg⟩) hraw hsucc, fun y hy =>
    C45_near_optimal hroot hext hn heps he0.le hk0.le hk1 hh hs hg hraw hsucc y hy⟩

/-- C112 with the default options of gqtpar (`k_easy = 0.1`, `k_hard = 0.2`, at most 200 iterations): success is reported
if the gradient is not longer than the bound for the curvature and at most 100 million times the smallest curvature. -/
theorem C112_default_options {root : K → K} (hroot : SqrtSpec root) {ext : GqExternal K n}
    (hext : GqSpec ext) (hn : 0 < n) {eps : K} {model : ScalarModel K n} {x0 : Vec K n} {h : Mat K n n}
    (hh : model.squareTerms = some h) (hs : SymmetricMat h) {a : K} (ha0 : 0 < a)
    (ha : ∀ v : Vec K n, a * sumSq v ≤ ∑ i, ∑ j, h i j * v i * v j)
    (hg : gqThreshold eps h < norm2 root model.linearTerms)
    (hmoderate : norm2 root model.linearTerms ≤ min (gershgorinUpper h) (min (froNorm root h) (infNorm h)))
    (hratio : norm2 root model.linearTerms ≤ 10 ^ 8 * a) :
    ∃ raw, gqtpar root ext eps (1 / 10) (1 / 5) 200 model x0 = .ok raw ∧ raw.success = true := by
  refine C112_success_moderate_gradient hroot hext hn (by norm_num) hh hs ha0 ha hg hmoderate (m := 200)
    (hratio.trans_lt ?_) le_rfl (by norm_num)
  rw [mul_comm]
  refine mul_lt_mul_of_pos_left ?_ ha0
  norm_num

/-- C45 for the version of gqtpar in numpy. -/
theorem C45_numpy_version {root : K → K} (hroot : SqrtSpec root) {ext : GqExternal K n}
    (hext : GqSpec ext) (hord : RootsOrdered ext) (hn : 0 < n) (singular : Mat K n n → K × Vec K n)
    (hsing : ∀ u, singular u = smallestSingular root ext u) {eps kEasy kHard : K} (heps : 0 ≤ eps) (he0 : 0 ≤ kEasy)
    (hh0 : 0 ≤ kHard) (hh1 : kHard ≤ 1) {maxiter : Nat} {model : ScalarModel K n} {x0 : Vec K n}
    {raw : RawResult K n} {h : Mat K n n} (hh : model.squareTerms = some h) (hs : SymmetricMat h)
    (hg : gqThreshold eps h < norm2 root model.linearTerms)
    (hres : gqtparNp root ext singular eps kEasy kHard maxiter model x0 = .ok raw) (hsucc : raw.success = true)
    (y : Vec K n) (hy : NormLe y 1) :
    quadModel model.linearTerms h raw.x ≤ min (1 - kHard) (47 / 100) * quadModel model.linearTerms h y := by
  rw [C73_gqtpar_partial hroot hext hord hn singular hsing eps kEasy kHard maxiter model x0
    (fun h' hh' => by rw [hh] at hh'; cases hh'; exact hs)] at hres
  exact C45_near_optimal hroot hext hn heps he0 hh0 hh1 hh hs hg hres hsucc y hy

/-- A model with curvatures 4 and 1 and the gradient (3, 1). -/
noncomputable def convexModel : ScalarModel ℝ 2 :=
  { intercept := 0, linearTerms := ![3, 1], squareTerms := some !![4, 0; 0, 1], scale := fun _ => 1, shift := fun _ => 0 }

theorem convexModel_facts : SymmetricMat (!![4, 0; 0, 1] : Mat ℝ 2 2) ∧
    (∀ v : Vec ℝ 2, 1 * sumSq v ≤ ∑ i, ∑ j, (!![4, 0; 0, 1] : Mat ℝ 2 2) i j * v i * v j) ∧
    norm2 Real.sqrt convexModel.linearTerms = Real.sqrt 10 := by
  refine ⟨?_, fun v => ?_, ?_⟩
  · intro i j; fin_cases i <;> fin_cases j <;> rfl
  · simp [sumSq, Fin.sum_univ_two]
    nlinarith [sq_nonneg (v 0), sq_nonneg (v 1)]
  · simp only [norm2, convexModel, dot, Fin.sum_univ_two]
    norm_num

/-- The hypotheses of `C112_default_options` are met, and those of `C112_total_correctness`. -/
example : ∃ ext : GqExternal ℝ 2, GqSpec ext ∧
    (∃ raw, gqtpar Real.sqrt ext 0 (1 / 10) (1 / 5) 200 convexModel (fun _ => 0) = .ok raw ∧ raw.success = true ∧
      ∀ y, NormLe y 1 → quadModel convexModel.linearTerms !![4, 0; 0, 1] raw.x
        ≤ 47 / 100 * quadModel convexModel.linearTerms !![4, 0; 0, 1] y) ∧
    ∃ limit, ∀ maxiter, limit ≤ maxiter → ∃ raw,
      gqtpar Real.sqrt ext 0 (1 / 10) (1 / 5) maxiter convexModel (fun _ => 0) = .ok raw ∧ raw.success = true := by
  obtain ⟨ext, hext⟩ := gqSpec_real 2
  obtain ⟨hs, ha, hG⟩ := convexModel_facts
  have hthr : gqThreshold (0 : ℝ) (!![4, 0; 0, 1] : Mat ℝ 2 2) < norm2 Real.sqrt convexModel.linearTerms := by
    rw [hG]; simp only [gqThreshold, mul_zero, zero_mul]; exact Real.sqrt_pos.2 (by norm_num)
  have h10 : Real.sqrt 10 ≤ 4 := by rw [Real.sqrt_le_left (by norm_num)]; norm_num
  refine ⟨ext, hext, ?_, ?_⟩
  · have hmod : norm2 Real.sqrt convexModel.linearTerms ≤ min (gershgorinUpper (!![4, 0; 0, 1] : Mat ℝ 2 2))
        (min (froNorm Real.sqrt !![4, 0; 0, 1]) (infNorm !![4, 0; 0, 1])) := by
      have h1 := form_le_upper sqrtSpec_real (!![4, 0; 0, 1] : Mat ℝ 2 2) hs ![1, 0]
      have h2 : quadForm (!![4, 0; 0, 1] : Mat ℝ 2 2) ![1, 0] = 4 := by
        simp [quadForm, Fin.sum_univ_two]
      have h3 : dot (![1, 0] : Vec ℝ 2) ![1, 0] = 1 := by simp [dot, Fin.sum_univ_two]
      rw [h2, h3, mul_one] at h1
      rw [hG]
      exact h10.trans h1
    obtain ⟨raw, hraw, hsucc⟩ := C112_default_options (x0 := fun _ => 0) sqrtSpec_real hext (by norm_num)
      (model := convexModel) rfl hs one_pos ha hthr hmod (by rw [hG]; linarith)
    refine ⟨raw, hraw, hsucc, fun y hy => ?_⟩
    have := C45_near_optimal sqrtSpec_real hext (by norm_num) le_rfl (by norm_num) (by norm_num) (by norm_num) rfl
      hs hthr hraw hsucc y hy
    rwa [min_eq_right (by norm_num)] at this
  · obtain ⟨limit, hl⟩ := C112_total_correctness (x0 := fun _ => 0) sqrtSpec_real hext (by norm_num) le_rfl
      (by norm_num : (0 : ℝ) < 1 / 10) (by norm_num : (0 : ℝ) < 1 / 5) (by norm_num) (model := convexModel) rfl hs
      one_pos ha hthr
    exact ⟨limit, fun maxiter hm => by
      obtain ⟨raw, h1, h2, _⟩ := hl maxiter hm
      exact ⟨raw, h1, h2⟩⟩

/-- The concave model `x - x ^ 2 / 2` of one variable. -/
noncomputable def concaveModel : ScalarModel ℝ 1 :=
  ⟨0, fun _ => 1, some fun _ _ => -1, fun _ => 1, fun _ => 0⟩

/-- C45, example: on a concave model gqtpar ends with success after one pass, at the minimizer `-1`. -/
example {ext : GqExternal ℝ 1} (hext : GqSpec ext) :
    ∃ raw, gqtpar Real.sqrt ext 0 (1 / 10) (1 / 5) 200 concaveModel (fun _ => 0) = .ok raw ∧ raw.success = true ∧
      raw.x = (fun _ => -1) ∧ (∀ y, NormLe y 1 → quadModel concaveModel.linearTerms (fun _ _ => -1) raw.x
        ≤ (1 - 1 / 5) * quadModel concaveModel.linearTerms (fun _ _ => -1) y) := by
  have hg : norm2 Real.sqrt (fun _ : Fin 1 => (1 : ℝ)) = 1 := by simp [norm2, dot]
  have hlo : initialLower Real.sqrt (fun _ : Fin 1 => (1 : ℝ)) (fun _ _ => -1) = 2 := by
    rw [initialLower, hg, vecMin_one, gershgorinUpper, vecMax_one, infNorm, vecMax_one, froNorm]
    simp [absRowSum]
    norm_num
  have hup : initialUpper Real.sqrt (fun _ : Fin 1 => (1 : ℝ)) (fun _ _ => -1) = 2 := by
    rw [initialUpper, hg, gershgorinLower, vecMin_one, infNorm, vecMax_one, froNorm]
    simp [absRowSum]
    norm_num
  have hlam : initialLambda Real.sqrt (fun _ : Fin 1 => (1 : ℝ)) (fun _ _ => -1) = 2 := by
    rw [initialLambda, hlo, hup, if_neg (by norm_num), newLambda]
    rw [max_eq_right (by norm_num : (0 : ℝ) ≤ 2 * 2), Real.sqrt_mul_self (by norm_num)]
    norm_num
  have hsym : SymmetricMat (fun _ _ : Fin 1 => (-1 : ℝ)) := fun i j => rfl
  have hent : ∀ i j, addDiag (fun _ _ : Fin 1 => (-1 : ℝ)) 2 i j = 1 := fun i j => by
    rw [Subsingleton.elim i j]; norm_num [addDiag]
  have hinfo : (ext.chol (addDiag (fun _ _ : Fin 1 => (-1 : ℝ)) 2)).info = 0 := by
    refine chol_of_posDef hext (addDiag_symm hsym 2) fun v hv => ?_
    have : quadForm (addDiag (fun _ _ : Fin 1 => (-1 : ℝ)) 2) v = dot v v := by
      simp [quadForm, hent, dot]
    rwa [this]
  have hfac := hext.chol_ok _ (addDiag_symm hsym 2) hinfo
  have hx : ext.choSolve (ext.chol (addDiag (fun _ _ : Fin 1 => (-1 : ℝ)) 2)).upper (fun _ => -1) = fun _ => -1 := by
    have h0 := hext.choSolve _ _ (fun _ => -1) hfac 0
    generalize ext.choSolve (ext.chol (addDiag (fun _ _ : Fin 1 => (-1 : ℝ)) 2)).upper (fun _ => -1) = x at h0 ⊢
    simp [hent] at h0
    funext i
    rw [Subsingleton.elim i 0, h0]
  have hxn : norm2 Real.sqrt (fun _ : Fin 1 => (-1 : ℝ)) = 1 := by simp [norm2, dot]
  have ht : gqThreshold 0 (fun _ _ : Fin 1 => (-1 : ℝ)) < 1 := by simp [gqThreshold]
  have href := refactorize_start ext (fun _ => 0) hlam
  have hit : (gqIteration Real.sqrt ext concaveModel.linearTerms (fun _ _ => -1)
      (gqThreshold 0 (fun _ _ : Fin 1 => (-1 : ℝ))) (1 / 10) (1 / 5)
      (gqStart Real.sqrt concaveModel.linearTerms (fun _ _ => -1) (fun _ => 0))).converged = true ∧
      (gqIteration Real.sqrt ext concaveModel.linearTerms (fun _ _ => -1)
      (gqThreshold 0 (fun _ _ : Fin 1 => (-1 : ℝ))) (1 / 10) (1 / 5)
      (gqStart Real.sqrt concaveModel.linearTerms (fun _ _ => -1) (fun _ => 0))).x = fun _ => -1 := by
    simp only [concaveModel]
    simp only [gqIteration, href, hinfo, hg, ht, and_self, if_true, findNew, hx, hxn, lt_irrefl, if_false]
    norm_num
  have hsol := gqtpar_one_pass (root := Real.sqrt) (ext := ext) (eps := 0) (kEasy := 1 / 10)
    (kHard := 1 / 5) (maxiter := 200) (by norm_num) (model := concaveModel) rfl hit.1
  rw [hit.2] at hsol
  refine ⟨_, hsol, rfl, rfl, fun y hy => ?_⟩
  exact C45_near_optimal_without_convexity (v := fun _ => 1) sqrtSpec_real hext (by norm_num) le_rfl (by norm_num) (by norm_num)
    (by norm_num) rfl hsym (by simp [sumSq]) (by norm_num)
    (show gqThreshold 0 _ < norm2 Real.sqrt (fun _ : Fin 1 => (1 : ℝ)) by rw [hg]; exact ht) hsol rfl y hy

end Tranquilo
