import Verif.Lemmas.GqtparConvex
import Verif.Props.Gqtpar

/-!
# C112: gqtpar on convex models
-/

namespace Tranquilo

variable {K : Type} [Field K] [LinearOrder K] [IsStrictOrderedRing K] {n : Nat}

/-- The next pass factorizes, and the stationary point for the factor is not inside of the ball. -/
structure GqLeft (g : Vec K n) (h : Mat K n n) (s : GqState K n) : Prop where
  fresh : s.already = false
  nonneg : 0 ≤ s.lam
  outside : ∀ q, matVec (addDiag h s.lam) q = (fun i => -(g i)) → 1 ≤ dot q q

/-- All factors are at most `m`; this includes the factor of which a reused factorization is. -/
structure GqBelow (root : K → K) (ext : GqExternal K n) (g : Vec K n) (h : Mat K n n) (m : K)
    (s : GqState K n) : Prop where
  lower : s.lower ≤ m
  lower_nonneg : 0 ≤ s.lower
  fresh : s.already = false → 0 ≤ s.lam ∧ s.lam ≤ m
  stale : s.already = true → s.fac.info = 0 ∧ ∃ mu, 0 ≤ mu ∧ mu ≤ m ∧ s.lam ≤ mu ∧
    UpperFactor s.fac.upper (addDiag h mu) ∧ norm2 root (ext.choSolve s.fac.upper fun i => -(g i)) < 1

theorem posDef_addDiag {h : Mat K n n} (hpd : ∀ v : Vec K n, 0 < dot v v → 0 < quadForm h v) {lam : K}
    (hlam : 0 ≤ lam) (v : Vec K n) (hv : 0 < dot v v) : 0 < quadForm (addDiag h lam) v := by
  rw [quadForm_addDiag]
  have := hpd v hv
  have := mul_nonneg hlam hv.le
  linarith

/-- A pass from a factor whose point is outside leads to another one, or ends. -/
theorem left_next {root : K → K} (hroot : SqrtSpec root) {ext : GqExternal K n} (hext : GqSpec ext)
    {g : Vec K n} {h : Mat K n n} (hs : SymmetricMat h) {threshold kEasy kHard : K} (hg : threshold < norm2 root g)
    (hpd : ∀ v : Vec K n, 0 < dot v v → 0 < quadForm h v) {s : GqState K n} (hleft : GqLeft g h s) :
    GqLeft g h (gqIteration root ext g h threshold kEasy kHard s) := by
  have hinfo : (ext.chol (addDiag h s.lam)).info = 0 :=
    chol_of_posDef hext (addDiag_symm hs _) (posDef_addDiag hpd hleft.nonneg)
  have hu := hext.chol_ok _ (addDiag_symm hs s.lam) hinfo
  have e : refactorize ext h s = { s with hPlus := addDiag h s.lam, fac := ext.chol (addDiag h s.lam) } := by
    simp [refactorize, hleft.fresh]
  simp only [gqIteration, e, hinfo, hg, and_self, if_true]
  set p := ext.choSolve (ext.chol (addDiag h s.lam)).upper (fun i => -(g i)) with hp
  have hpm : matVec (addDiag h s.lam) p = fun i => -(g i) := choSolve_matVec hext hu
  have hpp := hleft.outside p hpm
  have hx : ¬ norm2 root p < 1 := fun hlt => absurd ((norm2_lt_one hroot).1 hlt) (not_lt.2 hpp)
  simp only [findNew, ← hp, hx, if_false]
  exact ⟨hleft.fresh, hleft.nonneg.trans (newtonStep_ge (not_lt.1 hx)),
    fun q hq => newton_stays_outside hroot hext hs hu hpm (not_lt.1 hx) hq⟩

/-- The update of the factor stays below a bound for both ends of the bracket. -/
theorem newLambda_le {root : K → K} (hroot : SqrtSpec root) {lo up m : K} (hlo0 : 0 ≤ lo) (hlo : lo ≤ m)
    (hup : up ≤ m) : newLambda root lo up ≤ m := by
  have hm := hlo0.trans hlo
  refine max_le ?_ (by linarith)
  obtain ⟨h0, h1⟩ := hroot (max 0 (lo * up)) (le_max_left _ _)
  by_contra hc
  push Not at hc
  have h2 : max 0 (lo * up) ≤ m * m := by
    refine max_le (mul_nonneg hm hm) ?_
    rcases le_total 0 up with h | h
    · exact mul_le_mul hlo hup h hm
    · nlinarith [mul_nonneg hlo0 (neg_nonneg.2 h), mul_nonneg hm hm]
  nlinarith

/-- The update inside of the ball keeps the bound, for positive definite models. -/
theorem withinUpdate_below {root : K → K} (hroot : SqrtSpec root) {ext : GqExternal K n}
    (hext : GqSpec ext) (hn : 0 < n) {g : Vec K n} {h : Mat K n n} (hs : SymmetricMat h)
    (hpd : ∀ v : Vec K n, 0 < dot v v → 0 < quadForm h v) {kHard m : K}
    {s : GqState K n} {mu newton : K} (hlow0 : 0 ≤ s.lower) (hlow : s.lower ≤ m) (hmu0 : 0 ≤ mu) (hmu : mu ≤ m)
    (hlam : s.lam ≤ mu) (hu : UpperFactor s.fac.upper (addDiag h mu)) (hinfo : s.fac.info = 0)
    (hna : s.already = false)
    (hin : norm2 root (ext.choSolve s.fac.upper fun i => -(g i)) < 1) (hnewton : newton ≤ s.lam) :
    GqBelow root ext g h m (withinUpdate root ext h kHard s newton) := by
  have hz := smallestSingular_spec hroot hext hn hu
  have hlow2 : s.lam - (smallestSingular root ext s.fac.upper).1 ^ 2 ≤ 0 := by
    have h1 := hpd (smallestSingular root ext s.fac.upper).2 (by rw [hz.1]; exact one_pos)
    rw [hz.2, quadForm_addDiag, hz.1]
    linarith
  have hm0 := hlow0.trans hlow
  by_cases hok : (ext.chol (addDiag h newton)).info = 0
  · constructor
    · simp only [withinUpdate, hok, if_true]
      exact max_le hlow (hlow2.trans hm0)
    · simp only [withinUpdate, hok, if_true]
      exact le_max_of_le_left hlow0
    · intro ha
      simp [withinUpdate, hok] at ha
    · intro _
      simp only [withinUpdate, hok, if_true]
      exact ⟨hinfo, mu, hmu0, hmu, hnewton.trans hlam, hu, hin⟩
  · have hneg : newton ≤ 0 := by
      by_contra hc
      push Not at hc
      exact hok (chol_of_posDef hext (addDiag_symm hs _) (posDef_addDiag hpd hc.le))
    constructor
    · simp only [withinUpdate, hok, if_false]
      exact max_le (max_le hlow (hlow2.trans hm0)) (hneg.trans hm0)
    · simp only [withinUpdate, hok, if_false]
      exact le_max_of_le_left (le_max_of_le_left hlow0)
    · intro _
      simp only [withinUpdate, hok, if_false]
      exact ⟨newLambda_nonneg hroot _ _, newLambda_le hroot (le_max_of_le_left (le_max_of_le_left hlow0))
        (max_le (max_le hlow (hlow2.trans hm0)) (hneg.trans hm0)) (hlam.trans hmu)⟩
    · intro ha
      simp [withinUpdate, hok, hna] at ha

/-- A pass keeps the bound, or all later points are outside. -/
theorem below_next {root : K → K} (hroot : SqrtSpec root) {ext : GqExternal K n} (hext : GqSpec ext) (hn : 0 < n)
    {g : Vec K n} {h : Mat K n n} (hs : SymmetricMat h) {threshold kEasy kHard m : K} (hg : threshold < norm2 root g)
    (hpd : ∀ v : Vec K n, 0 < dot v v → 0 < quadForm h v) {s : GqState K n} (hb : GqBelow root ext g h m s) :
    GqBelow root ext g h m (gqIteration root ext g h threshold kEasy kHard s) ∨
    GqLeft g h (gqIteration root ext g h threshold kEasy kHard s) := by
  cases ha : s.already with
  | true =>
    obtain ⟨hi, mu, hmu0, hmu, hlam, hu, hin⟩ := hb.stale ha
    left
    have e : refactorize ext h s = { s with already := false } := by simp [refactorize, ha]
    simp only [gqIteration, e, hi, hg, and_self, if_true, findNew, hin]
    exact withinUpdate_below hroot hext hn hs hpd hb.lower_nonneg hb.lower hmu0 hmu hlam hu hi rfl hin
      (newtonStep_le hin)
  | false =>
    obtain ⟨h0, h1⟩ := hb.fresh ha
    have hinfo : (ext.chol (addDiag h s.lam)).info = 0 :=
      chol_of_posDef hext (addDiag_symm hs _) (posDef_addDiag hpd h0)
    have hu := hext.chol_ok _ (addDiag_symm hs s.lam) hinfo
    have e : refactorize ext h s = { s with hPlus := addDiag h s.lam, fac := ext.chol (addDiag h s.lam) } := by
      simp [refactorize, ha]
    simp only [gqIteration, e, hinfo, hg, and_self, if_true]
    set p := ext.choSolve (ext.chol (addDiag h s.lam)).upper (fun i => -(g i)) with hp
    have hpm : matVec (addDiag h s.lam) p = fun i => -(g i) := choSolve_matVec hext hu
    by_cases hx : norm2 root p < 1
    · left
      simp only [findNew, ← hp, hx, if_true]
      exact withinUpdate_below hroot hext hn hs hpd hb.lower_nonneg hb.lower h0 h1 le_rfl hu hinfo ha hx
        (newtonStep_le hx)
    · right
      simp only [findNew, ← hp, hx, if_false]
      exact ⟨ha, h0.trans (newtonStep_ge (not_lt.1 hx)),
        fun q hq => newton_stays_outside hroot hext hs hu hpm (not_lt.1 hx) hq⟩

/-- The point of a pass that reuses a factorization: the stationary point, or the step from it to the boundary. -/
theorem stale_point {root : K → K} {ext : GqExternal K n} {g : Vec K n} {h : Mat K n n}
    {threshold kEasy kHard : K} (hg : threshold < norm2 root g) {s : GqState K n} (ha : s.already = true)
    (hi : s.fac.info = 0) (hin : norm2 root (ext.choSolve s.fac.upper fun i => -(g i)) < 1) :
    (gqIteration root ext g h threshold kEasy kHard s).x = ext.choSolve s.fac.upper (fun i => -(g i)) ∨
    (gqIteration root ext g h threshold kEasy kHard s).x = fun i =>
      ext.choSolve s.fac.upper (fun i => -(g i)) i
        + stepLen ext (ext.choSolve s.fac.upper fun i => -(g i)) (smallestSingular root ext s.fac.upper).2
          * (smallestSingular root ext s.fac.upper).2 i := by
  have e : refactorize ext h s = { s with already := false } := by simp [refactorize, ha]
  simp only [gqIteration, e, hi, hg, and_self, if_true, findNew, hin, withinUpdate]
  split
  · exact .inr rfl
  · exact .inl rfl

/-- Both points make at least 47 percent of the possible progress. -/
theorem stale_value {root : K → K} (hroot : SqrtSpec root) {ext : GqExternal K n} (hext : GqSpec ext) (hn : 0 < n)
    {g : Vec K n} {h : Mat K n n} (hs : SymmetricMat h) (hconv : PosSemidef h) {threshold kEasy kHard : K}
    (hg : threshold < norm2 root g) {c m : K} (hc : ∀ y : Vec K n, quadForm h y ≤ c * dot y y) (hc0 : 0 ≤ c)
    (hm : m ^ 2 ≤ dot g g - 999 / 1000 * c ^ 2) {s : GqState K n} (hb : GqBelow root ext g h m s) (ha : s.already = true)
    (y : Vec K n) (hy : NormLe y 1) :
    quadModel g h (gqIteration root ext g h threshold kEasy kHard s).x ≤ (1 - 53 / 100) * quadModel g h y := by
  obtain ⟨hi, mu, hmu0, hmu, hlam, hu, hin⟩ := hb.stale ha
  have hmu2 : mu ^ 2 ≤ dot g g - 999 / 1000 * c ^ 2 := (pow_le_pow_left₀ hmu0 hmu 2).trans hm
  have hpt := stale_point (h := h) (kEasy := kEasy) (kHard := kHard) hg ha hi hin
  set p := ext.choSolve s.fac.upper (fun i => -(g i)) with hp
  have hpm : matVec (addDiag h mu) p = fun i => -(g i) := choSolve_matVec hext hu
  have hpp : dot p p < 1 := (norm2_lt_one hroot).1 hin
  have herr := inside_error hs hconv hc hc0 hmu0 hmu2 hpm
  have hpsd := upperFactor_psd hu
  rcases hpt with e | e
  · rw [e]
    have h1 : -(quadForm (addDiag h mu) p + mu) / 2 ≤ quadModel g h y := by
      rw [quadModel_around g h hs p y mu hpm]
      have h1 := hpsd (fun i => y i - p i)
      rw [NormLe, sumSq_eq_dot, one_pow] at hy
      have h2 := mul_le_mul_of_nonneg_left hy hmu0
      linarith
    rw [quadModel_around g h hs p p mu hpm]
    have e : (fun i => p i - p i) = fun i => (0 : K) * p i := by funext i; ring
    rw [e, quadForm_smul]
    have h2 := mul_nonneg hc0 (sub_nonneg.2 hpp.le)
    linarith
  · rw [e]
    have hz := smallestSingular_spec hroot hext hn hu
    set z := (smallestSingular root ext s.fac.upper).2 with hzdef
    have hone := stepLen_spec hext hz.1 hpp.le
    refine near_optimal g h hs p _ mu (53 / 100) hmu0 (by norm_num) hpsd hpm hone ?_ y hy
    have e : (fun i => (fun i => p i + stepLen ext p z * z i) i - p i)
        = fun i => stepLen ext p z * z i := by funext i; ring
    rw [e, quadForm_smul]
    have h1 := stepLen_sq_le hext hz.1 hpp.le
    have h2 : quadForm (addDiag h mu) z ≤ c + mu := by
      rw [quadForm_addDiag]
      have := hc z
      rw [hz.1] at this ⊢
      linarith
    have h3 : stepLen ext p z ^ 2 * quadForm (addDiag h mu) z ≤ (1 - dot p p) * (c + mu) :=
      mul_le_mul h1 h2 (hpsd z) (by linarith)
    linarith

/-- Positive definite models with a gradient not longer than the bound for the curvature: the first factor is zero, and
if the first pass does not end the loop, all later points are outside. -/
theorem reach_left {root : K → K} (hroot : SqrtSpec root) {ext : GqExternal K n} (hext : GqSpec ext)
    {g : Vec K n} {h : Mat K n n} (hs : SymmetricMat h) {threshold kEasy kHard : K} (hg : threshold < norm2 root g)
    (hpd : ∀ v : Vec K n, 0 < dot v v → 0 < quadForm h v) (hlow : initialLower root g h = 0) {x0 : Vec K n}
    {s : GqState K n}
    (hr : GqReach (gqIteration root ext g h threshold kEasy kHard) (gqStart root g h x0) s) :
    s = gqStart root g h x0 ∨ GqLeft g h s := by
  induction hr with
  | start => exact .inl rfl
  | @next s hr hc hc' ih =>
    right
    rcases ih with rfl | hleft
    · set s := gqStart root g h x0 with hsdef
      have hlam : s.lam = 0 := by simp [hsdef, gqStart, initialLambda, hlow]
      have ha : s.already = false := rfl
      have hinfo : (ext.chol (addDiag h s.lam)).info = 0 :=
        chol_of_posDef hext (addDiag_symm hs _) (posDef_addDiag hpd hlam.ge)
      have hu := hext.chol_ok _ (addDiag_symm hs s.lam) hinfo
      have e : refactorize ext h s = { s with hPlus := addDiag h s.lam, fac := ext.chol (addDiag h s.lam) } := by
        simp [refactorize, ha]
      simp only [gqIteration, e, hinfo, hg, and_self, if_true] at hc' ⊢
      set p := ext.choSolve (ext.chol (addDiag h s.lam)).upper (fun i => -(g i)) with hp
      have hpm : matVec (addDiag h s.lam) p = fun i => -(g i) := choSolve_matVec hext hu
      by_cases hx : norm2 root p < 1
      · exfalso
        simp only [findNew, ← hp, hx, if_true, withinUpdate] at hc'
        rw [if_pos (show norm2 root p ≤ 1 ∧ s.lam = 0 from ⟨hx.le, hlam⟩)] at hc'
        split at hc' <;> cases hc'
      · simp only [findNew, ← hp, hx, if_false]
        exact ⟨ha, hlam.ge.trans (newtonStep_ge (not_lt.1 hx)),
          fun q hq => newton_stays_outside hroot hext hs hu hpm (not_lt.1 hx) hq⟩
    · exact left_next hroot hext hs hg hpd hleft

/-- The bound for the curvature that the initial bracket uses. -/
def curvatureBound (root : K → K) (h : Mat K n n) : K :=
  min (gershgorinUpper h) (min (froNorm root h) (infNorm h))

/-- Positive definite models with a longer gradient: all factors are below `√(|g|² - 0.999 c²)`. -/
theorem start_below {root : K → K} (hroot : SqrtSpec root) {ext : GqExternal K n} (hn : 0 < n)
    {g : Vec K n} {h : Mat K n n} (hs : SymmetricMat h)
    (hpd : ∀ v : Vec K n, 0 < dot v v → 0 < quadForm h v) (hlow : initialLower root g h ≠ 0) {x0 : Vec K n} :
    ∃ m, m ^ 2 ≤ dot g g - 999 / 1000 * curvatureBound root h ^ 2 ∧ GqBelow root ext g h m (gqStart root g h x0) := by
  set c := curvatureBound root h with hc
  obtain ⟨hG0, hG⟩ := norm2_sq hroot g
  set G := norm2 root g with hGdef
  have hdiag : ∀ i, 0 < h i i := fun i => by
    have := hpd (fun j => if j = i then 1 else 0) (by rw [(quadForm_unit h i).2]; exact one_pos)
    rwa [(quadForm_unit h i).1] at this
  have hc0 : 0 < c := by
    have h1 := form_le_upper hroot h hs (fun j => if j = ⟨0, hn⟩ then 1 else 0)
    rw [(quadForm_unit h ⟨0, hn⟩).1, (quadForm_unit h ⟨0, hn⟩).2, mul_one] at h1
    exact (hdiag ⟨0, hn⟩).trans_le h1
  obtain ⟨i, hi⟩ := vecMin_attained (fun i => h i i) hn
  have hL : initialLower root g h = G - c := by
    have h1 : initialLower root g h = max 0 (max (-(h i i)) (G - c)) := by rw [initialLower, hi]; rfl
    rw [h1] at hlow ⊢
    rcases le_total (G - c) 0 with h2 | h2
    · exact absurd (max_eq_left (max_le (by linarith [hdiag i]) h2)) hlow
    · rw [max_eq_right (by linarith [hdiag i] : -(h i i) ≤ G - c), max_eq_right h2]
  have hGc : c ≤ G := by
    have : 0 ≤ initialLower root g h := le_max_left _ _
    rw [hL] at this
    linarith
  have hdisc : 0 ≤ G ^ 2 - 999 / 1000 * c ^ 2 := by nlinarith
  obtain ⟨hm0, hm⟩ := hroot _ hdisc
  set m := root (G ^ 2 - 999 / 1000 * c ^ 2) with hmdef
  have hU : initialUpper root g h ≤ G + c := by
    refine max_le (by linarith) ?_
    have h1 : gershgorinUpper h = infNorm h := by
      simp only [gershgorinUpper, infNorm]
      congr 1
      funext j
      rw [abs_of_pos (hdiag j)]; ring
    have h2 : min (-(gershgorinLower h)) (min (froNorm root h) (infNorm h)) ≤ c := by
      rw [hc, curvatureBound, h1]
      exact le_min ((min_le_right _ _).trans (min_le_right _ _)) (min_le_right _ _)
    linarith
  have hU0 : 0 ≤ initialUpper root g h := le_max_left _ _
  have hlm : G - c ≤ m := by
    by_contra hcon
    push Not at hcon
    nlinarith
  refine ⟨m, by rw [← hG, sq, hm], ⟨by rw [← hL] at hlm; exact hlm, le_max_left _ _, fun _ => ?_, fun ha => by
    simp [gqStart] at ha⟩⟩
  have hlam : (gqStart root g h x0).lam = newLambda root (initialLower root g h) (initialUpper root g h) := by
    simp only [gqStart, initialLambda, if_neg hlow]
  rw [hlam]
  refine ⟨newLambda_nonneg hroot _ _, max_le ?_ ?_⟩
  · obtain ⟨h0, h1⟩ := hroot (max 0 (initialLower root g h * initialUpper root g h)) (le_max_left _ _)
    by_contra hcon
    push Not at hcon
    have h2 : max 0 (initialLower root g h * initialUpper root g h) ≤ m * m := by
      rw [hm]
      refine max_le hdisc ?_
      rw [hL]
      nlinarith [mul_le_mul_of_nonneg_left hU (sub_nonneg.2 hGc)]
    nlinarith
  · rw [hL]
    by_contra hcon
    push Not at hcon
    have h1 : m < G - 98 / 100 * c := by linarith
    have h2 := mul_self_lt_mul_self hm0 h1
    rw [hm] at h2
    nlinarith [mul_le_mul_of_nonneg_right hGc hc0.le]

theorem reach_below {root : K → K} (hroot : SqrtSpec root) {ext : GqExternal K n} (hext : GqSpec ext) (hn : 0 < n)
    {g : Vec K n} {h : Mat K n n} (hs : SymmetricMat h) {threshold kEasy kHard m : K} (hg : threshold < norm2 root g)
    (hpd : ∀ v : Vec K n, 0 < dot v v → 0 < quadForm h v) {x0 : Vec K n} {s : GqState K n}
    (hstart : GqBelow root ext g h m (gqStart root g h x0))
    (hr : GqReach (gqIteration root ext g h threshold kEasy kHard) (gqStart root g h x0) s) :
    GqBelow root ext g h m s ∨ GqLeft g h s := by
  induction hr with
  | start => exact .inl hstart
  | next hr hc hc' ih =>
    rcases ih with ih | ih
    · exact below_next hroot hext hn hs hg hpd ih
    · exact .inr (left_next hroot hext hs hg hpd ih)

/-- C45: a pass that reuses the factorization of an older factor does no harm unless the model is positive definite: on all
other models, when gqtpar reports success and the gradient is not treated as zero, the reduction of the model is at least
the share `1 - k_hard` of the reduction that any point of the unit ball achieves. -/
theorem C45_near_optimal_without_convexity {root : K → K} (hroot : SqrtSpec root) {ext : GqExternal K n}
    (hext : GqSpec ext) (hn : 0 < n) {eps kEasy kHard : K} (heps : 0 ≤ eps) (he0 : 0 ≤ kEasy)
    (hh0 : 0 ≤ kHard) (hh1 : kHard ≤ 1) {maxiter : Nat} {model : ScalarModel K n} {x0 : Vec K n}
    {raw : RawResult K n} {h : Mat K n n} (hh : model.squareTerms = some h) (hs : SymmetricMat h)
    {v : Vec K n} (hv : 0 < sumSq v) (hflat : ∑ i, ∑ j, h i j * v i * v j ≤ 0)
    (hg : gqThreshold eps h < norm2 root model.linearTerms)
    (hres : gqtpar root ext eps kEasy kHard maxiter model x0 = .ok raw) (hsucc : raw.success = true)
    (y : Vec K n) (hy : NormLe y 1) :
    quadModel model.linearTerms h raw.x ≤ (1 - kHard) * quadModel model.linearTerms h y := by
  refine C45_near_optimal_partial hroot hext hn heps he0 hh0 hh1 hh hs hg hres hsucc (fun s hr ha => ?_) y hy
  have hchol := ((gqReach_inv hroot hext hn hs hg hr).stale ha).2.2.1
  have hu := hext.chol_ok _ (addDiag_symm hs s.lam) hchol
  rw [sumSq_eq_dot] at hv
  have hpos := upperFactor_pos hu (d := v) (by rintro rfl; rw [dot_zero_left] at hv; exact lt_irrefl _ hv)
  rw [quadForm_addDiag] at hpos
  rw [sum_form_eq] at hflat
  by_contra hl
  nlinarith [not_lt.1 hl]

/-- C45: when gqtpar reports success and the gradient is not treated as zero, the reduction of the model is at least the
share `1 - k_hard`, but in no case less than 47 percent, of the reduction that any point of the unit ball achieves, on all
models. (The 47 percent are for passes that reuse the factorization of an older factor, see
`C45_near_optimal_without_convexity`.) -/
theorem C45_near_optimal {root : K → K} (hroot : SqrtSpec root) {ext : GqExternal K n}
    (hext : GqSpec ext) (hn : 0 < n) {eps kEasy kHard : K} (heps : 0 ≤ eps) (he0 : 0 ≤ kEasy)
    (hh0 : 0 ≤ kHard) (hh1 : kHard ≤ 1) {maxiter : Nat} {model : ScalarModel K n} {x0 : Vec K n}
    {raw : RawResult K n} {h : Mat K n n} (hh : model.squareTerms = some h) (hs : SymmetricMat h)
    (hg : gqThreshold eps h < norm2 root model.linearTerms)
    (hres : gqtpar root ext eps kEasy kHard maxiter model x0 = .ok raw) (hsucc : raw.success = true)
    (y : Vec K n) (hy : NormLe y 1) :
    quadModel model.linearTerms h raw.x ≤ min (1 - kHard) (47 / 100) * quadModel model.linearTerms h y := by
  obtain ⟨h', hh', s, hr, hc, hc', hx⟩ := gqtpar_last hres hsucc
  have e : h' = h := by rw [hh] at hh'; exact (Option.some.inj hh').symm
  subst e
  set g := model.linearTerms with hgdef
  have ht : 0 ≤ gqThreshold eps h' :=
    mul_nonneg (mul_nonneg (Nat.cast_nonneg n) heps) (infNorm_nonneg h' hn)
  have hmin0 : 0 ≤ min (1 - kHard) (47 / 100) := le_min (by linarith) (by norm_num)
  -- from the two estimates to the claim
  have hfin : (∀ y, NormLe y 1 → quadModel g h' raw.x ≤ (1 - kHard) * quadModel g h' y ∨
      quadModel g h' raw.x ≤ (1 - 53 / 100) * quadModel g h' y) →
      quadModel g h' raw.x ≤ min (1 - kHard) (47 / 100) * quadModel g h' y := by
    intro hall
    have h0 : quadModel g h' raw.x ≤ 0 := by
      have e0 : quadModel g h' (fun _ => 0) = 0 := by
        rw [quadModel_eq, quadForm_eq_dot, dot_zero_right, dot_zero_left]; simp
      rcases hall (fun _ => 0) (by simp [NormLe, sumSq]) with h1 | h1 <;> rw [e0, mul_zero] at h1 <;> exact h1
    rcases le_total 0 (quadModel g h' y) with h1 | h1
    · exact h0.trans (mul_nonneg hmin0 h1)
    · rcases hall y hy with h2 | h2
      · exact h2.trans (mul_le_mul_of_nonpos_right (min_le_left _ _) h1)
      · refine h2.trans (mul_le_mul_of_nonpos_right ?_ h1)
        exact (min_le_right _ _).trans (by norm_num)
  refine hfin fun y hy => ?_
  have hout := (gqIteration_outcome hroot hext hn hs hg ht he0 hh1
    (gqReach_inv hroot hext hn hs hg hr) hc hc').2 y hy hh0
  rw [← hx] at hout
  rcases hout with h1 | ⟨ha, hl⟩
  · exact .inl h1
  · right
    by_cases hpd : ∀ v : Vec K n, 0 < dot v v → 0 < quadForm h' v
    · by_cases hlow : initialLower root g h' = 0
      · exfalso
        rcases reach_left hroot hext hs hg hpd hlow hr with rfl | hleft
        · simp [gqStart] at ha
        · rw [hleft.fresh] at ha; cases ha
      · obtain ⟨m, hm, hstart⟩ := start_below (ext := ext) (x0 := x0) hroot hn hs hpd hlow
        rcases reach_below hroot hext hn hs hg hpd hstart hr with hb | hleft
        · have hconv : PosSemidef h' := fun v => by
            rw [sum_form_eq]
            by_cases hv : 0 < dot v v
            · exact (hpd v hv).le
            · have h0 : v = fun _ => 0 := by
                by_contra hne
                exact hv (dot_self_pos hne)
              rw [h0, quadForm_eq_dot, dot_zero_left]
          have hcb : 0 ≤ curvatureBound root h' := by
            have h1 := form_le_upper hroot h' hs (fun j => if j = ⟨0, hn⟩ then 1 else 0)
            rw [(quadForm_unit h' ⟨0, hn⟩).2, mul_one] at h1
            have := hpd (fun j => if j = ⟨0, hn⟩ then 1 else 0) (by rw [(quadForm_unit h' _).2]; exact one_pos)
            exact this.le.trans h1
          have := stale_value (kEasy := kEasy) (kHard := kHard) hroot hext hn hs hconv hg
            (form_le_upper hroot h' hs) hcb hm hb ha y hy
          rwa [← hx] at this
        · rw [hleft.fresh] at ha; cases ha
    · exfalso
      push Not at hpd
      obtain ⟨v, hv, hq⟩ := hpd
      have hchol := ((gqReach_inv hroot hext hn hs hg hr).stale ha).2.2.1
      have hu := hext.chol_ok _ (addDiag_symm hs s.lam) hchol
      have hpos := upperFactor_pos hu (d := v) (by rintro rfl; rw [dot_zero_left] at hv; exact lt_irrefl _ hv)
      rw [quadForm_addDiag] at hpos
      nlinarith

end Tranquilo
