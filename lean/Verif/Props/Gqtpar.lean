import Verif.Lemmas.GqtparLoop
import Verif.Props.Subproblem
import Mathlib.Tactic.NormNum

/-!
# C44, C45 and the solver specific part of C40: gqtpar

The library functions (Cholesky factorization, triangular solves, roots of a quadratic) enter through
the contract `GqSpec`.
-/

namespace Tranquilo

variable {K : Type} [Field K] [LinearOrder K] [IsStrictOrderedRing K] {n : Nat}

/-! ## C44: the bracket -/

/-- C44: for every bracket `0 ≤ lower ≤ upper` the update rule returns a factor inside it. -/
theorem C44_update_in_bracket {root : K → K} (hroot : SqrtSpec root) {lo up : K} (h0 : 0 ≤ lo)
    (h1 : lo ≤ up) : lo ≤ newLambda root lo up ∧ newLambda root lo up ≤ up := by
  have hup := h0.trans h1
  obtain ⟨hr0, hr1⟩ := hroot (max 0 (lo * up)) (le_max_left _ _)
  have hprod : 0 ≤ lo * up := mul_nonneg h0 hup
  rw [max_eq_right hprod] at hr0 hr1
  refine ⟨le_max_of_le_right (by linarith), max_le ?_ (by linarith)⟩
  rw [max_eq_right hprod]
  by_contra hc
  push Not at hc
  nlinarith

/-- C44: if the bracket is not a single point, the new factor lies strictly inside it, at least one
percent of the width above the lower bound. So the bracket shrinks with every failed attempt. -/
theorem C44_update_strictly_inside {root : K → K} (hroot : SqrtSpec root) {lo up : K} (h0 : 0 ≤ lo)
    (h1 : lo < up) : lo + (up - lo) / 100 ≤ newLambda root lo up ∧ newLambda root lo up < up := by
  have hup := h0.trans_lt h1
  obtain ⟨hr0, hr1⟩ := hroot (max 0 (lo * up)) (le_max_left _ _)
  have hprod : 0 ≤ lo * up := mul_nonneg h0 hup.le
  rw [max_eq_right hprod] at hr0 hr1
  refine ⟨le_max_of_le_right (by linarith), max_lt ?_ (by linarith)⟩
  rw [max_eq_right hprod]
  by_contra hc
  push Not at hc
  nlinarith

theorem initialLower_le_upper {root : K → K} (hroot : SqrtSpec root) (hn : 0 < n) (g : Vec K n)
    (h : Mat K n n) (hs : SymmetricMat h) : initialLower root g h ≤ initialUpper root g h := by
  have hg := (norm2_sq hroot g).1
  have hdiag : ∀ i, -(h i i) ≤ min (-(gershgorinLower h)) (min (froNorm root h) (infNorm h)) ∧
      h i i ≤ min (gershgorinUpper h) (min (froNorm root h) (infNorm h)) := by
    intro i
    obtain ⟨h1, h2⟩ := quadForm_unit h i
    have h3 := form_ge_lower hroot h hs (fun j => if j = i then 1 else 0)
    have h4 := form_le_upper hroot h hs (fun j => if j = i then 1 else 0)
    rw [h1, h2, mul_one] at h3 h4
    exact ⟨by linarith, h4⟩
  obtain ⟨i, hi⟩ := vecMin_attained (fun i => h i i) hn
  obtain ⟨h1, h2⟩ := hdiag i
  refine max_le (le_max_left _ _) (max_le ?_ ?_)
  · rw [hi]
    exact le_max_of_le_right (by linarith)
  · exact le_max_of_le_right (by linarith)

/-- C44: at the start `0 ≤ lower ≤ candidate ≤ upper`. -/
theorem C44_initial_bracket {root : K → K} (hroot : SqrtSpec root) (hn : 0 < n) (g : Vec K n)
    (h : Mat K n n) (hs : SymmetricMat h) :
    0 ≤ initialLower root g h ∧ initialLower root g h ≤ initialLambda root g h ∧
    initialLambda root g h ≤ initialUpper root g h := by
  have h0 : 0 ≤ initialLower root g h := le_max_left _ _
  have h1 := initialLower_le_upper hroot hn g h hs
  refine ⟨h0, ?_⟩
  by_cases hz : initialLower root g h = 0
  · rw [initialLambda, if_pos hz]
    exact ⟨hz.le, h0.trans h1⟩
  · rw [initialLambda, if_neg hz]
    exact C44_update_in_bracket hroot h0 h1

/-- C44: the initial bracket contains every multiplier of the subproblem, that is every factor for
which some point satisfies the optimality conditions. -/
theorem C44_initial_contains_multiplier {root : K → K} (hroot : SqrtSpec root) (hn : 0 < n)
    (g : Vec K n) (h : Mat K n n) (hs : SymmetricMat h) (x : Vec K n) (mu : K)
    (m : IsMultiplier g h x mu) :
    initialLower root g h ≤ mu ∧ mu ≤ initialUpper root g h := by
  obtain ⟨hg0, hg1⟩ := norm2_sq hroot g
  have hball : dot x x ≤ 1 := by
    have := m.inBall
    rwa [NormLe, sumSq_eq_dot, one_pow] at this
  have hstat := isMultiplier_matVec m
  have hpsd := isMultiplier_psd m
  constructor
  · refine max_le m.nonneg (max_le ?_ ?_)
    · obtain ⟨i, hi⟩ := vecMin_attained (fun i => h i i) hn
      have h1 := hpsd (fun j => if j = i then 1 else 0)
      rw [quadForm_addDiag, (quadForm_unit h i).1, (quadForm_unit h i).2] at h1
      rw [hi]
      linarith
    · set c := min (gershgorinUpper h) (min (froNorm root h) (infNorm h)) with hc
      have h1 := psd_norm_le (addDiag_symm hs mu) hpsd (c := c + mu) (fun y => by
        rw [quadForm_addDiag, add_mul]
        have := form_le_upper hroot h hs y
        linarith) x
      rw [hstat, dot_neg_left, dot_neg_right, neg_neg] at h1
      have hc0 : 0 ≤ c + mu := by
        have h2 := hpsd (fun j => if j = ⟨0, hn⟩ then 1 else 0)
        have h3 := form_le_upper hroot h hs (fun j => if j = ⟨0, hn⟩ then 1 else 0)
        rw [quadForm_addDiag, (quadForm_unit h ⟨0, hn⟩).2] at h2
        rw [(quadForm_unit h ⟨0, hn⟩).2] at h3
        linarith
      have h4 : norm2 root g ^ 2 ≤ (c + mu) ^ 2 := by
        rw [hg1]
        nlinarith [sq_nonneg (c + mu)]
      have h5 : norm2 root g ≤ c + mu := by
        by_contra hlt
        push Not at hlt
        nlinarith
      linarith
  · rcases m.nonneg.eq_or_lt with h0 | hpos
    · rw [← h0]; exact le_max_left _ _
    · have hone : dot x x = 1 := by
        have := m.complementary
        rw [sumSq_eq_dot] at this
        rcases mul_eq_zero.1 this with h1 | h1 <;> linarith
      have h1 : quadForm (addDiag h mu) x = -dot g x := by
        rw [quadForm_eq_dot, hstat, dot_neg_right, dot_comm]
      have h2 := form_ge_lower hroot h hs x
      rw [quadForm_addDiag, hone, mul_one] at h1
      rw [hone, mul_one] at h2
      have h3 := cauchy_schwarz g x
      rw [hone, mul_one, ← hg1] at h3
      have h4 : -dot g x ≤ norm2 root g := by
        by_contra hlt
        push Not at hlt
        nlinarith
      exact le_max_of_le_right (by linarith)

theorem gqStart_inv {root : K → K} (hroot : SqrtSpec root) (ext : GqExternal K n) (hn : 0 < n)
    (g : Vec K n) (h : Mat K n n) (hs : SymmetricMat h) (x0 : Vec K n) :
    GqInv root ext g h (gqStart root g h x0) where
  lower_nonneg := le_max_left _ _
  fresh := fun _ => by
    have := C44_initial_bracket hroot hn g h hs
    exact this.1.trans this.2.1
  stale := fun ha => by simp [gqStart] at ha
  valid := fun x mu m => (C44_initial_contains_multiplier hroot hn g h hs x mu m).1

theorem gqReach_inv {root : K → K} (hroot : SqrtSpec root) {ext : GqExternal K n}
    (hext : GqSpec ext) (hn : 0 < n) {g : Vec K n} {h : Mat K n n} (hs : SymmetricMat h)
    {threshold kEasy kHard : K} (hg : threshold < norm2 root g) {x0 : Vec K n} {s : GqState K n}
    (hr : GqReach (gqIteration root ext g h threshold kEasy kHard) (gqStart root g h x0) s) :
    GqInv root ext g h s := by
  induction hr with
  | start => exact gqStart_inv hroot ext hn g h hs x0
  | next _ _ _ ih => exact gqIteration_inv hroot hext hn hs hg ih

/-- C44, whole runs: in every pass of the loop the lower bound is nonnegative and at most every
multiplier of the subproblem. -/
theorem C44_lower_bound_valid {root : K → K} (hroot : SqrtSpec root) {ext : GqExternal K n}
    (hext : GqSpec ext) (hn : 0 < n) {g : Vec K n} {h : Mat K n n} (hs : SymmetricMat h)
    {threshold kEasy kHard : K} (hg : threshold < norm2 root g) {x0 : Vec K n} {s : GqState K n}
    (hr : GqReach (gqIteration root ext g h threshold kEasy kHard) (gqStart root g h x0) s)
    (x : Vec K n) (mu : K) (m : IsMultiplier g h x mu) : 0 ≤ s.lower ∧ s.lower ≤ mu :=
  let inv := gqReach_inv hroot hext hn hs hg hr
  ⟨inv.lower_nonneg, inv.valid x mu m⟩

/-! ## C45: optimality -/

/-- C45: the optimality conditions are sufficient for a global minimizer on the unit ball. -/
theorem C45_sufficient (g : Vec K n) (h : Mat K n n) (hs : SymmetricMat h) (x : Vec K n) (lam : K)
    (m : IsMultiplier g h x lam) : IsGlobalMin g h 1 x := by
  intro y hy
  have hst := isMultiplier_matVec m
  rw [NormLe, sumSq_eq_dot, one_pow] at hy
  have hcomp := m.complementary
  rw [sumSq_eq_dot] at hcomp
  rw [quadModel_around g h hs x y lam hst, quadModel_around g h hs x x lam hst]
  have e : (fun i => x i - x i) = fun i => (0 : K) * x i := by funext i; ring
  rw [e, quadForm_smul]
  have h1 := isMultiplier_psd m (fun i => y i - x i)
  have h2 := mul_le_mul_of_nonneg_left hy m.nonneg
  nlinarith

/-- The estimate behind the stopping rule for the hard case (More and Sorensen 1983, Lemma 3.4). -/
theorem near_optimal (g : Vec K n) (h : Mat K n n) (hs : SymmetricMat h) (p w : Vec K n)
    (lam sigma : K) (hlam : 0 ≤ lam) (hsig1 : sigma ≤ 1)
    (hpsd : ∀ y : Vec K n, 0 ≤ quadForm (addDiag h lam) y)
    (hp : matVec (addDiag h lam) p = fun i => -(g i)) (hw : dot w w = 1)
    (hstop : quadForm (addDiag h lam) (fun i => w i - p i)
      ≤ sigma * (quadForm (addDiag h lam) p + lam)) (y : Vec K n) (hy : NormLe y 1) :
    quadModel g h w ≤ (1 - sigma) * quadModel g h y := by
  rw [NormLe, sumSq_eq_dot, one_pow] at hy
  have h1 : -(quadForm (addDiag h lam) p + lam) / 2 ≤ quadModel g h y := by
    rw [quadModel_around g h hs p y lam hp]
    have h1 := hpsd (fun i => y i - p i)
    have h2 := mul_le_mul_of_nonneg_left hy hlam
    linarith
  have h2 : quadModel g h w ≤ -((1 - sigma) * (quadForm (addDiag h lam) p + lam)) / 2 := by
    rw [quadModel_around g h hs p w lam hp, hw]
    linarith
  have h3 := mul_le_mul_of_nonneg_left h1 (sub_nonneg.2 hsig1)
  linarith

/-- C45: the step to the boundary ends exactly on the unit sphere. -/
theorem C45_boundary_step_has_norm_one {ext : GqExternal K n} (hext : GqSpec ext) (x z : Vec K n)
    (hz : sumSq z = 1) (hx : NormLe x 1) : sumSq (fun i => x i + stepLen ext x z * z i) = 1 := by
  rw [NormLe, sumSq_eq_dot, one_pow] at hx
  rw [sumSq_eq_dot] at hz ⊢
  exact stepLen_spec hext hz hx

/-- What a successful pass returns. -/
theorem gqIteration_outcome {root : K → K} (hroot : SqrtSpec root) {ext : GqExternal K n}
    (hext : GqSpec ext) (hn : 0 < n) {g : Vec K n} {h : Mat K n n} (hs : SymmetricMat h)
    {threshold kEasy kHard : K} (hg : threshold < norm2 root g) (hgpos : 0 ≤ threshold)
    (he0 : 0 ≤ kEasy) (hh1 : kHard ≤ 1)
    {s : GqState K n} (inv : GqInv root ext g h s) (hc : s.converged = false)
    (hc' : (gqIteration root ext g h threshold kEasy kHard s).converged = true) :
    dot (gqIteration root ext g h threshold kEasy kHard s).x
        (gqIteration root ext g h threshold kEasy kHard s).x ≤ (1 + kEasy) ^ 2 ∧
    (∀ y, NormLe y 1 → 0 ≤ kHard →
      quadModel g h (gqIteration root ext g h threshold kEasy kHard s).x
        ≤ (1 - kHard) * quadModel g h y ∨ (s.already = true ∧ s.lam ≤ 0)) := by
  have hinfo : (refactorize ext h s).fac.info = 0 := by
    by_contra hinfo
    have hconv : (refactorize ext h s).converged = false := by
      simp only [refactorize]; split <;> exact hc
    simp only [gqIteration, hinfo, false_and, if_false, failedUpdate] at hc'
    split at hc' <;> simp_all
  obtain ⟨mu, r, hfresh⟩ := refactorize_ready hext hs inv hinfo
  have hconv : (refactorize ext h s).converged = false := by
    simp only [refactorize]; split <;> exact hc
  have hlam : (refactorize ext h s).lam = s.lam := by
    simp only [refactorize]; split <;> rfl
  simp only [gqIteration, hinfo, hg, and_self, if_true] at hc' ⊢
  generalize refactorize ext h s = t at *
  set p := ext.choSolve t.fac.upper (fun i => -(g i)) with hp
  have hpmu : matVec (addDiag h mu) p = fun i => -(g i) := choSolve_matVec hext r.factor
  have hpsd := upperFactor_psd r.factor
  have hpn := norm2_sq hroot p
  -- from optimal to (1 - kHard)-optimal
  have hrelax : ∀ w y : Vec K n, 0 ≤ kHard → quadModel g h w ≤ quadModel g h y →
      quadModel g h w ≤ 0 → quadModel g h w ≤ (1 - kHard) * quadModel g h y := by
    intro w y hh0 h1 h2
    rcases le_total 0 (quadModel g h y) with h3 | h3
    · exact h2.trans (mul_nonneg (by linarith) h3)
    · nlinarith
  have hzero : quadModel g h p ≤ 0 := by
    rw [quadModel_around g h hs p p mu hpmu]
    have e : (fun i => p i - p i) = fun i => (0 : K) * p i := by funext i; ring
    rw [e, quadForm_smul]
    have h1 := hpsd p
    have h2 := mul_nonneg r.mu_nonneg (dot_self_nonneg p)
    nlinarith
  by_cases hx : norm2 root p < 1
  · simp only [findNew, ← hp, hx, if_true] at hc' ⊢
    have hpp : dot p p < 1 := (norm2_lt_one hroot).1 hx
    have hz := smallestSingular_spec hroot hext hn r.factor
    simp only [withinUpdate] at hc' ⊢
    set z := (smallestSingular root ext t.fac.upper).2 with hzdef
    set sm := (smallestSingular root ext t.fac.upper).1 with hsm
    have hone := stepLen_spec hext hz.1 hpp.le
    by_cases hstop : stepLen ext p z ^ 2 * sm ^ 2 / (quadForm t.hPlus p + t.lam) ≤ kHard
    · simp only [hstop, if_true]
      refine ⟨by rw [hone]; nlinarith, fun y hy hh0 => ?_⟩
      by_cases hbad : s.already = true ∧ s.lam ≤ 0
      · exact Or.inr hbad
      · left
        have hlam0 : 0 ≤ t.lam := by
          rw [hlam]
          cases ha : s.already with
          | false => exact inv.fresh ha
          | true =>
            by_contra hneg
            exact hbad ⟨ha, (not_le.1 hneg).le⟩
        have hgne : p ≠ fun _ => 0 := by
          intro h0
          have hg0 : g = fun _ => 0 := by
            funext i
            have := congrFun hpmu i
            rw [h0] at this
            simp only [matVec, mul_zero, Finset.sum_const_zero] at this
            linarith
          have : norm2 root g = 0 := by
            have h1 := norm2_sq hroot g
            rw [hg0, dot_zero_left] at h1
            have := pow_eq_zero_iff (two_ne_zero) |>.1 h1.2
            rw [hg0]; exact this
          linarith
        have hfl := hext.chol_ok _ (addDiag_symm hs t.lam) r.chol
        have hden : 0 < quadForm t.hPlus p + t.lam := by
          rw [r.hPlus]
          have := upperFactor_pos hfl hgne
          linarith
        rw [div_le_iff₀ hden, r.hPlus] at hstop
        refine near_optimal g h hs p _ mu kHard r.mu_nonneg hh1 hpsd hpmu hone ?_ y hy
        have e : (fun i => (fun i => p i + stepLen ext p z * z i) i - p i)
            = fun i => stepLen ext p z * z i := by funext i; ring
        rw [e, quadForm_smul, ← hz.2]
        refine hstop.trans (mul_le_mul_of_nonneg_left ?_ hh0)
        rw [quadForm_addDiag, quadForm_addDiag]
        have h1 := mul_le_mul_of_nonneg_right r.lam_le (dot_self_nonneg p)
        linarith [r.lam_le]
    · simp only [hstop, if_false] at hc' ⊢
      refine ⟨by nlinarith, fun y _ hh0 => ?_⟩
      have hl0 : t.lam = 0 := by
        by_contra hne
        simp [hne, hconv] at hc'
      by_cases ha : s.already = true
      · exact Or.inr ⟨ha, by rw [← hlam, hl0]⟩
      · left
        have hmu0 : mu = 0 := by
          rw [hfresh (by simpa using ha), ← hlam, hl0]
        refine hrelax p y hh0 ?_ hzero
        rw [quadModel_around g h hs p p mu hpmu, quadModel_around g h hs p y mu hpmu]
        have e : (fun i => p i - p i) = fun i => (0 : K) * p i := by funext i; ring
        rw [e, quadForm_smul, hmu0]
        have h1 := hpsd (fun i => y i - p i)
        rw [hmu0] at h1
        linarith
  · simp only [findNew, ← hp, hx, if_false] at hc' ⊢
    have hx1 : 1 ≤ norm2 root p := not_lt.1 hx
    have heasy : |norm2 root p - 1| ≤ kEasy := by
      by_contra hne
      simp only [hne, if_false] at hc'
      by_cases hle : norm2 root p ≤ 1 ∧ t.lam = 0
      · have : norm2 root p = 1 := le_antisymm hle.1 hx1
        rw [this, sub_self, abs_zero] at hne
        exact hne he0
      · simp [hle, hconv] at hc'
    have hle : norm2 root p ≤ 1 + kEasy := by linarith [(abs_le.1 heasy).2]
    refine ⟨by rw [← hpn.2]; nlinarith, fun y hy hh0 => Or.inl (hrelax p y hh0 ?_ hzero)⟩
    rw [NormLe, sumSq_eq_dot, one_pow] at hy
    rw [quadModel_around g h hs p p mu hpmu, quadModel_around g h hs p y mu hpmu]
    have e : (fun i => p i - p i) = fun i => (0 : K) * p i := by funext i; ring
    rw [e, quadForm_smul]
    have h1 := hpsd (fun i => y i - p i)
    have h2 : dot y y ≤ dot p p := by rw [← hpn.2]; nlinarith
    have h3 := mul_le_mul_of_nonneg_left h2 r.mu_nonneg
    linarith

/-- gqtpar with success: the last pass and the state it started from. -/
theorem gqtpar_last {root : K → K} {ext : GqExternal K n} {eps kEasy kHard : K} {maxiter : Nat}
    {model : ScalarModel K n} {x0 : Vec K n} {raw : RawResult K n}
    (hres : gqtpar root ext eps kEasy kHard maxiter model x0 = .ok raw) (hsucc : raw.success = true) :
    ∃ h, model.squareTerms = some h ∧ ∃ s, GqReach
      (gqIteration root ext model.linearTerms h (gqThreshold eps h) kEasy kHard)
      (gqStart root model.linearTerms h x0) s ∧ s.converged = false ∧
      (gqIteration root ext model.linearTerms h (gqThreshold eps h) kEasy kHard s).converged = true ∧
      raw.x = (gqIteration root ext model.linearTerms h (gqThreshold eps h) kEasy kHard s).x := by
  unfold gqtpar at hres
  split at hres
  · cases hres
  · rename_i h hh
    split at hres
    · cases hres
    · simp only [gqRun, Except.ok.injEq] at hres
      subst hres
      obtain ⟨s, h1, h2, h3⟩ := gqLoop_last
        (gqIteration root ext model.linearTerms h (gqThreshold eps h) kEasy kHard)
        (gqStart root model.linearTerms h x0) maxiter 0 _ .start rfl hsucc
      refine ⟨h, hh, s, h1, h2, ?_, ?_⟩
      · rw [← h3]; exact hsucc
      · rw [h3]

theorem infNorm_nonneg (h : Mat K n n) (hn : 0 < n) : 0 ≤ infNorm h := by
  refine le_trans ?_ (le_vecMax (absRowSum h) ⟨0, hn⟩)
  exact Finset.sum_nonneg fun j _ => abs_nonneg _

/-- C40, the part of the default solver: when gqtpar reports success and the gradient is not treated as
zero, its point is in the unit ball up to the factor `1 + k_easy`. -/
theorem C40_gqtpar_norm_partial {root : K → K} (hroot : SqrtSpec root) {ext : GqExternal K n}
    (hext : GqSpec ext) (hn : 0 < n) {eps kEasy kHard : K} (heps : 0 ≤ eps) (he0 : 0 ≤ kEasy)
    (hh1 : kHard ≤ 1) {maxiter : Nat} {model : ScalarModel K n} {x0 : Vec K n} {raw : RawResult K n}
    (hsym : ∀ h, model.squareTerms = some h → SymmetricMat h ∧
      gqThreshold eps h < norm2 root model.linearTerms)
    (hres : gqtpar root ext eps kEasy kHard maxiter model x0 = .ok raw) (hsucc : raw.success = true) :
    NormLe raw.x (1 + kEasy) := by
  obtain ⟨h, hh, s, hr, hc, hc', hx⟩ := gqtpar_last hres hsucc
  obtain ⟨hs, hg⟩ := hsym h hh
  have ht : 0 ≤ gqThreshold eps h :=
    mul_nonneg (mul_nonneg (Nat.cast_nonneg n) heps) (infNorm_nonneg h hn)
  have := (gqIteration_outcome hroot hext hn hs hg ht he0 hh1
    (gqReach_inv hroot hext hn hs hg hr) hc hc').1
  rwa [← hx, ← sumSq_eq_dot] at this

/-- C45: when gqtpar reports success and the gradient is not treated as zero, the model value of its
point is at most `1 - k_hard` times the smallest value on the unit ball (which is at most zero).

Two things are missing compared with the English claim. The factor `1 - k_hard` cannot be dropped, even
when the loop stops with lambda = 0 inside the ball (`C45_violated_interior`). And a pass is excluded
that reuses the stored Cholesky factor with a factor lambda that is not positive: the code keeps the
factor of an older lambda in that case (`withinUpdate`), and its stopping rules mean nothing. Such a pass
needs a positive definite model (`C45_near_optimal_without_convexity`, `C45_near_optimal`). -/
theorem C45_near_optimal_partial {root : K → K} (hroot : SqrtSpec root) {ext : GqExternal K n}
    (hext : GqSpec ext) (hn : 0 < n) {eps kEasy kHard : K} (heps : 0 ≤ eps) (he0 : 0 ≤ kEasy)
    (hh0 : 0 ≤ kHard) (hh1 : kHard ≤ 1) {maxiter : Nat} {model : ScalarModel K n} {x0 : Vec K n}
    {raw : RawResult K n} {h : Mat K n n} (hh : model.squareTerms = some h) (hs : SymmetricMat h)
    (hg : gqThreshold eps h < norm2 root model.linearTerms)
    (hres : gqtpar root ext eps kEasy kHard maxiter model x0 = .ok raw) (hsucc : raw.success = true)
    (hreuse : ∀ s, GqReach (gqIteration root ext model.linearTerms h (gqThreshold eps h) kEasy kHard)
      (gqStart root model.linearTerms h x0) s → s.already = true → 0 < s.lam)
    (y : Vec K n) (hy : NormLe y 1) :
    quadModel model.linearTerms h raw.x ≤ (1 - kHard) * quadModel model.linearTerms h y := by
  obtain ⟨h', hh', s, hr, hc, hc', hx⟩ := gqtpar_last hres hsucc
  have e : h' = h := by rw [hh] at hh'; exact (Option.some.inj hh').symm
  subst e
  have ht : 0 ≤ gqThreshold eps h' :=
    mul_nonneg (mul_nonneg (Nat.cast_nonneg n) heps) (infNorm_nonneg h' hn)
  rcases (gqIteration_outcome hroot hext hn hs hg ht he0 hh1
    (gqReach_inv hroot hext hn hs hg hr) hc hc').2 y hy hh0 with h1 | h1
  · rwa [hx]
  · exact absurd h1.2 (not_le.2 (hreuse s hr h1.1))

/-- C45: in the first pass nothing is reused. If gqtpar succeeds there, the point is near optimal without
further conditions. -/
theorem C45_first_pass {root : K → K} (hroot : SqrtSpec root) {ext : GqExternal K n}
    (hext : GqSpec ext) (hn : 0 < n) {eps kEasy kHard : K} (heps : 0 ≤ eps) (he0 : 0 ≤ kEasy)
    (hh0 : 0 ≤ kHard) (hh1 : kHard ≤ 1) {model : ScalarModel K n} {x0 : Vec K n}
    {raw : RawResult K n} {h : Mat K n n} (hh : model.squareTerms = some h) (hs : SymmetricMat h)
    (hg : gqThreshold eps h < norm2 root model.linearTerms)
    (hres : gqtpar root ext eps kEasy kHard 1 model x0 = .ok raw) (hsucc : raw.success = true)
    (y : Vec K n) (hy : NormLe y 1) :
    quadModel model.linearTerms h raw.x ≤ (1 - kHard) * quadModel model.linearTerms h y := by
  have ht : 0 ≤ gqThreshold eps h :=
    mul_nonneg (mul_nonneg (Nat.cast_nonneg n) heps) (infNorm_nonneg h hn)
  simp only [gqtpar, hh, one_ne_zero, if_false, gqRun, gqLoop, Except.ok.injEq] at hres
  have hx : raw.x = (gqIteration root ext model.linearTerms h (gqThreshold eps h) kEasy kHard
      (gqStart root model.linearTerms h x0)).x ∧
      (gqIteration root ext model.linearTerms h (gqThreshold eps h) kEasy kHard
        (gqStart root model.linearTerms h x0)).converged = true := by
    split at hres <;> subst hres <;> exact ⟨rfl, hsucc⟩
  rcases (gqIteration_outcome hroot hext hn hs hg ht he0 hh1
    (gqStart_inv hroot ext hn _ h hs x0) rfl hx.2).2 y hy hh0 with h1 | h1
  · rwa [hx.1]
  · simp [gqStart] at h1

end Tranquilo
