import Verif.Lemmas.GqtparAll

/-!
# The loop of gqtpar ends with success on models that are not positive definite
-/

namespace Tranquilo

variable {n : Nat}

/-- Some number of passes from `s` ends with success. -/
def EndsFrom (step : GqState ℝ n → GqState ℝ n) (s : GqState ℝ n) : Prop :=
  ∃ M, ∀ k, (gqLoop step M k s).2.converged = true

theorem ends_of_next {step : GqState ℝ n → GqState ℝ n} {s : GqState ℝ n}
    (h : (step s).converged = true ∨ EndsFrom step (step s)) : EndsFrom step s := by
  by_cases hc : (step s).converged = true
  · exact ⟨1, fun k => by simp [gqLoop, hc]⟩
  · obtain ⟨M, hM⟩ := h.resolve_left hc
    exact ⟨M + 1, fun k => by simp only [gqLoop, hc, Bool.false_eq_true, if_false]; exact hM _⟩

/-! ## Points outside -/

/-- From a factor whose point is not inside, the loop ends with success. -/
theorem left_ends {root : ℝ → ℝ} (hroot : SqrtSpec root) {ext : GqExternal ℝ n} (hext : GqSpec ext)
    {g : Vec ℝ n} {h : Mat ℝ n n} (hs : SymmetricMat h) {threshold kEasy kHard : ℝ} (hg : threshold < norm2 root g)
    (hkEasy : 0 < kEasy) {s : GqState ℝ n} (hfresh : s.already = false) (hpd : ShiftPD h s.lam)
    (hout : ∀ q, matVec (addDiag h s.lam) q = (fun i => -(g i)) → 1 ≤ dot q q) :
    EndsFrom (gqIteration root ext g h threshold kEasy kHard) s := by
  obtain ⟨a0, ha0, hform⟩ := shiftPD_coercive hext hs hpd
  set a := a0 - s.lam with hadef
  have ha : ∀ v : Vec ℝ n, a * dot v v ≤ quadForm h v := fun v => by
    have := hform v
    rw [quadForm_addDiag] at this
    rw [hadef]; linarith
  have hpos : 0 < a + s.lam := by rw [hadef]; linarith
  clear_value a
  obtain ⟨m, hm⟩ := pow_unbounded_of_one_lt (norm2 root g / (a + s.lam)) (by linarith : 1 < 1 + kEasy)
  rw [div_lt_iff₀ hpos, mul_comm] at hm
  clear hform hpd hadef
  induction m generalizing s with
  | zero =>
    exfalso
    have hpd : ShiftPD h s.lam := fun v hv => by
      rw [quadForm_addDiag]
      nlinarith [ha v, mul_pos hpos hv]
    obtain ⟨_, hu⟩ := shiftPD_chol hext hs hpd
    have hpm := choSolve_matVec (g := g) hext hu
    have := outside_factor_le hroot ha hpos hpm (hout _ hpm)
    rw [pow_zero, mul_one] at hm
    linarith
  | succ m ih =>
    have hpd : ShiftPD h s.lam := fun v hv => by
      rw [quadForm_addDiag]
      nlinarith [ha v, mul_pos hpos hv]
    obtain ⟨hinfo, hu⟩ := shiftPD_chol hext hs hpd
    apply ends_of_next
    have e : refactorize ext h s = { s with hPlus := addDiag h s.lam, fac := ext.chol (addDiag h s.lam) } := by
      simp [refactorize, hfresh]
    simp only [gqIteration, e, hinfo, hg, and_self, if_true]
    set p := ext.choSolve (ext.chol (addDiag h s.lam)).upper (fun i => -(g i)) with hp
    have hpm : matVec (addDiag h s.lam) p = fun i => -(g i) := choSolve_matVec hext hu
    have hpp := hout p hpm
    have hx : ¬ norm2 root p < 1 := fun hlt => absurd ((norm2_lt_one hroot).1 hlt) (not_lt.2 hpp)
    simp only [findNew, ← hp, hx, if_false]
    by_cases heasy : |norm2 root p - 1| ≤ kEasy
    · left; simp [heasy]
    · right
      rw [abs_of_nonneg (by linarith [not_lt.1 hx])] at heasy
      have hgrow := newton_growth hroot hext ha hpos hu (p := p) hkEasy.le (by linarith)
      have hge := newtonStep_ge (lam := s.lam) (w := norm2 root (ext.solveTransposed (ext.chol (addDiag h s.lam)).upper p))
        (not_lt.1 hx)
      refine ih ?_ ?_ ?_ ?_
      · exact hfresh
      · intro q hq
        exact newton_stays_outside hroot hext hs hu hpm (not_lt.1 hx) hq
      · dsimp only
        linarith
      · dsimp only
        refine hm.trans_le ?_
        rw [pow_succ, ← mul_assoc, mul_right_comm]
        have h0 : 0 ≤ (1 + kEasy) ^ m := pow_nonneg (by linarith) m
        nlinarith [mul_le_mul_of_nonneg_right hgrow h0]

/-! ## Points inside -/

/-- The next pass factorizes; the factor comes from the bracket. -/
structure FreshState (root : ℝ → ℝ) (g : Vec ℝ n) (h : Mat ℝ n n) (b : ℝ) (s : GqState ℝ n) : Prop where
  fresh : s.already = false
  low0 : 0 ≤ s.lower
  low : s.lower ≤ insideInf g h
  upper : ShiftPD h s.upper
  upper_le : s.upper ≤ b
  lam : s.lam = newLambda root s.lower s.upper

/-- The next pass reuses the factorization `u`. -/
structure StaleState (g : Vec ℝ n) (h u : Mat ℝ n n) (b : ℝ) (s : GqState ℝ n) : Prop where
  stale : s.already = true
  info : s.fac.info = 0
  factor : s.fac.upper = u
  low0 : 0 ≤ s.lower
  low : s.lower ≤ insideInf g h
  lam : ShiftPD h s.lam
  lam_le : s.lam ≤ b

/-- The update for points inside of the ball. -/
theorem within_outcome {root : ℝ → ℝ} (hroot : SqrtSpec root) {ext : GqExternal ℝ n} (hext : GqSpec ext) (hn : 0 < n)
    {g : Vec ℝ n} {h : Mat ℝ n n} (hs : SymmetricMat h) (hnot : NotPD h) {kHard mu newton : ℝ} {s : GqState ℝ n}
    (hna : s.already = false) (hinfo : s.fac.info = 0) (hlow0 : 0 ≤ s.lower) (hlow : s.lower ≤ insideInf g h)
    (hu : UpperFactor s.fac.upper (addDiag h mu)) (hle : s.lam ≤ mu) (hpd : ShiftPD h s.lam) (hnewton : newton ≤ s.lam) :
    (StaleState g h s.fac.upper s.lam (withinUpdate root ext h kHard s newton) ∧
      (withinUpdate root ext h kHard s newton).lam = newton) ∨
    FreshState root g h s.lam (withinUpdate root ext h kHard s newton) := by
  obtain ⟨hz, hsz⟩ := smallestSingular_spec hroot hext hn hu
  have hlow2 : s.lam - (smallestSingular root ext s.fac.upper).1 ^ 2 ≤ insideInf g h := by
    refine le_insideInf hext hs fun nu hnu => ?_
    have h1 := hnu.1 (smallestSingular root ext s.fac.upper).2 (by rw [hz]; exact one_pos)
    rw [hsz, quadForm_addDiag, hz]
    rw [quadForm_addDiag, hz] at h1
    linarith
  by_cases hok : (ext.chol (addDiag h newton)).info = 0
  · left
    refine ⟨⟨?_, hinfo, rfl, ?_, ?_, ?_, ?_⟩, ?_⟩
    · simp [withinUpdate, hok]
    · simp only [withinUpdate, hok, if_true]
      exact le_max_of_le_left hlow0
    · simp only [withinUpdate, hok, if_true]
      exact max_le hlow hlow2
    · simp only [withinUpdate, hok, if_true]
      exact shiftPD_of_factor (hext.chol_ok _ (addDiag_symm hs newton) hok)
    · simp only [withinUpdate, hok, if_true]
      exact hnewton
    · simp [withinUpdate, hok]
  · right
    have hlow3 : newton ≤ insideInf g h := by
      refine le_insideInf hext hs fun nu hnu => ?_
      by_contra hc
      push Not at hc
      exact hok (shiftPD_chol hext hs (shiftPD_mono hnu.1 hc.le)).1
    refine ⟨?_, ?_, ?_, ?_, ?_, ?_⟩
    · simp [withinUpdate, hok, hna]
    · simp only [withinUpdate, hok, if_false]
      exact le_max_of_le_left (le_max_of_le_left hlow0)
    · simp only [withinUpdate, hok, if_false]
      exact max_le (max_le hlow hlow2) hlow3
    · exact hpd
    · exact le_rfl
    · simp only [withinUpdate, hok, if_false]

/-- The Newton correction of a factor whose point is inside. -/
noncomputable def newtonDrop (root : ℝ → ℝ) (ext : GqExternal ℝ n) (g : Vec ℝ n) (u : Mat ℝ n n) : ℝ :=
  (norm2 root (ext.choSolve u fun i => -(g i)) / norm2 root (ext.solveTransposed u (ext.choSolve u fun i => -(g i)))) ^ 2
    * (1 - norm2 root (ext.choSolve u fun i => -(g i)))

theorem newtonDrop_pos {root : ℝ → ℝ} (hroot : SqrtSpec root) {ext : GqExternal ℝ n} (hext : GqSpec ext)
    {g : Vec ℝ n} {h u : Mat ℝ n n} {mu : ℝ} (hg : 0 < dot g g) (hu : UpperFactor u (addDiag h mu))
    (hin : norm2 root (ext.choSolve u fun i => -(g i)) < 1) : 0 < newtonDrop root ext g u := by
  unfold newtonDrop
  have hpm := choSolve_matVec (g := g) hext hu
  set p := ext.choSolve u (fun i => -(g i)) with hp
  have hpne : p ≠ fun _ => 0 := by
    intro h0
    rw [h0] at hpm
    have : g = fun _ => 0 := by
      funext i
      have := congrFun hpm i
      simp [matVec] at this
      linarith
    rw [this, dot_zero_left] at hg
    exact lt_irrefl _ hg
  have hppos := dot_self_pos hpne
  obtain ⟨hP0, hP⟩ := norm2_sq hroot p
  have hPpos : 0 < norm2 root p := by
    rcases hP0.eq_or_lt with h0 | h0
    · rw [← h0] at hP; linarith
    · exact h0
  obtain ⟨v, hv, hw⟩ := newton_weight hext hu p
  obtain ⟨hW0, hW⟩ := norm2_sq hroot (ext.solveTransposed u p)
  have hvne : v ≠ fun _ => 0 := by
    rintro rfl
    have : p = fun _ => 0 := by rw [← hv]; funext i; simp [matVec]
    exact hpne this
  have hvp : 0 < dot v p := by
    have := upperFactor_pos hu hvne
    rwa [quadForm_eq_dot, hv] at this
  have hWpos : 0 < norm2 root (ext.solveTransposed u p) := by
    rcases hW0.eq_or_lt with h0 | h0
    · rw [← h0, hw] at hW; linarith
    · exact h0
  exact mul_pos (pow_pos (div_pos hPpos hWpos) 2) (by linarith)

theorem newtonStep_drop {root : ℝ → ℝ} {ext : GqExternal ℝ n} {g : Vec ℝ n} {u : Mat ℝ n n} (lam : ℝ) :
    newtonStep lam (norm2 root (ext.choSolve u fun i => -(g i)))
      (norm2 root (ext.solveTransposed u (ext.choSolve u fun i => -(g i)))) = lam - newtonDrop root ext g u := by
  simp only [newtonStep, newtonDrop]; ring

/-- Passes that reuse a factorization lead to a new factor from the bracket, or to success. -/
theorem stale_ends {root : ℝ → ℝ} (hroot : SqrtSpec root) {ext : GqExternal ℝ n} (hext : GqSpec ext) (hn : 0 < n)
    {g : Vec ℝ n} {h u : Mat ℝ n n} (hs : SymmetricMat h) (hnot : NotPD h) {threshold kEasy kHard mu : ℝ}
    (hg : threshold < norm2 root g) (hg0 : 0 < dot g g) (hu : UpperFactor u (addDiag h mu))
    (hin : norm2 root (ext.choSolve u fun i => -(g i)) < 1)
    (hrest : ∀ s, FreshState root g h mu s → EndsFrom (gqIteration root ext g h threshold kEasy kHard) s)
    {s : GqState ℝ n} (st : StaleState g h u mu s) :
    EndsFrom (gqIteration root ext g h threshold kEasy kHard) s := by
  have hd := newtonDrop_pos hroot hext hg0 hu hin
  obtain ⟨N, hN⟩ := exists_nat_ge (s.lam / newtonDrop root ext g u)
  rw [div_le_iff₀ hd] at hN
  induction N generalizing s with
  | zero =>
    have := shiftPD_pos hnot st.lam
    simp at hN
    linarith
  | succ N ih =>
    apply ends_of_next
    have e : refactorize ext h s = { s with already := false } := by simp [refactorize, st.stale]
    have hfac := st.factor
    simp only [gqIteration, e, st.info, hg, and_self, if_true, findNew, hfac, hin, newtonStep_drop]
    rcases within_outcome (kHard := kHard) (mu := mu) (newton := s.lam - newtonDrop root ext g u)
      (s := { s with
        already := false, x := ext.choSolve u fun i => -(g i)
        converged := if norm2 root (ext.choSolve u fun i => -(g i)) ≤ 1 ∧ s.lam = 0 then true else s.converged })
      hroot hext hn hs hnot rfl st.info st.low0 st.low (by dsimp only; rw [hfac]; exact hu) st.lam_le st.lam
      (by dsimp only; linarith) with ⟨hst, hlam⟩ | hf
    · right
      dsimp only at hst
      rw [hfac] at hst
      refine ih ⟨hst.stale, hst.info, hst.factor, hst.low0, hst.low, hst.lam, hst.lam_le.trans st.lam_le⟩ ?_
      rw [hlam]
      push_cast at hN
      linarith
    · right
      refine hrest _ ⟨hf.fresh, hf.low0, hf.low, hf.upper, hf.upper_le.trans st.lam_le, hf.lam⟩

/-- Failed factorizations move the lower end of the bracket until a factorization works. -/
theorem failed_ends {root : ℝ → ℝ} (hroot : SqrtSpec root) {ext : GqExternal ℝ n} (hext : GqSpec ext)
    {g : Vec ℝ n} {h : Mat ℝ n n} (hs : SymmetricMat h) {threshold kEasy kHard b : ℝ}
    (hrest : ∀ s, FreshState root g h b s → ShiftPD h s.lam →
      EndsFrom (gqIteration root ext g h threshold kEasy kHard) s)
    {s : GqState ℝ n} (fr : FreshState root g h b s) :
    EndsFrom (gqIteration root ext g h threshold kEasy kHard) s := by
  obtain ⟨a, ha0, ha⟩ := shiftPD_coercive hext hs fr.upper
  obtain ⟨N, hN⟩ : ∃ N : ℕ, (99 / 100 : ℝ) ^ N * (s.upper - s.lower) < a := by
    rcases le_or_gt (s.upper - s.lower) 0 with h0 | h0
    · exact ⟨0, by rw [pow_zero, one_mul]; linarith⟩
    · obtain ⟨N, hN⟩ := exists_pow_lt_of_lt_one (div_pos ha0 h0) (by norm_num : (99 / 100 : ℝ) < 1)
      exact ⟨N, by rwa [lt_div_iff₀ h0] at hN⟩
  have hlamge : ∀ t : GqState ℝ n, FreshState root g h b t → t.lower + (t.upper - t.lower) / 100 ≤ t.lam := by
    intro t ft
    rw [ft.lam]
    exact le_max_of_le_right (by linarith)
  generalize hup : s.upper = up at ha hN
  induction N generalizing s with
  | zero =>
    refine hrest s fr fun v hv => ?_
    rw [pow_zero, one_mul] at hN
    have h1 := hlamge s fr
    rw [hup] at h1
    have h2 := ha v
    rw [quadForm_addDiag] at h2 ⊢
    have h3 : up - a < s.lam := by
      rcases le_total s.lower up with h | h <;> linarith
    nlinarith
  | succ N ih =>
    by_cases hpd : ShiftPD h s.lam
    · exact hrest s fr hpd
    · have hinfo : (ext.chol (addDiag h s.lam)).info ≠ 0 := fun h0 =>
        hpd (shiftPD_of_factor (hext.chol_ok _ (addDiag_symm hs s.lam) h0))
      have e : refactorize ext h s = { s with hPlus := addDiag h s.lam, fac := ext.chol (addDiag h s.lam) } := by
        simp [refactorize, fr.fresh]
      have hle := hext.info_le (addDiag h s.lam)
      have hk : (ext.chol (addDiag h s.lam)).info - 1 < n := by omega
      have hf : LeadingFactor (ext.chol (addDiag h s.lam)).upper (addDiag h s.lam) ⟨(ext.chol (addDiag h s.lam)).info - 1, hk⟩ :=
        hext.chol_fail (addDiag h s.lam) (addDiag_symm hs s.lam) _ (by simp; omega)
      have hform := singularVector_form hext (addDiag_symm hs s.lam) hf
      have hvpos := singularVector_pos (ext := ext) (u := (ext.chol (addDiag h s.lam)).upper)
        (k := ⟨(ext.chol (addDiag h s.lam)).info - 1, hk⟩)
      have hdelta : 0 ≤ singularDelta (ext.chol (addDiag h s.lam)).upper (addDiag h s.lam)
          ⟨(ext.chol (addDiag h s.lam)).info - 1, hk⟩ := by
        have := hf.pivot
        simp only [singularDelta]
        linarith
      apply ends_of_next
      right
      simp only [gqIteration, e, hinfo, false_and, if_false, failedUpdate, hk, dif_pos]
      set v := singularVector ext (ext.chol (addDiag h s.lam)).upper ⟨(ext.chol (addDiag h s.lam)).info - 1, hk⟩ with hv
      set delta := singularDelta (ext.chol (addDiag h s.lam)).upper (addDiag h s.lam)
          ⟨(ext.chol (addDiag h s.lam)).info - 1, hk⟩ with hdel
      have hnorm := (norm2_sq hroot v).2
      have hlow : s.lam + delta / norm2 root v ^ 2 ≤ insideInf g h := by
        refine le_insideInf hext hs fun nu hnu => ?_
        have h1 := hnu.1 v hvpos
        rw [quadForm_addDiag] at h1 hform
        rw [hnorm, ← le_sub_iff_add_le', div_le_iff₀ hvpos]
        linarith
      refine ih ⟨fr.fresh, le_max_of_le_left fr.low0, max_le fr.low hlow, fr.upper, fr.upper_le, rfl⟩ hup ?_
      dsimp only
      have h1 := hlamge s fr
      rw [hup] at h1
      have h2 : s.lam ≤ max s.lower (s.lam + delta / norm2 root v ^ 2) := by
        have : 0 ≤ delta / norm2 root v ^ 2 := div_nonneg hdelta (sq_nonneg _)
        exact le_max_of_le_right (by linarith)
      have h3 : up - max s.lower (s.lam + delta / norm2 root v ^ 2) ≤ 99 / 100 * (up - s.lower) := by linarith
      refine lt_of_le_of_lt ?_ hN
      rw [pow_succ (99 / 100 : ℝ) N, mul_assoc]
      exact mul_le_mul_of_nonneg_left h3 (by positivity)

/-- The next factor is at most half as far from the limit as the upper end of the bracket. -/
theorem newLambda_half {root : ℝ → ℝ} (hroot : SqrtSpec root) {lo up m : ℝ} (h0 : 0 ≤ lo) (h1 : lo ≤ m) (h2 : m ≤ up) :
    newLambda root lo up ≤ (m + up) / 2 := by
  obtain ⟨hr0, hr1⟩ := hroot (max 0 (lo * up)) (le_max_left _ _)
  refine max_le ?_ (by linarith)
  have h3 : max 0 (lo * up) ≤ m * up := max_le (by nlinarith) (by nlinarith)
  by_contra hc
  push Not at hc
  nlinarith [sq_nonneg (up - m)]

/-- From every factor for which the factorization works, the loop ends with success. -/
theorem good_ends {root : ℝ → ℝ} (hroot : SqrtSpec root) {ext : GqExternal ℝ n} (hext : GqSpec ext) (hn : 0 < n)
    {g : Vec ℝ n} {h : Mat ℝ n n} (hs : SymmetricMat h) (hnot : NotPD h) {threshold kEasy kHard : ℝ}
    (hg : threshold < norm2 root g) (hg0 : 0 < dot g g) (hkEasy : 0 < kEasy) (hkHard : 0 < kHard) {s : GqState ℝ n}
    (hfresh : s.already = false) (hlow0 : 0 ≤ s.lower) (hlow : s.lower ≤ insideInf g h) (hpd : ShiftPD h s.lam) :
    EndsFrom (gqIteration root ext g h threshold kEasy kHard) s := by
  obtain ⟨eps, he0, hstop⟩ := stop_near_limit hroot hext hn hs hnot hg0 hkHard
  obtain ⟨N, hN⟩ := pow_unbounded_of_one_lt ((s.lam - insideInf g h) / eps) (by norm_num : (1 : ℝ) < 2)
  rw [div_lt_iff₀ he0] at hN
  induction N generalizing s with
  | zero =>
    rw [pow_zero, one_mul] at hN
    obtain ⟨hinfo, hu⟩ := shiftPD_chol hext hs hpd
    set p := ext.choSolve (ext.chol (addDiag h s.lam)).upper (fun i => -(g i)) with hp
    have hpm : matVec (addDiag h s.lam) p = fun i => -(g i) := choSolve_matVec hext hu
    by_cases hx : norm2 root p < 1
    · apply ends_of_next
      left
      have e : refactorize ext h s = { s with hPlus := addDiag h s.lam, fac := ext.chol (addDiag h s.lam) } := by
        simp [refactorize, hfresh]
      have h1 := hstop s.lam _ p (by linarith) hu hpm ((norm2_lt_one hroot).1 hx)
      simp only [gqIteration, e, hinfo, hg, and_self, if_true, findNew, ← hp, hx, withinUpdate, h1]
    · refine left_ends hroot hext hs hg hkEasy hfresh hpd fun q hq => ?_
      have : q = p := upperFactor_cancel hu (by rw [hq, hpm])
      rw [this]
      exact not_lt.1 fun hlt => hx ((norm2_lt_one hroot).2 hlt)
  | succ N ih =>
    obtain ⟨hinfo, hu⟩ := shiftPD_chol hext hs hpd
    have hrest : ∀ t, FreshState root g h s.lam t → EndsFrom (gqIteration root ext g h threshold kEasy kHard) t := by
      intro t ft
      refine failed_ends hroot hext hs (fun t ft hpdt => ?_) ft
      refine ih ft.fresh ft.low0 ft.low hpdt ?_
      have hpow : (0 : ℝ) < 2 ^ N * eps := by positivity
      rcases le_total t.upper (insideInf g h) with hle | hle
      · have := newLambda_le hroot ft.low0 ft.low hle
        rw [ft.lam]
        linarith
      · have := newLambda_half hroot ft.low0 ft.low hle
        have h1 := ft.upper_le
        rw [ft.lam]
        rw [pow_succ] at hN
        linarith
    set p := ext.choSolve (ext.chol (addDiag h s.lam)).upper (fun i => -(g i)) with hp
    have hpm : matVec (addDiag h s.lam) p = fun i => -(g i) := choSolve_matVec hext hu
    by_cases hx : norm2 root p < 1
    · apply ends_of_next
      right
      have e : refactorize ext h s = { s with hPlus := addDiag h s.lam, fac := ext.chol (addDiag h s.lam) } := by
        simp [refactorize, hfresh]
      simp only [gqIteration, e, hinfo, hg, and_self, if_true, findNew, ← hp, hx]
      rcases within_outcome (kHard := kHard) (mu := s.lam)
        (newton := newtonStep s.lam (norm2 root p) (norm2 root (ext.solveTransposed (ext.chol (addDiag h s.lam)).upper p)))
        (s := { s with
          hPlus := addDiag h s.lam, fac := ext.chol (addDiag h s.lam), x := p
          converged := if norm2 root p ≤ 1 ∧ s.lam = 0 then true else s.converged })
        hroot hext hn hs hnot hfresh hinfo hlow0 hlow hu le_rfl hpd (newtonStep_le hx) with ⟨hst, _⟩ | hf
      · exact stale_ends hroot hext hn hs hnot hg hg0 hu hx hrest hst
      · exact hrest _ hf
    · refine left_ends hroot hext hs hg hkEasy hfresh hpd fun q hq => ?_
      have : q = p := upperFactor_cancel hu (by rw [hq, hpm])
      rw [this]
      exact not_lt.1 fun hlt => hx ((norm2_lt_one hroot).2 hlt)

/-- The initial bracket. -/
theorem start_fresh {root : ℝ → ℝ} (hroot : SqrtSpec root) {ext : GqExternal ℝ n} (hext : GqSpec ext) (hn : 0 < n)
    {g : Vec ℝ n} {h : Mat ℝ n n} (hs : SymmetricMat h) (hnot : NotPD h) (hg0 : 0 < dot g g) :
    0 ≤ initialLower root g h ∧ initialLower root g h ≤ insideInf g h ∧ ShiftPD h (initialUpper root g h) := by
  obtain ⟨hG0, hG⟩ := norm2_sq hroot g
  have hGpos : 0 < norm2 root g := by
    rcases hG0.eq_or_lt with h0 | h0
    · rw [← h0] at hG; linarith
    · exact h0
  refine ⟨le_max_left _ _, ?_, ?_⟩
  · refine le_insideInf hext hs fun nu hnu => ?_
    obtain ⟨hpd, q, hq, hqq⟩ := hnu
    have hpsd : ∀ y : Vec ℝ n, 0 ≤ quadForm (addDiag h nu) y := upperFactor_psd (shiftPD_chol hext hs hpd).2
    refine max_le (shiftPD_pos hnot hpd).le (max_le ?_ ?_)
    · obtain ⟨i, hi⟩ := vecMin_attained (fun i => h i i) hn
      have h1 := hpsd (fun j => if j = i then 1 else 0)
      rw [quadForm_addDiag, (quadForm_unit h i).1, (quadForm_unit h i).2] at h1
      rw [hi]
      linarith
    · set c := min (gershgorinUpper h) (min (froNorm root h) (infNorm h)) with hc
      have h1 := psd_norm_le (addDiag_symm hs nu) hpsd (c := c + nu) (fun y => by
        rw [quadForm_addDiag, add_mul]
        have := form_le_upper hroot h hs y
        linarith) q
      rw [hq, dot_neg_left, dot_neg_right, neg_neg] at h1
      have hc0 : 0 ≤ c + nu := by
        have h2 := hpsd (fun j => if j = ⟨0, hn⟩ then 1 else 0)
        have h3 := form_le_upper hroot h hs (fun j => if j = ⟨0, hn⟩ then 1 else 0)
        rw [quadForm_addDiag, (quadForm_unit h ⟨0, hn⟩).2] at h2
        rw [(quadForm_unit h ⟨0, hn⟩).2] at h3
        linarith
      have h4 : norm2 root g ^ 2 ≤ (c + nu) ^ 2 := by
        rw [hG]
        nlinarith [sq_nonneg (c + nu)]
      have h5 : norm2 root g ≤ c + nu := by
        by_contra hlt
        push Not at hlt
        nlinarith
      linarith
  · intro v hv
    have h1 := form_ge_lower hroot h hs v
    rw [quadForm_addDiag]
    have h2 : norm2 root g + min (-(gershgorinLower h)) (min (froNorm root h) (infNorm h)) ≤ initialUpper root g h :=
      le_max_right _ _
    have h3 := mul_le_mul_of_nonneg_right h2 hv.le
    have h4 := mul_pos hGpos hv
    linarith

/-- The loop ends with success. -/
theorem start_ends {root : ℝ → ℝ} (hroot : SqrtSpec root) {ext : GqExternal ℝ n} (hext : GqSpec ext) (hn : 0 < n)
    {g : Vec ℝ n} {h : Mat ℝ n n} (hs : SymmetricMat h) (hnot : NotPD h) {threshold kEasy kHard : ℝ}
    (hg : threshold < norm2 root g) (hg0 : 0 < dot g g) (hkEasy : 0 < kEasy) (hkHard : 0 < kHard) (x0 : Vec ℝ n) :
    EndsFrom (gqIteration root ext g h threshold kEasy kHard) (gqStart root g h x0) := by
  obtain ⟨h0, h1, h2⟩ := start_fresh hroot hext hn hs hnot hg0
  have hrest : ∀ t, FreshState root g h (initialUpper root g h) t →
      EndsFrom (gqIteration root ext g h threshold kEasy kHard) t := fun t ft =>
    failed_ends hroot hext hs (fun t ft hpd =>
      good_ends hroot hext hn hs hnot hg hg0 hkEasy hkHard ft.fresh ft.low0 ft.low hpd) ft
  by_cases hz : initialLower root g h = 0
  · -- the first factor is zero, and its factorization fails
    set s := gqStart root g h x0 with hsdef
    have hlam : s.lam = 0 := by simp [hsdef, gqStart, initialLambda, hz]
    have hinfo : (ext.chol (addDiag h s.lam)).info ≠ 0 := fun hc => by
      have := shiftPD_pos hnot (shiftPD_of_factor (hext.chol_ok _ (addDiag_symm hs s.lam) hc))
      rw [hlam] at this
      exact lt_irrefl _ this
    have e : refactorize ext h s = { s with hPlus := addDiag h s.lam, fac := ext.chol (addDiag h s.lam) } := by
      simp [refactorize, hsdef, gqStart]
    have hle := hext.info_le (addDiag h s.lam)
    have hk : (ext.chol (addDiag h s.lam)).info - 1 < n := by omega
    have hf : LeadingFactor (ext.chol (addDiag h s.lam)).upper (addDiag h s.lam) ⟨(ext.chol (addDiag h s.lam)).info - 1, hk⟩ :=
      hext.chol_fail (addDiag h s.lam) (addDiag_symm hs s.lam) _ (by simp; omega)
    have hform := singularVector_form hext (addDiag_symm hs s.lam) hf
    have hvpos := singularVector_pos (ext := ext) (u := (ext.chol (addDiag h s.lam)).upper)
      (k := ⟨(ext.chol (addDiag h s.lam)).info - 1, hk⟩)
    apply ends_of_next
    right
    simp only [gqIteration, e, hinfo, false_and, if_false, failedUpdate, hk, dif_pos]
    refine hrest _ ⟨rfl, le_max_of_le_left h0, max_le h1 ?_, h2, le_rfl, rfl⟩
    refine le_insideInf hext hs fun nu hnu => ?_
    have h3 := hnu.1 _ hvpos
    rw [quadForm_addDiag] at h3 hform
    rw [(norm2_sq hroot _).2, ← le_sub_iff_add_le', div_le_iff₀ hvpos]
    linarith
  · exact hrest _ ⟨rfl, h0, h1, h2, le_rfl, by simp [gqStart, initialLambda, hz]⟩

end Tranquilo
