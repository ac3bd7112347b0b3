import Verif.Lemmas.GqtparBracket

/-!
# The loop of gqtpar
-/

namespace Tranquilo

variable {K : Type} [Field K] [LinearOrder K] [IsStrictOrderedRing K] {n : Nat}

/-- What holds between two passes of the loop. -/
structure GqInv (root : K → K) (ext : GqExternal K n) (g : Vec K n) (h : Mat K n n)
    (s : GqState K n) : Prop where
  lower_nonneg : 0 ≤ s.lower
  fresh : s.already = false → 0 ≤ s.lam
  stale : s.already = true → s.fac.info = 0 ∧ s.hPlus = addDiag h s.lam ∧
    (ext.chol (addDiag h s.lam)).info = 0 ∧
    ∃ mu, 0 ≤ mu ∧ s.lam ≤ mu ∧ UpperFactor s.fac.upper (addDiag h mu) ∧
      norm2 root (ext.choSolve s.fac.upper fun i => -(g i)) < 1
  valid : ∀ x mu, IsMultiplier g h x mu → s.lower ≤ mu

/-- What holds inside a pass when the factorization is there. -/
structure GqReady (root : K → K) (ext : GqExternal K n) (g : Vec K n) (h : Mat K n n)
    (s : GqState K n) (mu : K) : Prop where
  info : s.fac.info = 0
  lower_nonneg : 0 ≤ s.lower
  mu_nonneg : 0 ≤ mu
  lam_le : s.lam ≤ mu
  factor : UpperFactor s.fac.upper (addDiag h mu)
  hPlus : s.hPlus = addDiag h s.lam
  chol : (ext.chol (addDiag h s.lam)).info = 0
  current : norm2 root (ext.choSolve s.fac.upper fun i => -(g i)) < 1 ∨ mu = s.lam
  notAlready : s.already = false
  valid : ∀ x mu, IsMultiplier g h x mu → s.lower ≤ mu

theorem refactorize_ready {root : K → K} {ext : GqExternal K n} (hext : GqSpec ext) {g : Vec K n}
    {h : Mat K n n} (hs : SymmetricMat h) {s : GqState K n} (inv : GqInv root ext g h s)
    (hinfo : (refactorize ext h s).fac.info = 0) :
    ∃ mu, GqReady root ext g h (refactorize ext h s) mu ∧ (s.already = false → mu = s.lam) := by
  cases ha : s.already with
  | true =>
    obtain ⟨h1, h2, h3, mu, h4, h5, h6, h7⟩ := inv.stale ha
    refine ⟨mu, ?_, fun h => by simp at h⟩
    simp only [refactorize, ha, if_true]
    exact ⟨h1, inv.lower_nonneg, h4, h5, h6, h2, h3, Or.inl h7, rfl, inv.valid⟩
  | false =>
    refine ⟨s.lam, ?_, fun _ => rfl⟩
    simp only [refactorize, ha, Bool.false_eq_true, if_false] at hinfo ⊢
    exact ⟨hinfo, inv.lower_nonneg, inv.fresh ha, le_rfl,
      hext.chol_ok _ (addDiag_symm hs s.lam) hinfo, rfl, hinfo, Or.inr rfl, rfl, inv.valid⟩

omit [IsStrictOrderedRing K] in
theorem choSolve_matVec {ext : GqExternal K n} (hext : GqSpec ext) {u a : Mat K n n} {g : Vec K n}
    (hu : UpperFactor u a) : matVec a (ext.choSolve u fun i => -(g i)) = fun i => -(g i) :=
  funext fun i => hext.choSolve u a _ hu i

theorem norm2_lt_one {root : K → K} (hroot : SqrtSpec root) {v : Vec K n} :
    norm2 root v < 1 ↔ dot v v < 1 := by
  obtain ⟨h0, h1⟩ := norm2_sq hroot v
  constructor
  · intro h; nlinarith
  · intro h
    by_contra hc
    push Not at hc
    nlinarith

theorem newtonStep_le {lam p w : K} (hp : p < 1) : newtonStep lam p w ≤ lam := by
  have := sq_nonneg (p / w)
  simp only [newtonStep]
  nlinarith

theorem newtonStep_ge {lam p w : K} (hp : 1 ≤ p) : lam ≤ newtonStep lam p w := by
  have := sq_nonneg (p / w)
  simp only [newtonStep]
  nlinarith

theorem withinUpdate_inv {root : K → K} (hroot : SqrtSpec root) {ext : GqExternal K n}
    (hext : GqSpec ext) (hn : 0 < n) {g : Vec K n} {h : Mat K n n} (hs : SymmetricMat h) {kHard : K}
    {s : GqState K n} {mu newton : K} (r : GqReady root ext g h s mu)
    (hin : norm2 root (ext.choSolve s.fac.upper fun i => -(g i)) < 1) (hnewton : newton ≤ s.lam) :
    GqInv root ext g h (withinUpdate root ext h kHard s newton) := by
  have hz := smallestSingular_spec hroot hext hn r.factor
  have hlow : ∀ x nu, IsMultiplier g h x nu →
      s.lam - (smallestSingular root ext s.fac.upper).1 ^ 2 ≤ nu := by
    intro x nu m
    have := multiplier_ge_of_form m (v := (smallestSingular root ext s.fac.upper).2) (lam := mu)
      (c := (smallestSingular root ext s.fac.upper).1 ^ 2) (by rw [hz.1]; exact one_pos) hz.2.ge
    rw [hz.1, div_one] at this
    linarith [r.lam_le]
  have hnotok : (ext.chol (addDiag h newton)).info ≠ 0 → ∀ x nu, IsMultiplier g h x nu →
      newton ≤ nu := by
    intro hf x nu m
    obtain ⟨v, hv, hq⟩ := chol_not_posDef hext (addDiag_symm hs newton) hf
    have := multiplier_ge_of_form m hv hq
    rwa [zero_div, sub_zero] at this
  by_cases hok : (ext.chol (addDiag h newton)).info = 0
  · constructor
    · simp only [withinUpdate, hok, if_true]
      exact le_max_of_le_left r.lower_nonneg
    · intro ha
      simp [withinUpdate, hok] at ha
    · intro _
      simp only [withinUpdate, hok, if_true]
      exact ⟨r.info, trivial, trivial, mu, r.mu_nonneg, hnewton.trans r.lam_le, r.factor, hin⟩
    · intro x nu m
      simp only [withinUpdate, hok, if_true]
      exact max_le (r.valid x nu m) (hlow x nu m)
  · constructor
    · simp only [withinUpdate, hok, if_false]
      exact le_max_of_le_left (le_max_of_le_left r.lower_nonneg)
    · intro _
      simp only [withinUpdate, hok, if_false]
      exact newLambda_nonneg hroot _ _
    · intro ha
      simp [withinUpdate, hok, r.notAlready] at ha
    · intro x nu m
      simp only [withinUpdate, hok, if_false]
      exact max_le (max_le (r.valid x nu m) (hlow x nu m)) (hnotok hok x nu m)

theorem ready_with {root : K → K} {ext : GqExternal K n} {g : Vec K n} {h : Mat K n n}
    {s : GqState K n} {mu : K} (r : GqReady root ext g h s mu) (x : Vec K n) (c : Bool) :
    GqReady root ext g h { s with x := x, converged := c } mu :=
  ⟨r.info, r.lower_nonneg, r.mu_nonneg, r.lam_le, r.factor, r.hPlus, r.chol, r.current, r.notAlready,
    r.valid⟩

theorem findNew_inv {root : K → K} (hroot : SqrtSpec root) {ext : GqExternal K n}
    (hext : GqSpec ext) (hn : 0 < n) {g : Vec K n} {h : Mat K n n} (hs : SymmetricMat h)
    {kEasy kHard : K} {s : GqState K n} {mu : K} (r : GqReady root ext g h s mu) :
    GqInv root ext g h (findNew root ext g h kEasy kHard s) := by
  by_cases hx : norm2 root (ext.choSolve s.fac.upper fun i => -(g i)) < 1
  · simp only [findNew, hx, if_true]
    exact withinUpdate_inv hroot hext hn hs (ready_with r _ _) hx (newtonStep_le hx)
  · have hmu : mu = s.lam := by
      rcases r.current with h1 | h1
      · exact absurd h1 hx
      · exact h1
    have hx1 : 1 ≤ norm2 root (ext.choSolve s.fac.upper fun i => -(g i)) := not_lt.1 hx
    have hout : 1 ≤ dot (ext.choSolve s.fac.upper fun i => -(g i))
        (ext.choSolve s.fac.upper fun i => -(g i)) := by
      by_contra hc
      exact hx ((norm2_lt_one hroot).2 (not_le.1 hc))
    have hlam : 0 ≤ s.lam := hmu ▸ r.mu_nonneg
    simp only [findNew, hx, if_false]
    constructor
    · exact hlam
    · intro _
      exact hlam.trans (newtonStep_ge hx1)
    · intro ha
      simp [r.notAlready] at ha
    · intro x nu m
      have hf := r.factor
      rw [hmu] at hf
      exact multiplier_ge_of_outside m (upperFactor_psd hf) (choSolve_matVec hext hf) hout

theorem failedUpdate_inv {root : K → K} (hroot : SqrtSpec root) {ext : GqExternal K n}
    (hext : GqSpec ext) {g : Vec K n} {h : Mat K n n} (hs : SymmetricMat h)
    {s : GqState K n} (hfac : s.fac = ext.chol (addDiag h s.lam)) (hplus : s.hPlus = addDiag h s.lam)
    (hinfo : s.fac.info ≠ 0) (hna : s.already = false) (hlow : 0 ≤ s.lower)
    (hvalid : ∀ x mu, IsMultiplier g h x mu → s.lower ≤ mu) :
    GqInv root ext g h (failedUpdate root ext s) := by
  have hle := hext.info_le (addDiag h s.lam)
  rw [← hfac] at hle
  have hk : s.fac.info - 1 < n := by omega
  have hf : LeadingFactor s.fac.upper (addDiag h s.lam) ⟨s.fac.info - 1, hk⟩ := by
    have := hext.chol_fail (addDiag h s.lam) (addDiag_symm hs s.lam) ⟨s.fac.info - 1, hk⟩
      (by rw [← hfac]; simp; omega)
    rwa [← hfac] at this
  simp only [failedUpdate, hk, dif_pos]
  constructor
  · exact le_max_of_le_left hlow
  · intro _
    exact newLambda_nonneg hroot _ _
  · intro ha
    simp [hna] at ha
  · intro x nu m
    refine max_le (hvalid x nu m) ?_
    have h1 := singularVector_form hext (addDiag_symm hs s.lam) hf
    have h2 := multiplier_ge_of_form m (lam := s.lam)
      (singularVector_pos (ext := ext) (u := s.fac.upper) (k := ⟨s.fac.info - 1, hk⟩)) h1.le
    rw [(norm2_sq hroot _).2, hplus]
    rw [neg_div] at h2
    linarith

/-- One pass keeps the invariant when the gradient is not treated as zero. -/
theorem gqIteration_inv {root : K → K} (hroot : SqrtSpec root) {ext : GqExternal K n}
    (hext : GqSpec ext) (hn : 0 < n) {g : Vec K n} {h : Mat K n n} (hs : SymmetricMat h)
    {threshold kEasy kHard : K} (hg : threshold < norm2 root g) {s : GqState K n}
    (inv : GqInv root ext g h s) :
    GqInv root ext g h (gqIteration root ext g h threshold kEasy kHard s) := by
  by_cases hinfo : (refactorize ext h s).fac.info = 0
  · obtain ⟨mu, r, _⟩ := refactorize_ready hext hs inv hinfo
    simp only [gqIteration, hinfo, hg, and_self, if_true]
    exact findNew_inv hroot hext hn hs r
  · have hna : s.already = false := by
      by_contra hc
      rw [Bool.not_eq_false] at hc
      have := (inv.stale hc).1
      simp [refactorize, hc, this] at hinfo
    have e : refactorize ext h s
        = { s with hPlus := addDiag h s.lam, fac := ext.chol (addDiag h s.lam) } := by
      simp [refactorize, hna]
    simp only [gqIteration, hinfo, false_and, if_false]
    rw [e] at hinfo ⊢
    exact failedUpdate_inv hroot hext hs rfl rfl hinfo hna inv.lower_nonneg inv.valid

/-- The states at the start of the passes of the loop. -/
inductive GqReach {K : Type} {n : Nat} (step : GqState K n → GqState K n) (s0 : GqState K n) :
    GqState K n → Prop
  | start : GqReach step s0 s0
  | next {s} : GqReach step s0 s → s.converged = false → (step s).converged = false →
      GqReach step s0 (step s)

omit [Field K] [LinearOrder K] [IsStrictOrderedRing K] in
/-- A loop that ends with success has made its last pass from a reachable state. -/
theorem gqLoop_last (step : GqState K n → GqState K n) (s0 : GqState K n) :
    ∀ m k s, GqReach step s0 s → s.converged = false → (gqLoop step m k s).2.converged = true →
      ∃ t, GqReach step s0 t ∧ t.converged = false ∧ (gqLoop step m k s).2 = step t := by
  intro m
  induction m with
  | zero =>
    intro k s _ hc h
    simp [gqLoop, hc] at h
  | succ m ih =>
    intro k s hr hc h
    simp only [gqLoop] at h ⊢
    by_cases hs : (step s).converged = true
    · simp only [hs, if_true]
      exact ⟨s, hr, hc, rfl⟩
    · simp only [hs, Bool.false_eq_true, if_false] at h ⊢
      exact ih (k + 1) (step s) (.next hr hc (by simpa using hs)) (by simpa using hs) h

end Tranquilo
