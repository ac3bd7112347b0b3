import Verif.Lemmas.GqtparEnds

/-!
# C123: gqtpar ends with success on every model with a gradient; C124: models without a gradient
-/

namespace Tranquilo

variable {n : Nat}

/-- C123: total correctness of gqtpar. Whatever the Hessian (definite, singular, indefinite; easy or hard case), if the
gradient is not treated as zero, there is a limit of iterations from which on gqtpar reports success. The point it returns
lies in the ball of radius `1 + k_easy`, and its reduction of the model is at least the share `1 - k_hard` (but in no case
less than 47 percent) of the reduction at any point of the unit ball. -/
theorem C123_total_correctness {root : ℝ → ℝ} (hroot : SqrtSpec root) {ext : GqExternal ℝ n}
    (hext : GqSpec ext) (hn : 0 < n) {eps kEasy kHard : ℝ} (heps : 0 ≤ eps) (he0 : 0 < kEasy) (hk0 : 0 < kHard)
    (hk1 : kHard ≤ 1) {model : ScalarModel ℝ n} {x0 : Vec ℝ n} {h : Mat ℝ n n} (hh : model.squareTerms = some h)
    (hs : SymmetricMat h) (hg : gqThreshold eps h < norm2 root model.linearTerms) :
    ∃ limit, ∀ maxiter, limit ≤ maxiter → ∃ raw, gqtpar root ext eps kEasy kHard maxiter model x0 = .ok raw ∧
      raw.success = true ∧ NormLe raw.x (1 + kEasy) ∧ ∀ y, NormLe y 1 →
        quadModel model.linearTerms h raw.x ≤ min (1 - kHard) (47 / 100) * quadModel model.linearTerms h y := by
  by_cases hpd : ShiftPD h 0
  · obtain ⟨a, ha0, ha⟩ := shiftPD_coercive hext hs hpd
    refine C112_total_correctness hroot hext hn heps he0 hk0 hk1 hh hs ha0 (fun v => ?_) hg
    have := ha v
    rwa [quadForm_addDiag, zero_mul, add_zero, ← sum_form_eq, ← sumSq_eq_dot] at this
  · have hnot : NotPD h := by
      simp only [ShiftPD] at hpd
      push Not at hpd
      obtain ⟨v, hv, hq⟩ := hpd
      refine ⟨v, hv, ?_⟩
      rwa [quadForm_addDiag, zero_mul, add_zero] at hq
    obtain ⟨hG0, hG⟩ := norm2_sq hroot model.linearTerms
    have ht : 0 ≤ gqThreshold eps h := mul_nonneg (mul_nonneg (Nat.cast_nonneg n) heps) (infNorm_nonneg h hn)
    have hg0 : 0 < dot model.linearTerms model.linearTerms := by
      rw [← hG]
      exact pow_pos (ht.trans_lt hg) 2
    obtain ⟨M, hM⟩ := start_ends hroot hext hn hs hnot hg hg0 he0 hk0 x0
    refine ⟨M + 1, fun maxiter hiter => ?_⟩
    have hconv := gqLoop_more _ M maxiter 0 (gqStart root model.linearTerms h x0) (by omega) rfl (hM 0)
    have hres : gqtpar root ext eps kEasy kHard maxiter model x0 = .ok
        { x := (gqRun root ext eps kEasy kHard maxiter model.linearTerms h x0).2.x
          nIterations := (gqRun root ext eps kEasy kHard maxiter model.linearTerms h x0).1 - 1
          success := (gqRun root ext eps kEasy kHard maxiter model.linearTerms h x0).2.converged } := by
      simp only [gqtpar, hh, if_neg (by omega : maxiter ≠ 0)]
    refine ⟨_, hres, hconv, ?_, ?_⟩
    · exact C40_gqtpar_norm_partial hroot hext hn heps he0.le hk1
        (fun h' hh' => by rw [hh] at hh'; cases hh'; exact ⟨hs, hg⟩) hres hconv
    · exact fun y hy => C45_near_optimal hroot hext hn heps he0.le hk0.le hk1 hh hs hg hres hconv y hy

/-- C123 for the version in numpy, under the contracts of C73. -/
theorem C123_numpy_version {root : ℝ → ℝ} (hroot : SqrtSpec root) {ext : GqExternal ℝ n}
    (hext : GqSpec ext) (hord : RootsOrdered ext) (hn : 0 < n) (singular : Mat ℝ n n → ℝ × Vec ℝ n)
    (hsing : ∀ u, singular u = smallestSingular root ext u) {eps kEasy kHard : ℝ} (heps : 0 ≤ eps) (he0 : 0 < kEasy)
    (hk0 : 0 < kHard) (hk1 : kHard ≤ 1) {model : ScalarModel ℝ n} {x0 : Vec ℝ n} {h : Mat ℝ n n}
    (hh : model.squareTerms = some h) (hs : SymmetricMat h) (hg : gqThreshold eps h < norm2 root model.linearTerms) :
    ∃ limit, ∀ maxiter, limit ≤ maxiter → ∃ raw,
      gqtparNp root ext singular eps kEasy kHard maxiter model x0 = .ok raw ∧ raw.success = true := by
  obtain ⟨limit, hl⟩ := C123_total_correctness (x0 := x0) hroot hext hn heps he0 hk0 hk1 hh hs hg
  refine ⟨limit, fun maxiter hm => ?_⟩
  obtain ⟨raw, h1, h2, _⟩ := hl maxiter hm
  refine ⟨raw, ?_, h2⟩
  rw [C73_gqtpar_partial hroot hext hord hn singular hsing eps kEasy kHard maxiter model x0
    (fun h' hh' => by rw [hh] at hh'; cases hh'; exact hs)]
  exact h1

/-- C123, example in the hard case: the Hessian is `diag(-1, 1)` and the gradient `(0, 1)` is orthogonal to the direction of
negative curvature. -/
example : ∃ ext : GqExternal ℝ 2, GqSpec ext ∧
    ∃ limit, ∀ maxiter, limit ≤ maxiter → ∃ raw, gqtpar Real.sqrt ext 0 (1 / 10) (1 / 5) maxiter
      ⟨0, ![0, 1], some !![-1, 0; 0, 1], fun _ => 1, fun _ => 0⟩ (fun _ => 0) = .ok raw ∧ raw.success = true := by
  obtain ⟨ext, hext⟩ := gqSpec_real 2
  refine ⟨ext, hext, ?_⟩
  have hs : SymmetricMat (!![-1, 0; 0, 1] : Mat ℝ 2 2) := by intro i j; fin_cases i <;> fin_cases j <;> rfl
  obtain ⟨limit, hl⟩ := C123_total_correctness (x0 := fun _ => 0) sqrtSpec_real hext (by norm_num) le_rfl
    (by norm_num : (0 : ℝ) < 1 / 10) (by norm_num : (0 : ℝ) < 1 / 5) (by norm_num)
    (model := ⟨0, ![0, 1], some !![-1, 0; 0, 1], fun _ => 1, fun _ => 0⟩) rfl hs
    (by simp [gqThreshold, norm2, dot, Fin.sum_univ_two])
  exact ⟨limit, fun maxiter hm => by
    obtain ⟨raw, h1, h2, _⟩ := hl maxiter hm
    exact ⟨raw, h1, h2⟩⟩

/-! ## C124: no gradient -/

variable {K : Type} [Field K] [LinearOrder K] [IsStrictOrderedRing K]

/-- C124, the part that holds: if the gradient is zero and the Hessian is positive definite, gqtpar returns the minimizer
`0` with success after one pass.

Missing compared with the English claim: Hessians that are not positive definite, where it is false
(`C124_violated_zero_gradient`, `C124_violated_flat`, `C124_violated_diagonal`). -/
theorem C124_positive_definite_partial {root : K → K} (hroot : SqrtSpec root) {ext : GqExternal K n}
    (hext : GqSpec ext) (hn : 0 < n) {eps kEasy kHard : K} (heps : 0 ≤ eps) {maxiter : Nat} (hm : 0 < maxiter)
    {model : ScalarModel K n} {x0 : Vec K n} {h : Mat K n n} (hh : model.squareTerms = some h)
    (hs : SymmetricMat h) (hg : ∀ i, model.linearTerms i = 0)
    (hpd : ∀ v : Vec K n, 0 < sumSq v → 0 < ∑ i, ∑ j, h i j * v i * v j) :
    gqtpar root ext eps kEasy kHard maxiter model x0 = .ok ⟨fun _ => 0, 0, true⟩ := by
  have hpd' : ∀ v : Vec K n, 0 < dot v v → 0 < quadForm h v := fun v hv => by
    have := hpd v (by rwa [sumSq_eq_dot])
    rwa [sum_form_eq] at this
  obtain ⟨hG0, hG⟩ := norm2_sq hroot model.linearTerms
  have hG00 : norm2 root model.linearTerms = 0 := by
    have : dot model.linearTerms model.linearTerms = 0 := Finset.sum_eq_zero fun i _ => by rw [hg i, zero_mul]
    rw [this] at hG
    exact pow_eq_zero_iff two_ne_zero |>.1 hG
  have ht : 0 ≤ gqThreshold eps h := mul_nonneg (mul_nonneg (Nat.cast_nonneg n) heps) (infNorm_nonneg h hn)
  have hdiag : ∀ i, 0 < h i i := fun i => by
    have := hpd' (fun j => if j = i then 1 else 0) (by rw [(quadForm_unit h i).2]; exact one_pos)
    rwa [(quadForm_unit h i).1] at this
  have hlow : initialLower root model.linearTerms h = 0 := by
    refine le_antisymm (max_le le_rfl (max_le ?_ ?_)) (le_max_left _ _)
    · obtain ⟨i, hi⟩ := vecMin_attained (fun i => h i i) hn
      rw [hi]
      linarith [hdiag i]
    · rw [hG00]
      have h1 := form_le_upper hroot h hs (fun j => if j = ⟨0, hn⟩ then 1 else 0)
      rw [(quadForm_unit h ⟨0, hn⟩).1, (quadForm_unit h ⟨0, hn⟩).2, mul_one] at h1
      linarith [hdiag ⟨0, hn⟩]
  have hlam : initialLambda root model.linearTerms h = 0 := by simp [initialLambda, hlow]
  have hinfo : (ext.chol (addDiag h 0)).info = 0 :=
    chol_of_posDef hext (addDiag_symm hs _) (posDef_addDiag hpd' le_rfl)
  have hu := hext.chol_ok _ (addDiag_symm hs 0) hinfo
  obtain ⟨hz, hsz⟩ := smallestSingular_spec hroot hext hn hu
  have hspos : ¬ (2 : K) ^ 2 * (smallestSingular root ext (ext.chol (addDiag h 0)).upper).1 ^ 2 ≤ kHard * 0 := by
    rw [hsz, quadForm_addDiag, zero_mul, add_zero, mul_zero, not_le]
    have := hpd' (smallestSingular root ext (ext.chol (addDiag h 0)).upper).2 (by rw [hz]; exact one_pos)
    linarith
  obtain ⟨m, rfl⟩ : ∃ m, maxiter = m + 1 := ⟨maxiter - 1, by omega⟩
  simp only [gqtpar, hh, Nat.add_one_ne_zero, if_false, gqRun, gqLoop, gqStart, gqIteration, refactorize, hlam,
    Bool.false_eq_true, hinfo, hG00, not_lt.2 ht, and_false, ht, and_self, if_true, interiorCheck, hspos]

/-- The loop on a model whose gradient is treated as zero and whose Hessian is not positive definite: as long as it has not
ended, the point has not moved; when it ends, the point has norm two. -/
theorem zero_gradient_pass {root : K → K} (hroot : SqrtSpec root) {ext : GqExternal K n} (hext : GqSpec ext) (hn : 0 < n)
    {g : Vec K n} {h : Mat K n n} (hs : SymmetricMat h) {threshold kEasy kHard : K} (hg : norm2 root g ≤ threshold)
    {v : Vec K n} (hv : 0 < dot v v) (hq : quadForm h v ≤ 0) {s : GqState K n} (hna : s.already = false)
    (hc : s.converged = false) :
    (gqIteration root ext g h threshold kEasy kHard s).already = false ∧
    ((gqIteration root ext g h threshold kEasy kHard s).converged = false ∧
      (gqIteration root ext g h threshold kEasy kHard s).x = s.x ∨
     (gqIteration root ext g h threshold kEasy kHard s).converged = true ∧
      dot (gqIteration root ext g h threshold kEasy kHard s).x (gqIteration root ext g h threshold kEasy kHard s).x = 4 ∧
      ∃ z : Vec K n, dot z z = 1 ∧ 0 < s.lam ∧ 4 * quadForm (addDiag h s.lam) z ≤ kHard * s.lam) := by
  have e : refactorize ext h s = { s with hPlus := addDiag h s.lam, fac := ext.chol (addDiag h s.lam) } := by
    simp [refactorize, hna]
  by_cases hinfo : (ext.chol (addDiag h s.lam)).info = 0
  · have hu := hext.chol_ok _ (addDiag_symm hs s.lam) hinfo
    obtain ⟨hz, hsz⟩ := smallestSingular_spec hroot hext hn hu
    have hlam : 0 < s.lam := by
      have hvne : v ≠ fun _ => 0 := by rintro rfl; rw [dot_zero_left] at hv; exact lt_irrefl _ hv
      have := upperFactor_pos hu hvne
      rw [quadForm_addDiag] at this
      by_contra hcon
      push Not at hcon
      nlinarith
    simp only [gqIteration, e, hinfo, not_lt.2 hg, and_false, if_false, hg, and_self, if_true, interiorCheck, hlam.ne']
    refine ⟨hna, ?_⟩
    by_cases hstop : (2 : K) ^ 2 * (smallestSingular root ext (ext.chol (addDiag h s.lam)).upper).1 ^ 2 ≤ kHard * s.lam
    · right
      simp only [hstop, if_true]
      refine ⟨trivial, ?_, _, hz, hlam, ?_⟩
      · rw [dot_smul_left, dot_smul_right, hz]; norm_num
      · rw [hsz] at hstop
        linarith
    · left
      simp only [hstop, if_false]
      exact ⟨hc, trivial⟩
  · have hle := hext.info_le (addDiag h s.lam)
    have hk : (ext.chol (addDiag h s.lam)).info - 1 < n := by omega
    simp only [gqIteration, e, hinfo, false_and, if_false, failedUpdate, hk, dif_pos]
    exact ⟨hna, .inl ⟨hc, trivial⟩⟩

theorem zero_gradient_loop {root : K → K} (hroot : SqrtSpec root) {ext : GqExternal K n} (hext : GqSpec ext) (hn : 0 < n)
    {g : Vec K n} {h : Mat K n n} (hs : SymmetricMat h) {threshold kEasy kHard : K} (hg : norm2 root g ≤ threshold)
    {v : Vec K n} (hv : 0 < dot v v) (hq : quadForm h v ≤ 0) (m : Nat) : ∀ (k : Nat) (s : GqState K n),
    s.already = false → s.converged = false →
    ((gqLoop (gqIteration root ext g h threshold kEasy kHard) m k s).2.converged = false ∧
      (gqLoop (gqIteration root ext g h threshold kEasy kHard) m k s).2.x = s.x) ∨
    ((gqLoop (gqIteration root ext g h threshold kEasy kHard) m k s).2.converged = true ∧
      dot (gqLoop (gqIteration root ext g h threshold kEasy kHard) m k s).2.x
        (gqLoop (gqIteration root ext g h threshold kEasy kHard) m k s).2.x = 4) := by
  induction m with
  | zero => exact fun k s _ hc => .inl ⟨hc, rfl⟩
  | succ m ih =>
    intro k s hna hc
    obtain ⟨h1, h2⟩ := zero_gradient_pass (kEasy := kEasy) (kHard := kHard) hroot hext hn hs hg hv hq hna hc
    simp only [gqLoop]
    rcases h2 with ⟨h2, h3⟩ | ⟨h2, h3, _⟩
    · simp only [h2, Bool.false_eq_true, if_false]
      rw [← h3]
      exact ih (k + 1) _ h1 h2
    · simp only [h2, if_true]
      exact .inr ⟨trivial, h3⟩

/-- C124 is false for every Hessian that is not positive definite: if the gradient is zero (or treated as zero), the result
is either the start vector without success, or a point of norm two. In no case does gqtpar return a minimizer on the unit
ball with success. -/
theorem C124_violated_zero_gradient {root : K → K} (hroot : SqrtSpec root) {ext : GqExternal K n}
    (hext : GqSpec ext) (hn : 0 < n) {eps kEasy kHard : K} {maxiter : Nat} {model : ScalarModel K n} {x0 : Vec K n}
    {raw : RawResult K n} {h : Mat K n n} (hh : model.squareTerms = some h) (hs : SymmetricMat h)
    (hg : norm2 root model.linearTerms ≤ gqThreshold eps h) {v : Vec K n} (hv : 0 < sumSq v)
    (hq : ∑ i, ∑ j, h i j * v i * v j ≤ 0)
    (hres : gqtpar root ext eps kEasy kHard maxiter model x0 = .ok raw) :
    (raw.success = false ∧ raw.x = x0) ∨ (raw.success = true ∧ sumSq raw.x = 4) := by
  rw [sumSq_eq_dot] at hv
  rw [sum_form_eq] at hq
  simp only [gqtpar, hh] at hres
  split at hres
  · cases hres
  · cases hres
    have := zero_gradient_loop (kEasy := kEasy) (kHard := kHard) hroot hext hn hs hg hv hq maxiter 0
      (gqStart root model.linearTerms h x0) rfl rfl
    simp only [sumSq_eq_dot]
    exact this

/-- C124 is false on singular convex models: if the Hessian is positive semidefinite but not definite and the gradient is
zero, no limit of iterations suffices for a success, although the center is a minimizer. -/
theorem C124_violated_flat {root : K → K} (hroot : SqrtSpec root) {ext : GqExternal K n}
    (hext : GqSpec ext) (hn : 0 < n) {eps kEasy kHard : K} (hk : kHard < 4) {maxiter : Nat} {model : ScalarModel K n}
    {x0 : Vec K n} {raw : RawResult K n} {h : Mat K n n} (hh : model.squareTerms = some h) (hs : SymmetricMat h)
    (hconv : PosSemidef h) (hg : norm2 root model.linearTerms ≤ gqThreshold eps h) {v : Vec K n} (hv : 0 < sumSq v)
    (hq : ∑ i, ∑ j, h i j * v i * v j = 0)
    (hres : gqtpar root ext eps kEasy kHard maxiter model x0 = .ok raw) : raw.success = false ∧ raw.x = x0 := by
  rw [sumSq_eq_dot] at hv
  rw [sum_form_eq] at hq
  have key : ∀ (m k : Nat) (s : GqState K n), s.already = false → s.converged = false →
      (gqLoop (gqIteration root ext model.linearTerms h (gqThreshold eps h) kEasy kHard) m k s).2.converged = false ∧
      (gqLoop (gqIteration root ext model.linearTerms h (gqThreshold eps h) kEasy kHard) m k s).2.x = s.x := by
    intro m
    induction m with
    | zero => exact fun k s _ hc => ⟨hc, rfl⟩
    | succ m ih =>
      intro k s hna hc
      obtain ⟨h1, h2⟩ := zero_gradient_pass (kEasy := kEasy) (kHard := kHard) hroot hext hn hs hg hv hq.le hna hc
      simp only [gqLoop]
      rcases h2 with ⟨h2, h3⟩ | ⟨h2, h3, z, hz, hlam, hsmall⟩
      · simp only [h2, Bool.false_eq_true, if_false]
        rw [← h3]
        exact ih (k + 1) _ h1 h2
      · exfalso
        have h4 := hconv z
        rw [sum_form_eq] at h4
        rw [quadForm_addDiag, hz] at hsmall
        nlinarith
  simp only [gqtpar, hh] at hres
  split at hres
  · cases hres
  · cases hres
    exact key maxiter 0 (gqStart root model.linearTerms h x0) rfl rfl

/-- C124 is false on diagonal models with zero gradient, whatever the negative curvatures are: all factorizations fail, and
the start vector is returned without success. With the start vector zero this is a saddle point or a maximizer. -/
theorem C124_violated_diagonal {root : K → K} (hroot : SqrtSpec root) {ext : GqExternal K n}
    (hext : GqSpec ext) (hn : 0 < n) {eps kEasy kHard : K} {maxiter : Nat} (hm : 0 < maxiter)
    {model : ScalarModel K n} {x0 : Vec K n} {h : Mat K n n} (hh : model.squareTerms = some h)
    (hdiag : ∀ i j, i ≠ j → h i j = 0) (hg : ∀ i, model.linearTerms i = 0) (hneg : ∃ i, h i i ≤ 0) :
    gqtpar root ext eps kEasy kHard maxiter model x0 = .ok ⟨x0, maxiter - 1, false⟩ := by
  have hs : SymmetricMat h := by
    intro i j
    by_cases hij : i = j
    · subst hij; rfl
    · rw [hdiag i j hij, hdiag j i (Ne.symm hij)]
  obtain ⟨hG0, hG⟩ := norm2_sq hroot model.linearTerms
  have hG00 : norm2 root model.linearTerms = 0 := by
    have : dot model.linearTerms model.linearTerms = 0 := Finset.sum_eq_zero fun i _ => by rw [hg i, zero_mul]
    rw [this] at hG
    exact pow_eq_zero_iff two_ne_zero |>.1 hG
  set g := model.linearTerms with hgdef
  set up := initialUpper root g h with hup
  obtain ⟨i0, hi0⟩ := vecMin_attained (fun i => h i i) hn
  have hmin : ∀ i, h i0 i0 ≤ h i i := fun i => by rw [← hi0]; exact vecMin_le (fun i => h i i) i
  have hneg0 : h i0 i0 ≤ 0 := by obtain ⟨i, hi⟩ := hneg; exact (hmin i).trans hi
  have hupval : up ≤ -(h i0 i0) := by
    refine max_le (by linarith) ?_
    rw [hG00, zero_add]
    refine (min_le_left _ _).trans ?_
    have : h i0 i0 ≤ gershgorinLower h := by
      obtain ⟨i, hi⟩ := vecMin_attained (fun i => h i i + |h i i| - absRowSum h i) hn
      rw [gershgorinLower, hi]
      have hrow : absRowSum h i = |h i i| := by
        simp only [absRowSum]
        rw [Finset.sum_eq_single i]
        · intro j _ hj
          rw [hdiag i j (Ne.symm hj), abs_zero]
        · simp
      rw [hrow]
      linarith [hmin i]
    linarith
  -- the form at the upper end of the bracket is not negative
  have hform : ∀ y : Vec K n, 0 ≤ quadForm (addDiag h up) y := by
    intro y
    have h1 := form_ge_lower hroot h hs y
    rw [quadForm_addDiag]
    have h2 : norm2 root g + min (-(gershgorinLower h)) (min (froNorm root h) (infNorm h)) ≤ up := le_max_right _ _
    rw [hG00, zero_add] at h2
    have h3 := mul_le_mul_of_nonneg_right h2 (dot_self_nonneg y)
    linarith
  have hfail : ∀ lam, lam ≤ up → (ext.chol (addDiag h lam)).info ≠ 0 := by
    intro lam hle hinfo
    have hu := hext.chol_ok _ (addDiag_symm hs lam) hinfo
    have hne : (fun j => if j = i0 then (1 : K) else 0) ≠ fun _ => 0 := fun h0 => by
      have := congrFun h0 i0
      simp at this
    have := upperFactor_pos hu hne
    rw [quadForm_addDiag, (quadForm_unit h i0).1, (quadForm_unit h i0).2] at this
    linarith
  have key : ∀ (m k : Nat) (s : GqState K n), s.already = false → s.converged = false → s.lam ≤ up → 0 ≤ s.lower →
      s.lower ≤ up → s.upper = up →
      (gqLoop (gqIteration root ext g h (gqThreshold eps h) kEasy kHard) m k s).1 = k + m ∧
      (gqLoop (gqIteration root ext g h (gqThreshold eps h) kEasy kHard) m k s).2.converged = false ∧
      (gqLoop (gqIteration root ext g h (gqThreshold eps h) kEasy kHard) m k s).2.x = s.x := by
    intro m
    induction m with
    | zero => exact fun k s _ hc _ _ _ _ => ⟨rfl, hc, rfl⟩
    | succ m ih =>
      intro k s hna hc hlam hlow0 hlow hupper
      have e : refactorize ext h s = { s with hPlus := addDiag h s.lam, fac := ext.chol (addDiag h s.lam) } := by
        simp [refactorize, hna]
      have hinfo := hfail s.lam hlam
      have hle := hext.info_le (addDiag h s.lam)
      have hk : (ext.chol (addDiag h s.lam)).info - 1 < n := by omega
      have hf : LeadingFactor (ext.chol (addDiag h s.lam)).upper (addDiag h s.lam) ⟨(ext.chol (addDiag h s.lam)).info - 1, hk⟩ :=
        hext.chol_fail (addDiag h s.lam) (addDiag_symm hs s.lam) _ (by simp; omega)
      have hsform := singularVector_form hext (addDiag_symm hs s.lam) hf
      have hvpos := singularVector_pos (ext := ext) (u := (ext.chol (addDiag h s.lam)).upper)
        (k := ⟨(ext.chol (addDiag h s.lam)).info - 1, hk⟩)
      simp only [gqLoop, gqIteration, e, hinfo, false_and, if_false, failedUpdate, hk, dif_pos, hc, Bool.false_eq_true]
      set v := singularVector ext (ext.chol (addDiag h s.lam)).upper ⟨(ext.chol (addDiag h s.lam)).info - 1, hk⟩ with hv
      set delta := singularDelta (ext.chol (addDiag h s.lam)).upper (addDiag h s.lam)
          ⟨(ext.chol (addDiag h s.lam)).info - 1, hk⟩ with hdel
      have hlow' : max s.lower (s.lam + delta / norm2 root v ^ 2) ≤ up := by
        refine max_le hlow ?_
        rw [(norm2_sq hroot v).2, ← le_sub_iff_add_le', div_le_iff₀ hvpos]
        have h1 := hform v
        rw [quadForm_addDiag] at h1 hsform
        linarith
      have hlow0' : 0 ≤ max s.lower (s.lam + delta / norm2 root v ^ 2) := le_max_of_le_left hlow0
      rw [show k + (m + 1) = k + 1 + m by omega]
      exact ih (k + 1) _ hna rfl (newLambda_le hroot hlow0' hlow' hupper.le) hlow0' hlow' hupper
  have hbr := C44_initial_bracket hroot hn g h hs
  obtain ⟨h1, h2, h3⟩ := key maxiter 0 (gqStart root g h x0) rfl rfl hbr.2.2 hbr.1 (hbr.2.1.trans hbr.2.2) rfl
  rw [zero_add] at h1
  rw [gqtpar, hh]
  simp only [if_neg (by omega : maxiter ≠ 0), gqRun]
  rw [← hgdef, h1, h2, h3]
  rfl

/-- C124, examples: the saddle `diag(-1, 1)` and the flat Hessian zero, both with gradient zero, run through all 200 passes
without success; the Hessian `diag(2, 1)` ends after one pass. -/
example {ext : GqExternal ℝ 2} (hext : GqSpec ext) :
    gqtpar Real.sqrt ext 0 (1 / 10) (1 / 5) 200 ⟨0, fun _ => 0, some !![-1, 0; 0, 1], fun _ => 1, fun _ => 0⟩ (fun _ => 0)
      = .ok ⟨fun _ => 0, 199, false⟩ ∧
    gqtpar Real.sqrt ext 0 (1 / 10) (1 / 5) 200 ⟨0, fun _ => 0, some fun _ _ => 0, fun _ => 1, fun _ => 0⟩ (fun _ => 0)
      = .ok ⟨fun _ => 0, 199, false⟩ ∧
    gqtpar Real.sqrt ext 0 (1 / 10) (1 / 5) 200 ⟨0, fun _ => 0, some !![2, 0; 0, 1], fun _ => 1, fun _ => 0⟩ (fun _ => 0)
      = .ok ⟨fun _ => 0, 0, true⟩ := by
  refine ⟨?_, ?_, ?_⟩
  · refine C124_violated_diagonal sqrtSpec_real hext (by norm_num) (by norm_num) rfl ?_ (fun _ => rfl) ⟨0, by simp⟩
    intro i j hij
    fin_cases i <;> fin_cases j <;> simp_all
  · exact C124_violated_diagonal sqrtSpec_real hext (by norm_num) (by norm_num) rfl (fun _ _ _ => rfl) (fun _ => rfl)
      ⟨0, le_rfl⟩
  · refine C124_positive_definite_partial sqrtSpec_real hext (by norm_num) le_rfl (by norm_num) rfl ?_ (fun _ => rfl) ?_
    · intro i j; fin_cases i <;> fin_cases j <;> rfl
    · intro v hv
      simp [sumSq, Fin.sum_univ_two] at hv ⊢
      nlinarith [sq_nonneg (v 0), sq_nonneg (v 1)]

end Tranquilo
