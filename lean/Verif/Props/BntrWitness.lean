import Verif.Props.Bntr
import Verif.Props.ConjugateGradient
import Mathlib.Tactic.FinCases

/-!
# C48, C93, C94: runs of the solver for boxes that violate the properties

All three runs use the default tolerances. Square roots are those of any function with the property of
the square root.
-/

namespace Tranquilo

variable {K : Type} [Field K] [LinearOrder K] [IsStrictOrderedRing K] {n : Nat}

/-- The default tolerances of tranquilo with given limits of the iterations. -/
def defaultBntr (maxiter maxiterGd : Nat) : BntrOptions K :=
  { maxiter := maxiter, maxiterGradientDescent := maxiterGd, gtolAbs := 1 / 10 ^ 8
    gtolRel := 1 / 10 ^ 8, gtolScaled := 0 }

variable {root : K → K}

theorem abs_le_norm2 (hroot : SqrtSpec root) (v : Vec K n) (i : Fin n) : |v i| ≤ norm2 root v := by
  have h0 : 0 ≤ dot v v := dot_self_nonneg v
  obtain ⟨h1, h2⟩ := hroot _ h0
  refine abs_le_of_sq_le_sq' ?_ h1 |> fun h => abs_le.2 h
  unfold norm2
  rw [sq (root _), h2]
  unfold dot
  have := Finset.single_le_sum (f := fun j => v j * v j) (fun j _ => mul_self_nonneg (v j))
    (Finset.mem_univ i)
  simpa [sq] using this

/-- No convergence when the measure is not small and the value is zero. -/
theorem bntrConverged_false (hroot : SqrtSpec root) (a b : Nat) (x gr g l u : Vec K n) (f : K)
    (i : Fin n) (hbig : 1 / 10 ^ 8 ≤ |fbDirection root x gr l u i|)
    (hf : f = 0 ∨ |f| < 10 ^ 8 * |fbDirection root x gr l u i|) (niter : Option Nat) (reason : Nat) :
    (bntrConverged root (defaultBntr a b) x f gr g l u false reason niter).1 = false := by
  have hn := abs_le_norm2 hroot (fbDirection root x gr l u) i
  have hpos : 0 < norm2 root (fbDirection root x gr l u) :=
    lt_of_lt_of_le (by positivity) (hbig.trans hn)
  unfold bntrConverged
  dsimp only
  rw [if_neg (show ¬ norm2 root (fbDirection root x gr l u) < (defaultBntr a b : BntrOptions K).gtolAbs
    from not_lt.2 (hbig.trans hn)), if_neg, if_neg, if_neg]
  · split <;> rfl
  · rintro ⟨-, h, -⟩; exact hpos.ne' h
  · rintro ⟨-, h⟩
    exact absurd h (not_lt.2 (div_nonneg hpos.le (norm2_nonneg hroot _)))
  · rintro ⟨h0, h⟩
    rcases hf with hf | hf
    · exact h0 hf
    · change _ < (1 / 10 ^ 8 : K) at h
      rw [abs_div, abs_of_pos hpos, div_lt_iff₀ (abs_pos.2 h0)] at h
      have : (10 : K) ^ 8 * norm2 root (fbDirection root x gr l u) < |f| := by
        have h10 : (0 : K) < 10 ^ 8 := by positivity
        calc (10 : K) ^ 8 * norm2 root (fbDirection root x gr l u)
            < 10 ^ 8 * (1 / 10 ^ 8 * |f|) := mul_lt_mul_of_pos_left h h10
          _ = |f| := by field_simp
      have := mul_le_mul_of_nonneg_left hn (by positivity : (0 : K) ≤ 10 ^ 8)
      linarith

/-! ## C94 -/

/-- If all parameters count as active at the start although the point is not stationary then the gradient
descent divides by zero. -/
theorem bntrFast_zero_division (hroot : SqrtSpec root) (eps : K) (broadcast : Bool)
    (inner : InnerSolver K) (o : BntrOptions K) (fuel : Nat) (g : Vec K n) (h : Mat K n n)
    (l u x : Vec K n) (hgd : 0 < o.maxiterGradientDescent)
    (hactive : ∀ i, (activeBounds x g l u).inactive i = false)
    (hnot : (bntrConverged root o x (bntrCriterion x g h) (fun i => g i + matVec h x i) g l u false 0
      none).1 = false) :
    bntrFast root eps broadcast inner o fuel g h l u x = .error .zeroDivisionError := by
  have hpg : projectGradient (activeBounds x g l u).inactive (fun i => g i + matVec h x i)
      = fun _ => 0 := by
    funext i
    rw [projectGradient_apply, hactive i]
    rfl
  have hnorm : norm2 root (fun _ : Fin n => (0 : K)) = 0 :=
    (norm2_eq_zero_iff hroot _).2 fun _ => rfl
  have hp : bntrPreliminary root eps o g h l u x = .error .zeroDivisionError := by
    unfold bntrPreliminary
    simp only [hnot, hpg]
    obtain ⟨k, hk⟩ := Nat.exists_eq_succ_of_ne_zero hgd.ne'
    rw [hk]
    unfold gradientDescent
    rw [hnorm]
    unfold gdLoop gdStep checkedDiv
    rw [if_pos rfl]
    rfl
  unfold bntrFast
  rw [hp]
  rfl

/-- C94 is violated: for the model `x² - x` on `[-1, 1]` and the start `1` (where it increases) the solver
raises `ZeroDivisionError`. -/
theorem C94_violated_zero_division (hroot : SqrtSpec root) (eps : K) (broadcast : Bool)
    (inner : InnerSolver K) (maxiter maxiterGd fuel : Nat) (hgd : 0 < maxiterGd) :
    bntrFast root eps broadcast inner (defaultBntr maxiter maxiterGd) fuel
      (fun _ : Fin 1 => -1) (fun _ _ => 2) (fun _ => -1) (fun _ => 1) (fun _ => 1)
      = .error .zeroDivisionError := by
  refine bntrFast_zero_division hroot _ _ _ _ _ _ _ _ _ _ hgd ?_ ?_
  · intro i
    simp [activeBounds]
  · have hfb : fbDirection root (fun _ : Fin 1 => (1 : K))
        (fun i => -1 + matVec (fun _ _ => 2) (fun _ : Fin 1 => (1 : K)) i) (fun _ => -1)
        (fun _ => 1) 0 = root 8 - 4 := by
      have h1 : fbScalar root (1 - 1) (-(-1 + (2 : K))) = 2 := by
        unfold fbScalar
        norm_num
        rw [root_unique hroot (a := 1) (b := 1) (by norm_num) (by norm_num)]
        norm_num
      have h2 : fbScalar root 2 (1 - -1) = root 8 - 4 := by
        rw [fbScalar_eq hroot]
        norm_num
      unfold fbDirection
      rw [if_neg (by norm_num)]
      simp only [matVec, Finset.univ_unique, Finset.sum_const, Finset.card_singleton, one_smul,
        mul_one]
      rw [h1, h2]
    obtain ⟨h8, h8'⟩ := hroot 8 (by norm_num)
    refine bntrConverged_false hroot _ _ _ _ _ _ _ _ 0 ?_ (Or.inl ?_) _ _
    · rw [hfb]
      have : root 8 ≤ 3 := by nlinarith
      rw [abs_of_nonpos (by linarith)]
      have : (1 : K) / 10 ^ 8 ≤ 1 := by norm_num
      linarith
    · simp [bntrCriterion, dot, quadForm]

/-! ## Both further runs start at the center of the unit cube -/

/-- A parameter in the middle of its bounds with a negative derivative is not stationary. -/
theorem fbDirection_center (hroot : SqrtSpec root) (gr : Vec K n) (i : Fin n) (c : K) (hc : 0 < c)
    (hg : gr i = -c) :
    c / (1 + c) ≤ fbDirection root (fun _ => 0) gr (fun _ => -1) (fun _ => 1) i := by
  unfold fbDirection
  rw [if_neg (by norm_num), hg]
  set w := fbScalar root (1 - 0) (-(-c)) with hw
  rw [fbScalar_eq hroot] at hw ⊢
  obtain ⟨h1, h2⟩ := hroot (w ^ 2 + (0 - -1) ^ 2) (by positivity)
  obtain ⟨h3, h4⟩ := hroot ((1 - 0) ^ 2 + (-(-c)) ^ 2) (by positivity)
  generalize root (w ^ 2 + (0 - -1) ^ 2) = S at *
  generalize root ((1 - 0) ^ 2 + (-(-c)) ^ 2) = R at *
  generalize w = w at *
  have h5 : 1 ≤ S := by nlinarith [sq_nonneg w]
  have hd : c / (1 + c) * (1 + c) = c := div_mul_cancel₀ _ (by linarith)
  have hd0 : 0 < c / (1 + c) := by positivity
  have hd1 : c / (1 + c) < 1 := by rw [div_lt_one (by linarith)]; linarith
  have h6 : R ≤ 1 + c - c / (1 + c) := by
    by_contra h
    rw [not_le] at h
    have : 0 ≤ 1 + c - c / (1 + c) := by linarith
    nlinarith [mul_self_lt_mul_self this h, sq_nonneg (c / (1 + c))]
  linarith

/-- All parameters are free. -/
def allFree : ActiveBounds n :=
  { lower := fun _ => false, upper := fun _ => false, fixed := fun _ => false
    inactive := fun _ => true }

theorem activeBounds_center (gr : Vec K n) :
    activeBounds (fun _ => 0) gr (fun _ => -1) (fun _ => 1) = allFree := by
  unfold activeBounds allFree
  have h1 : ¬ (0 : K) ≤ -1 := by norm_num
  have h2 : ¬ (1 : K) ≤ 0 := by norm_num
  have h3 : (-1 : K) ≠ 1 := by norm_num
  simp [h1, h2, h3]

/-! ## C48 -/

/-- A pass of the loop of the conjugate gradient method that does not stop. -/
theorem cgLoop_continue (hroot : SqrtSpec root) (h : Mat K n n) (radius tol : K) (k : Nat)
    (s : CgState K n) (sq rr b t : K) (hsq : quadForm h s.direction = sq) (hpos : 0 < sq)
    (hrr : dot s.residual s.residual = rr) (hb : 0 ≤ b) (hbr : b * b ≤ rr) (htol : tol < b)
    (ht : t = rr / sq) (hdist : t ≤ cgDistance root s.x s.direction radius) :
    cgLoop root (cgDistance root) cgUpdate h radius tol (k + 1) s
      = cgLoop root (cgDistance root) cgUpdate h radius tol k (cgUpdate h s t) := by
  have hn : ¬ norm2 root s.residual ≤ tol := by
    unfold norm2
    rw [hrr]
    obtain ⟨h1, h2⟩ := hroot rr ((mul_self_nonneg b).trans hbr)
    intro hle
    have h3 : root rr < b := lt_of_le_of_lt hle htol
    nlinarith
  rw [cgLoop]
  simp only []
  rw [if_neg hn, hsq, hrr, ← ht, if_neg]
  rintro (h1 | h1)
  · exact absurd hpos (not_lt.2 h1)
  · exact absurd hdist (not_le.2 h1)

/-- The Hessian of the example for C48. -/
def hess48 : Mat K 2 2 := ![![1, -1 / 4], ![-1 / 4, 5 / 64]]

/-- The linear terms of the example for C48. -/
def grad48 : Vec K 2 := ![0, -1 / 16]

/-- The conjugate gradient method finds the Newton step. -/
theorem cg48 (hroot : SqrtSpec root) :
    minimizeCgFast root (grad48 : Vec K 2) hess48 100 (1 / 10 ^ 8) (1 / 10 ^ 6) = ![1, 4] := by
  rw [C73_conjugate_gradient]
  unfold minimizeCg
  have hnorm : norm2 root (grad48 : Vec K 2) = 1 / 16 := by
    unfold norm2
    refine root_unique hroot (by norm_num) ?_
    simp only [dot, grad48, Fin.sum_univ_two, Matrix.cons_val_zero, Matrix.cons_val_one]
    norm_num
  have htol : max (1 / 10 ^ 8 : K) (1 / 10 ^ 6 * norm2 root (grad48 : Vec K 2)) < 1 / 10 ^ 7 := by
    rw [hnorm]
    refine max_lt ?_ ?_ <;> norm_num
  change cgLoop root (cgDistance root) cgUpdate hess48 100 _ (3 + 1) (cgStart grad48) = _
  rw [cgLoop_continue hroot hess48 100 _ 3 _ (5 / 16384) (1 / 256) (1 / 16) (64 / 5)]
  · have h1 : cgUpdate hess48 (cgStart (grad48 : Vec K 2)) (64 / 5)
        = { x := ![0, 4 / 5], residual := ![-1 / 5, 0], direction := ![1 / 5, 16 / 25] } := by
      unfold cgUpdate cgStart
      simp only [CgState.mk.injEq]
      refine ⟨?_, ?_, ?_⟩ <;> funext i <;> fin_cases i <;>
        simp [grad48, hess48, matVec, dot, Fin.sum_univ_two] <;> norm_num
    rw [h1]
    rw [cgLoop_continue hroot hess48 100 _ 2 _ (1 / 125) (1 / 25) (1 / 5) 5]
    · have h2 : cgUpdate (K := K) hess48 { x := ![0, 4 / 5], residual := ![-1 / 5, 0], direction := ![1 / 5, 16 / 25] }
            (5 : K)
          = { x := ![1, 4], residual := ![0, 0], direction := ![0, 0] } := by
        unfold cgUpdate
        simp only [CgState.mk.injEq]
        refine ⟨?_, ?_, ?_⟩ <;> funext i <;> fin_cases i <;>
          simp [hess48, matVec, dot, Fin.sum_univ_two] <;> norm_num
      rw [h2]
      have h3 : norm2 root (![0, 0] : Vec K 2) = 0 :=
        (norm2_eq_zero_iff hroot _).2 fun i => by fin_cases i <;> rfl
      rw [cgLoop]
      simp only []
      rw [if_pos]
      rw [h3]
      exact le_max_of_le_left (by norm_num)
    · simp [quadForm, hess48, Fin.sum_univ_two]; norm_num
    · norm_num
    · simp [dot, Fin.sum_univ_two]; norm_num
    · norm_num
    · norm_num
    · exact htol.trans (by norm_num)
    · norm_num
    · unfold cgDistance
      simp only [dot, Fin.sum_univ_two, Matrix.cons_val_zero, Matrix.cons_val_one]
      rw [le_div_iff₀ (by norm_num)]
      obtain ⟨h4, h5⟩ := hroot
        ((0 * (1 / 5) + 4 / 5 * (16 / 25)) * (0 * (1 / 5) + 4 / 5 * (16 / 25)) +
          (1 / 5 * (1 / 5) + 16 / 25 * (16 / 25)) * (100 ^ 2 - (0 * 0 + 4 / 5 * (4 / 5)))) (by norm_num)
      have : (10 : K) ≤ root
        ((0 * (1 / 5) + 4 / 5 * (16 / 25)) * (0 * (1 / 5) + 4 / 5 * (16 / 25)) +
          (1 / 5 * (1 / 5) + 16 / 25 * (16 / 25)) * (100 ^ 2 - (0 * 0 + 4 / 5 * (4 / 5)))) := by
        by_contra hlt
        rw [not_le] at hlt
        have := mul_self_lt_mul_self h4 hlt
        rw [h5] at this
        norm_num at this
      norm_num at this ⊢
      linarith
  · simp [quadForm, hess48, cgStart, grad48, Fin.sum_univ_two]; norm_num
  · norm_num
  · simp [dot, cgStart, grad48, Fin.sum_univ_two]; norm_num
  · norm_num
  · norm_num
  · exact htol.trans (by norm_num)
  · norm_num
  · unfold cgDistance cgStart
    simp only [dot, grad48, Fin.sum_univ_two, Matrix.cons_val_zero, Matrix.cons_val_one]
    rw [le_div_iff₀ (by norm_num)]
    have := root_unique hroot (a := (0 * -0 + 0 * -(-1 / 16)) * (0 * -0 + 0 * -(-1 / 16)) +
      (-0 * -0 + -(-1 / 16) * -(-1 / 16)) * (100 ^ 2 - (0 * 0 + 0 * 0))) (b := 100 / 16)
      (by norm_num) (by norm_num)
    rw [this]
    norm_num

omit [IsStrictOrderedRing K] in
/-- An accepted step. -/
theorem bntrTrial_accept (root : K → K) (eps : K) (broadcast : Bool) (inner : InnerSolver K)
    (o : BntrOptions K) (g : Vec K n) (h : Mat K n n) (l u : Vec K n) (niter : Nat) (s : BntrState K n)
    (t : Vec K (maskIndices s.active.inactive).length × K) (rad : K)
    (ht : trialStep root broadcast inner s.gradient h l u s.x s.active s.radius = .ok t)
    (step x : Vec K n) (f p : K) (hstep : boundedStep s.active l u s.x t.1 = step)
    (hx : (applyBounds l u fun i => s.x i + step i) = x) (hf : bntrCriterion x g h = f)
    (hp : predictedReduction s.gradient h s.active.inactive step t.1 = p)
    (hu : cgUpdateRadius eps f p (s.f - f) t.2 s.radius = .ok (rad, true)) :
    ∃ s', bntrTrial root eps broadcast inner o g h l u niter s = .ok (s', true) ∧
      s'.x = x ∧ s'.f = f := by
  subst hstep hx hf hp
  unfold bntrTrial
  rw [ht]
  change ∃ s', (cgUpdateRadius _ _ _ _ _ _ >>= _) = _ ∧ _
  rw [hu]
  exact ⟨_, rfl, rfl, rfl⟩

/-- The run of the example for C48. -/
theorem run48 (hroot : SqrtSpec root) (eps : K) (broadcast : Bool) (fuel : Nat) :
    ∃ r : BntrResult K 2,
      bntrFast root eps broadcast (innerCg root (1 / 10 ^ 8) (1 / 10 ^ 6)) (defaultBntr 0 0) (fuel + 1)
        grad48 hess48 (fun _ => -1) (fun _ => 1) (fun _ => 0) = .ok (some r) ∧
      r.x = (fun _ => 1) ∧ r.criterion = 29 / 128 := by
  have hgrad : (fun i => grad48 i + matVec hess48 (fun _ => 0) i) = (grad48 : Vec K 2) := by
    funext i
    simp [matVec]
  have hcrit0 : bntrCriterion (fun _ => 0) (grad48 : Vec K 2) hess48 = 0 := by
    simp [bntrCriterion, dot, quadForm]
  have hfb := fbDirection_center hroot (grad48 : Vec K 2) 1 (1 / 16) (by norm_num)
    (by simp [grad48]; norm_num)
  have hnot : (bntrConverged root (defaultBntr 0 0) (fun _ => 0) 0 (grad48 : Vec K 2) grad48
      (fun _ => -1) (fun _ => 1) false 0 none).1 = false := by
    refine bntrConverged_false hroot _ _ _ _ _ _ _ _ 1 ?_ (Or.inl rfl) _ _
    refine le_trans ?_ ((hfb.trans (le_abs_self _)))
    norm_num
  obtain ⟨reason, hp⟩ : ∃ reason, bntrPreliminary root eps (defaultBntr 0 0) (grad48 : Vec K 2) hess48
      (fun _ => -1) (fun _ => 1) (fun _ => 0)
      = .ok { x := fun _ => 0, f := 0, gradient := grad48, radius := 100, active := allFree
              converged := false, reason := reason } := by
    refine ⟨(bntrConverged root (defaultBntr 0 0) (fun _ => 0) 0 (grad48 : Vec K 2) grad48
      (fun _ => -1) (fun _ => 1) false 0 none).2, ?_⟩
    unfold bntrPreliminary
    simp only [hgrad, hcrit0, hnot, activeBounds_center]
    have hgd : gradientDescent root eps (fun _ => 0) 0 (projectGradient allFree.inactive grad48)
        (grad48 : Vec K 2) hess48 (fun _ => -1) (fun _ => 1) allFree.inactive
        (defaultBntr (K := K) 0 0).maxiterGradientDescent
        = .ok { x := fun _ => 0, fMin := 0, stepSize := 0, radius := 100, lower := 0 } := rfl
    rw [hgd]
    have h100 : clipRadius (max (100 : K) 0) = 100 := by
      unfold clipRadius bntrMinRadius bntrMaxRadius
      rw [max_eq_left (by norm_num), max_eq_left (by norm_num), min_eq_left (by norm_num)]
    change (if (0 : K) < 0 then _ else _) = _
    rw [if_neg (lt_irrefl _), h100]
  have hcrit : bntrCriterion (fun _ => 1) (grad48 : Vec K 2) hess48 = 29 / 128 := by
    simp [bntrCriterion, dot, quadForm, grad48, hess48, Fin.sum_univ_two]
    norm_num
  obtain ⟨nrm, ht⟩ : ∃ nrm : K, trialStep root broadcast (innerCg root (1 / 10 ^ 8) (1 / 10 ^ 6))
      (grad48 : Vec K 2) hess48 (fun _ => -1) (fun _ => 1) (fun _ => 0) allFree 100
      = .ok (![1, 4], nrm) := by
    have h1 : maskVec (fun _ => true) (grad48 : Vec K 2) = (grad48 : Vec K 2) := by
      funext i; fin_cases i <;> rfl
    have h2 : maskMat (fun _ => true) (hess48 : Mat K 2 2) = (hess48 : Mat K 2 2) := by
      funext i j; fin_cases i <;> fin_cases j <;> rfl
    refine ⟨norm2 root (![1, 4] : Vec K 2), ?_⟩
    unfold trialStep
    rw [if_neg (by decide)]
    unfold freeStep innerCg
    change ((Except.ok (minimizeCgFast root (n := 2) (maskVec (fun _ => true) (grad48 : Vec K 2))
      (maskMat (fun _ => true) (hess48 : Mat K 2 2)) 100 (1 / 10 ^ 8) (1 / 10 ^ 6)) >>= fun step =>
        if (100 : K) = 0 ∧ ¬ 0 < norm2 root step then _ else _ : Except Err (Vec K 2 × K))) = _
    rw [h1, h2, cg48 hroot]
    exact if_neg fun hc => absurd hc.1 (by norm_num)
  have hstep : boundedStep allFree (fun _ => -1) (fun _ => 1) (fun _ => 0)
      (![1, 4] : Vec K 2) = (![1, 4] : Vec K 2) := by
    funext i; fin_cases i <;> rfl
  have hx : (applyBounds (fun _ => -1) (fun _ => 1) fun i => 0 + (![1, 4] : Vec K 2) i)
      = fun _ => 1 := by
    funext i
    unfold applyBounds
    fin_cases i <;> norm_num
  have hpred : predictedReduction (grad48 : Vec K 2) hess48 allFree.inactive ![1, 4] ![1, 4]
      = 1 / 8 := by
    have h1 : maskVec (fun _ => true) (grad48 : Vec K 2) = (grad48 : Vec K 2) := by
      funext i; fin_cases i <;> rfl
    have h2 : maskMat (fun _ => true) (hess48 : Mat K 2 2) = (hess48 : Mat K 2 2) := by
      funext i j; fin_cases i <;> fin_cases j <;> rfl
    change -(bntrCriterion (n := 2) ![1, 4] (maskVec (fun _ => true) (grad48 : Vec K 2))
      (maskMat (fun _ => true) (hess48 : Mat K 2 2))) = _
    rw [h1, h2]
    simp [bntrCriterion, dot, quadForm, grad48, hess48, Fin.sum_univ_two]
    norm_num
  obtain ⟨rad, hu⟩ : ∃ rad, cgUpdateRadius eps (29 / 128) (1 / 8) (0 - 29 / 128) nrm 100
      = .ok (rad, true) := by
    refine ⟨clipRadius (if nrm = 100 then boundaryFactor 1 * 100 else 100), ?_⟩
    unfold cgUpdateRadius
    rw [if_neg (by norm_num)]
    have hk : cgKappa eps (29 / 128) (1 / 8) (0 - 29 / 128) = .ok 1 := by
      unfold cgKappa
      refine if_pos ⟨le_max_of_le_left ?_, le_max_of_le_left ?_⟩
      · rw [abs_le]; constructor <;> norm_num
      · rw [abs_le]; constructor <;> norm_num
    rw [hk]
    change (if (1 : K) < 1 / 10 ^ 4 then _ else _) = _
    rw [if_neg (by norm_num)]
  obtain ⟨s', hs', hx', hf'⟩ : ∃ s' : BntrState K 2,
      bntrTrial root eps broadcast (innerCg root (1 / 10 ^ 8) (1 / 10 ^ 6)) (defaultBntr 0 0)
        grad48 hess48 (fun _ => -1) (fun _ => 1) 0
        { x := fun _ => 0, f := 0, gradient := grad48, radius := 100, active := allFree
          converged := false, reason := reason } = .ok (s', true) ∧
      s'.x = (fun _ => 1) ∧ s'.f = 29 / 128 := by
    exact bntrTrial_accept root eps broadcast (innerCg root (1 / 10 ^ 8) (1 / 10 ^ 6))
      (defaultBntr 0 0) grad48 hess48 (fun _ => -1) (fun _ => 1) 0
      { x := fun _ => 0, f := 0, gradient := grad48, radius := 100, active := allFree
        converged := false, reason := reason } (![1, 4], nrm) rad ht _ _ _ _ hstep hx hcrit hpred hu
  refine ⟨{ x := s'.x, criterion := s'.f, nIterations := 0, success := s'.converged
            message := s'.reason }, ?_, hx', hf'⟩
  unfold bntrFast
  rw [hp]
  change (bntrOuter _ _ _ _ _ _ _ _ _ _ (0 + 1) 0 _ >>= _) = _
  have hi : bntrInner root eps broadcast (innerCg root (1 / 10 ^ 8) (1 / 10 ^ 6)) (defaultBntr 0 0)
        grad48 hess48 (fun _ => -1) (fun _ => 1) 0 (fuel + 1)
        { x := fun _ => 0, f := 0, gradient := grad48, radius := 100, active := allFree
          converged := false, reason := reason } = .ok (some s') := by
    unfold bntrInner
    rw [hs']
    rfl
  have ho : bntrOuter root eps broadcast (innerCg root (1 / 10 ^ 8) (1 / 10 ^ 6)) (defaultBntr 0 0)
        grad48 hess48 (fun _ => -1) (fun _ => 1) (fuel + 1) (0 + 1) 0
        { x := fun _ => 0, f := 0, gradient := grad48, radius := 100, active := allFree
          converged := false, reason := reason } = .ok (some (s', 0)) := by
    unfold bntrOuter
    rw [hi]
    rfl
  rw [ho]
  rfl

/-- C48 is violated: a convex model on the unit cube, the start at its center, and the solver without the
initial gradient descent: the value of the model at the result is greater than at the start. -/
theorem C48_violated (hroot : SqrtSpec root) (eps : K) (broadcast : Bool) (fuel : Nat)
    (hfuel : 0 < fuel) :
    ∃ (g : Vec K 2) (h : Mat K 2 2) (r : BntrResult K 2),
      SymmetricMat h ∧ (∀ v : Vec K 2, 0 ≤ ∑ i, ∑ j, v i * h i j * v j) ∧
      bntrFast root eps broadcast (innerCg root (1 / 10 ^ 8) (1 / 10 ^ 6)) (defaultBntr 0 0) fuel
        g h (fun _ => -1) (fun _ => 1) (fun _ => 0) = .ok (some r) ∧
      quadModel g h (fun _ => 0) < quadModel g h r.x := by
  obtain ⟨k, rfl⟩ := Nat.exists_eq_succ_of_ne_zero hfuel.ne'
  obtain ⟨r, hr, hx, -⟩ := run48 hroot eps broadcast k
  refine ⟨grad48, hess48, r, ?_, ?_, hr, ?_⟩
  · intro i j
    fin_cases i <;> fin_cases j <;> rfl
  · intro v
    simp only [hess48, Fin.sum_univ_two, Matrix.cons_val_zero, Matrix.cons_val_one]
    nlinarith [sq_nonneg (v 0 - v 1 / 4), sq_nonneg (v 1)]
  · rw [hx]
    simp [quadModel, grad48, hess48, Fin.sum_univ_two]
    norm_num

/-! ## C93 -/

/-- The linear terms of the example for C93. -/
def grad93 : Vec K 2 := ![-401, -80400]

/-- The Hessian of the example for C93. -/
def hess93 : Mat K 2 2 := ![![80401 / 200, 0], ![0, 0]]

/-- One iteration of the gradient descent in the example for C93. -/
theorem gd93 (hroot : SqrtSpec root) (eps : K) :
    ∃ d : GdState K 2, gradientDescent root eps (fun _ => 0) 0
        (projectGradient allFree.inactive grad93) (grad93 : Vec K 2) hess93 (fun _ => -1) (fun _ => 1)
        allFree.inactive 1 = .ok d ∧
      d.x = ![40100 / 80401, 1] ∧ d.fMin = -6476300475 / 80401 ∧ d.stepSize = 100 / 80401 := by
  have hpg : projectGradient allFree.inactive (grad93 : Vec K 2) = grad93 := by
    funext i
    rw [projectGradient_apply]
    rfl
  have hnorm : norm2 root (grad93 : Vec K 2) = 80401 := by
    unfold norm2
    refine root_unique hroot (by norm_num) ?_
    simp [dot, grad93, Fin.sum_univ_two]
    norm_num
  have hsize : checkedDiv (100 : K) 80401 = .ok (100 / 80401) := if_neg (by norm_num)
  have hx : (applyBounds (fun _ => -1) (fun _ => 1) fun i => 0 - 100 / 80401 * (grad93 : Vec K 2) i)
      = ![40100 / 80401, 1] := by
    funext i
    unfold applyBounds
    fin_cases i <;> simp [grad93] <;> norm_num
  have hf : bntrCriterion (![40100 / 80401, 1] : Vec K 2) grad93 hess93 = -6476300475 / 80401 := by
    simp [bntrCriterion, dot, quadForm, grad93, hess93, Fin.sum_univ_two]
    norm_num
  have hsq : quadForm (maskMat (fun _ => true) (hess93 : Mat K 2 2))
      (maskVec (fun _ => true) fun i => (![40100 / 80401, 1] : Vec K 2) i - 0) = 8040050 / 80401 := by
    change quadForm (n := 2) (maskMat (fun _ => true) (hess93 : Mat K 2 2))
      (maskVec (fun _ => true) fun i => (![40100 / 80401, 1] : Vec K 2) i - 0) = _
    have h2 : maskMat (fun _ => true) (hess93 : Mat K 2 2) = (hess93 : Mat K 2 2) := by
      funext i j; fin_cases i <;> fin_cases j <;> rfl
    have h3 : (maskVec (fun _ => true) fun i => (![40100 / 80401, 1] : Vec K 2) i - 0)
        = (fun i => (![40100 / 80401, 1] : Vec K 2) i - 0) := by
      funext i; fin_cases i <;> rfl
    rw [h2, h3]
    simp [quadForm, hess93, Fin.sum_univ_two]
    norm_num
  obtain ⟨r, hr⟩ : ∃ r, gdUpdateRadius eps 100 0
      (100 * (80401 - 1 / 2 * 100 * (8040050 / 80401) / 80401 ^ 2)) (0 - -6476300475 / 80401) (80401 : K)
      = .ok r := by
    unfold gdUpdateRadius
    obtain ⟨k, hk⟩ : ∃ k, gdKappa eps (100 * (80401 - 1 / 2 * 100 * (8040050 / 80401) / 80401 ^ 2))
        (0 - -6476300475 / 80401) = .ok k := by
      unfold gdKappa checkedDiv
      split
      · exact ⟨1, rfl⟩
      · rw [if_neg (by norm_num)]
        exact ⟨_, rfl⟩
    rw [hk]
    unfold checkedDiv
    rw [if_neg (by norm_num), if_neg (by norm_num)]
    exact ⟨_, rfl⟩
  rw [hpg]
  unfold gradientDescent
  rw [hnorm]
  have hstep : gdStep eps 0 80401 (grad93 : Vec K 2) grad93 hess93 (fun _ => -1) (fun _ => 1)
      allFree.inactive { x := fun _ => 0, fMin := 0, stepSize := 0, radius := 100, lower := 0 }
      = .ok { x := ![40100 / 80401, 1], fMin := -6476300475 / 80401, stepSize := 100 / 80401
              radius := r.1, lower := r.2 } := by
    unfold gdStep
    simp only [hsize]
    change (gdUpdateRadius _ _ _ _ _ _ >>= _) = _
    rw [hx, hf]
    have hsq' : quadForm (maskMat allFree.inactive (hess93 : Mat K 2 2))
      (maskVec allFree.inactive fun i => (![40100 / 80401, 1] : Vec K 2) i - 0)
      = 8040050 / 80401 := hsq
    rw [hsq', hr]
    change Except.ok (GdState.mk _ (if _ then _ else _) (if _ then _ else _) _ _) = _
    rw [if_pos (by norm_num), if_pos (by norm_num)]
  refine ⟨{ x := ![40100 / 80401, 1], fMin := -6476300475 / 80401, stepSize := 100 / 80401
            radius := r.1, lower := r.2 }, ?_, rfl, rfl, rfl⟩
  · change gdLoop _ _ _ _ _ _ _ _ _ (0 + 1) _ = _
    unfold gdLoop
    rw [hstep]
    rfl

/-- C93 is violated: one iteration of the initial gradient descent on a convex model in the unit cube. The
solver reports success, and a value that the model does not have at the reported point: the accepted step
is taken twice. -/
theorem C93_violated (hroot : SqrtSpec root) (eps : K) (broadcast : Bool) (inner : InnerSolver K)
    (maxiter fuel : Nat) :
    ∃ (g : Vec K 2) (h : Mat K 2 2) (r : BntrResult K 2),
      SymmetricMat h ∧ (∀ v : Vec K 2, 0 ≤ ∑ i, ∑ j, v i * h i j * v j) ∧
      bntrFast root eps broadcast inner (defaultBntr maxiter 1) fuel
        g h (fun _ => -1) (fun _ => 1) (fun _ => 0) = .ok (some r) ∧
      r.success = true ∧ quadModel g h r.x < r.criterion := by
  have hgrad : (fun i => grad93 i + matVec hess93 (fun _ => 0) i) = (grad93 : Vec K 2) := by
    funext i
    simp [matVec]
  have hcrit0 : bntrCriterion (fun _ => 0) (grad93 : Vec K 2) hess93 = 0 := by
    simp [bntrCriterion, dot, quadForm]
  have hfb := fbDirection_center hroot (grad93 : Vec K 2) 0 401 (by norm_num) (by simp [grad93])
  have hnot : (bntrConverged root (defaultBntr maxiter 1) (fun _ => 0) 0 (grad93 : Vec K 2) grad93
      (fun _ => -1) (fun _ => 1) false 0 none).1 = false := by
    refine bntrConverged_false hroot _ _ _ _ _ _ _ _ 0 ?_ (Or.inl rfl) _ _
    refine le_trans ?_ ((hfb.trans (le_abs_self _)))
    norm_num
  obtain ⟨d, hd, hdx, hdf, hds⟩ := gd93 hroot eps
  have hx : (applyBounds (fun _ => -1) (fun _ => 1) fun i =>
      d.x i - d.stepSize * projectGradient allFree.inactive (grad93 : Vec K 2) i)
      = ![80200 / 80401, 1] := by
    funext i
    unfold applyBounds
    simp only [projectGradient_apply, hdx, hds]
    fin_cases i <;> simp [grad93, allFree] <;> norm_num
  have hgrad' : (fun i => grad93 i + matVec hess93 ![80200 / 80401, 1] i) = (![0, -80400] : Vec K 2) := by
    funext i
    fin_cases i <;> simp [matVec, grad93, hess93, Fin.sum_univ_two] <;> norm_num
  have hpg' : projectGradient
      (activeBounds (![80200 / 80401, 1] : Vec K 2) ![0, -80400] (fun _ => -1) (fun _ => 1)).inactive
      (![0, -80400] : Vec K 2) = fun _ => 0 := by
    funext i
    rw [projectGradient_apply]
    fin_cases i
    · simp
    · simp [activeBounds]
  have hconv : ∀ reason, bntrConverged root (defaultBntr maxiter 1) (![80200 / 80401, 1] : Vec K 2) d.fMin
      (fun _ => 0) grad93 (fun _ => -1) (fun _ => 1) false reason none = (true, 1) := by
    intro reason
    have h0 := (C49_zero_iff_first_order (fun _ => (-1 : K)) (fun _ => 1) hroot (fun _ => by norm_num)
      (![80200 / 80401, 1] : Vec K 2) (fun _ => 0)).2 ⟨?_, fun i => ⟨fun _ => le_rfl, fun _ => le_rfl⟩⟩
    · unfold bntrConverged
      rw [h0]
      exact if_pos (by norm_num [defaultBntr])
    · intro i
      fin_cases i <;> constructor <;> simp <;> norm_num
  refine ⟨grad93, hess93, { x := ![80200 / 80401, 1], criterion := d.fMin, nIterations := 0
                            success := true, message := 1 }, ?_, ?_, ?_, rfl, ?_⟩
  · intro i j
    fin_cases i <;> fin_cases j <;> rfl
  · intro v
    simp only [hess93, Fin.sum_univ_two, Matrix.cons_val_zero, Matrix.cons_val_one]
    nlinarith [sq_nonneg (v 0)]
  · have hp : bntrPreliminary root eps (defaultBntr maxiter 1) (grad93 : Vec K 2) hess93
        (fun _ => -1) (fun _ => 1) (fun _ => 0)
        = .ok { x := ![80200 / 80401, 1], f := d.fMin, gradient := ![0, -80400], radius := d.radius
                active := activeBounds (![80200 / 80401, 1] : Vec K 2) ![0, -80400] (fun _ => -1)
                  (fun _ => 1)
                converged := true, reason := 1 } := by
      unfold bntrPreliminary
      simp only [hgrad, hcrit0, hnot, activeBounds_center]
      have hd' : gradientDescent root eps (fun _ => 0) 0
        (projectGradient allFree.inactive grad93) (grad93 : Vec K 2) hess93 (fun _ => -1) (fun _ => 1)
        allFree.inactive (defaultBntr (K := K) maxiter 1).maxiterGradientDescent = .ok d := hd
      rw [hd']
      change (if d.fMin < 0 then _ else _) = _
      rw [if_pos (by rw [hdf]; norm_num)]
      simp only [hx, hgrad', hpg', hconv]
      rfl
    unfold bntrFast
    rw [hp]
    rfl
  · change _ < d.fMin
    rw [hdf]
    simp [quadModel, grad93, hess93, Fin.sum_univ_two]
    norm_num

end Tranquilo
