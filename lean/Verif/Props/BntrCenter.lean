import Verif.Props.BntrWitness

/-!
# C94: bntr raises also from the center of the box
-/

namespace Tranquilo

variable {K : Type} [Field K] [LinearOrder K] [IsStrictOrderedRing K]

/-- The predicted and the actual reduction of the first pass of the gradient descent of the example. -/
theorem gdUpdateRadius_zero_division (eps lower : K) :
    gdUpdateRadius eps 100 lower (-4900) (-2425) 50 = .error .zeroDivisionError := by
  have hk : ∃ kappa, gdKappa eps (-4900) (-2425) = .ok kappa := by
    unfold gdKappa
    split
    · exact ⟨_, rfl⟩
    · unfold checkedDiv
      rw [if_neg (by norm_num)]
      exact ⟨_, rfl⟩
  obtain ⟨kappa, hk⟩ := hk
  unfold gdUpdateRadius
  rw [hk]
  change (checkedDiv _ _ >>= _) = _
  have : checkedDiv (1 / 4 * 50 * 100 : K) (1 / 4 * 50 * 100 + (1 - 1 / 4) * -4900 - -2425) = .error .zeroDivisionError := by
    unfold checkedDiv
    rw [if_pos (by norm_num)]
  rw [this]
  rfl

/-- C94 is violated also if the start is the center of the box: for the convex model `2475 x² - 50 x` on `[-1, 1]` the
first pass of the gradient descent divides by zero (all numbers of the pass are exact in floating point arithmetic). -/
theorem C94_violated_from_the_center {root : K → K} (hroot : SqrtSpec root) (eps : K) (broadcast : Bool)
    (inner : InnerSolver K) (maxiter maxiterGd fuel : Nat) (hgd : 0 < maxiterGd) :
    bntrFast root eps broadcast inner (defaultBntr maxiter maxiterGd) fuel
      (fun _ : Fin 1 => -50) (fun _ _ => 4950) (fun _ => -1) (fun _ => 1) (fun _ => 0)
      = .error .zeroDivisionError := by
  have hgrad : (fun i : Fin 1 => -50 + matVec (fun _ _ => (4950 : K)) (fun _ : Fin 1 => (0 : K)) i) = fun _ => -50 := by
    funext i
    simp [matVec]
  have hcrit0 : bntrCriterion (fun _ : Fin 1 => (0 : K)) (fun _ => -50) (fun _ _ => 4950) = 0 := by
    simp [bntrCriterion, dot, quadForm]
  have hfb := fbDirection_center hroot (fun _ : Fin 1 => (-50 : K)) 0 50 (by norm_num) rfl
  have hnot : (bntrConverged root (defaultBntr maxiter maxiterGd) (fun _ => 0) 0 (fun _ : Fin 1 => (-50 : K))
      (fun _ => -50) (fun _ => -1) (fun _ => 1) false 0 none).1 = false := by
    refine bntrConverged_false hroot _ _ _ _ _ _ _ _ 0 ?_ (Or.inl rfl) _ _
    refine le_trans ?_ ((hfb.trans (le_abs_self _)))
    norm_num
  have hpg : projectGradient (allFree (n := 1)).inactive (fun _ : Fin 1 => (-50 : K)) = fun _ => -50 := by
    funext i
    rw [projectGradient_apply]
    rfl
  have hnorm : norm2 root (fun _ : Fin 1 => (-50 : K)) = 50 := by
    unfold norm2
    refine root_unique hroot (by norm_num) ?_
    simp [dot]
  have hx : (applyBounds (fun _ => -1) (fun _ => 1) fun _ : Fin 1 => (0 : K) - 100 / 50 * -50) = fun _ => 1 := by
    funext i
    unfold applyBounds
    norm_num
  have hq : quadForm (maskMat (allFree (n := 1)).inactive fun _ _ => (4950 : K))
      (maskVec (allFree (n := 1)).inactive fun _ => 1 - 0) = 4950 := by
    have hlen : (maskIndices (allFree (n := 1)).inactive).length = 1 := rfl
    unfold quadForm maskMat maskVec
    simp [hlen]
  have hf : bntrCriterion (fun _ : Fin 1 => (1 : K)) (fun _ => -50) (fun _ _ => 4950) = 2425 := by
    simp [bntrCriterion, dot, quadForm]
    norm_num
  have hgdErr : gradientDescent root eps (fun _ => 0) 0 (fun _ : Fin 1 => (-50 : K)) (fun _ => -50) (fun _ _ => 4950)
      (fun _ => -1) (fun _ => 1) (allFree (n := 1)).inactive maxiterGd = .error .zeroDivisionError := by
    obtain ⟨k, hk⟩ := Nat.exists_eq_succ_of_ne_zero hgd.ne'
    rw [hk]
    unfold gradientDescent
    rw [hnorm]
    unfold gdLoop gdStep
    have hd : checkedDiv (100 : K) 50 = .ok (100 / 50) := by
      unfold checkedDiv
      rw [if_neg (by norm_num)]
    rw [hd]
    change ((gdUpdateRadius eps 100 0 _ _ 50 >>= _) >>= _) = _
    rw [hx, hq, hf]
    have e1 : (100 * (50 - 1 / 2 * 100 * 4950 / 50 ^ 2) : K) = -4900 := by norm_num
    have e2 : (0 - 2425 : K) = -2425 := by norm_num
    rw [e1, e2, gdUpdateRadius_zero_division]
    rfl
  have hp : bntrPreliminary root eps (defaultBntr maxiter maxiterGd) (fun _ : Fin 1 => -50) (fun _ _ => 4950)
      (fun _ => -1) (fun _ => 1) (fun _ => 0) = .error .zeroDivisionError := by
    unfold bntrPreliminary
    simp only [hgrad, hcrit0, hnot, activeBounds_center, hpg]
    change (gradientDescent root eps (fun _ => 0) 0 (fun _ : Fin 1 => (-50 : K)) (fun _ => -50) (fun _ _ => 4950)
      (fun _ => -1) (fun _ => 1) (allFree (n := 1)).inactive maxiterGd >>= _) = _
    rw [hgdErr]
    rfl
  unfold bntrFast
  rw [hp]
  rfl

end Tranquilo
