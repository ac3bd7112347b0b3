import Verif.Props.Gqtpar
import Verif.Lemmas.GqtparExists
import Mathlib.Analysis.SpecialFunctions.Pow.Real
import Mathlib.Tactic.FinCases

/-!
# What gqtpar does not guarantee: witnesses for C40 and C45

The witnesses hold for all library functions that meet the contract `GqSpec` (such functions exist, see
`gqSpec_exists`), with the default tolerances 0.1 and 0.2 of `SubsolverOptions`.
-/

namespace Tranquilo

theorem sqrtSpec_real : SqrtSpec Real.sqrt :=
  fun _ ha => ⟨Real.sqrt_nonneg _, Real.mul_self_sqrt ha⟩

/-- The theorems on gqtpar are not empty: functions as assumed exist over the reals in every
dimension. -/
theorem gqSpec_real (n : Nat) : ∃ ext : GqExternal ℝ n, GqSpec ext := gqSpec_exists sqrtSpec_real n

theorem vecMin_two (v : Vec ℝ 2) : vecMin v = min (v 0) (v 1) := by
  refine le_antisymm (le_min (vecMin_le v 0) (vecMin_le v 1)) ?_
  obtain ⟨i, hi⟩ := vecMin_attained v (by norm_num)
  rw [hi]
  fin_cases i
  · exact min_le_left _ _
  · exact min_le_right _ _

theorem vecMax_two (v : Vec ℝ 2) : vecMax v = max (v 0) (v 1) := by
  have hne : (Finset.univ : Finset (Fin 2)).Nonempty := ⟨0, Finset.mem_univ _⟩
  refine le_antisymm ?_ (max_le (le_vecMax v 0) (le_vecMax v 1))
  rw [vecMax, dif_pos hne]
  refine Finset.sup'_le hne v fun i _ => ?_
  fin_cases i
  · exact le_max_left _ _
  · exact le_max_right _ _

/-- A pass that converges at once ends the loop. -/
theorem gqtpar_one_pass {n : Nat} {root : ℝ → ℝ} {ext : GqExternal ℝ n} {eps kEasy kHard : ℝ}
    {maxiter : Nat} (hm : 0 < maxiter) {model : ScalarModel ℝ n} {h : Mat ℝ n n}
    (hh : model.squareTerms = some h) {x0 : Vec ℝ n}
    (hc : (gqIteration root ext model.linearTerms h (gqThreshold eps h) kEasy kHard
      (gqStart root model.linearTerms h x0)).converged = true) :
    gqtpar root ext eps kEasy kHard maxiter model x0 = .ok ⟨(gqIteration root ext model.linearTerms h
      (gqThreshold eps h) kEasy kHard (gqStart root model.linearTerms h x0)).x, 0, true⟩ := by
  obtain ⟨m, rfl⟩ : ∃ m, maxiter = m + 1 := ⟨maxiter - 1, by omega⟩
  simp only [gqtpar, hh, Nat.add_one_ne_zero, if_false, gqRun, gqLoop, hc, if_true]

theorem refactorize_start {n : Nat} {root : ℝ → ℝ} (ext : GqExternal ℝ n) {g : Vec ℝ n}
    {h : Mat ℝ n n} (x0 : Vec ℝ n) {l : ℝ} (hl : initialLambda root g h = l) :
    refactorize ext h (gqStart root g h x0) = ⟨x0, addDiag h l, ext.chol (addDiag h l), false, l,
      initialLower root g h, initialUpper root g h, false⟩ := by
  subst hl; rfl

/-- The template for a ball when the solver returns a point that is not worse than the center. -/
theorem solveSubproblem_sphere {n : Nat} (cr : ℝ → ℝ) (sphere cube fbSphere fbCube : SubSolver ℝ n)
    (retry : Bool) (model : ScalarModel ℝ n) (r : Region ℝ n) (hs : r.shape = .sphere)
    {raw : RawResult ℝ n} (hraw : sphere model (r.mapToUnit cr r.center) = .ok raw)
    (hle : model.predict raw.x ≤ model.predict (r.mapToUnit cr r.center)) :
    solveSubproblem cr sphere cube fbSphere fbCube retry model r = .ok
      { x := r.mapFromUnit cr raw.x
        expectedImprovement := -(model.predict raw.x - model.predict (r.mapToUnit cr r.center))
        nIterations := raw.nIterations, success := raw.success, xUnit := raw.x, shape := .sphere } := by
  have h0 : 0 ≤ -(model.predict raw.x - model.predict (r.mapToUnit cr r.center)) := by linarith
  simp only [solveSubproblem, hs, callSolver, hraw, h0, if_true]

/-! ## The slack -/

/-- Hessian diag(24, 29). -/
def slackHess : Mat ℝ 2 2 := fun i j => if i = j then (if i = 0 then 24 else 29) else 0

/-- Gradient (33, 0). -/
def slackGrad : Vec ℝ 2 := fun i => if i = 0 then 33 else 0

theorem slack_lambda : initialLambda Real.sqrt slackGrad slackHess = 6 := by
  have hg : norm2 Real.sqrt slackGrad = 33 := by
    have : dot slackGrad slackGrad = 33 ^ 2 := by simp [dot, slackGrad]; norm_num
    rw [norm2, this, Real.sqrt_sq (by norm_num)]
  have hinf : infNorm slackHess = 29 := by
    rw [infNorm, vecMax_two]
    simp [absRowSum, slackHess]
    norm_num
  have hgl : gershgorinLower slackHess = 24 := by
    rw [gershgorinLower, vecMin_two]
    simp [absRowSum, slackHess]
    norm_num
  have hgu : gershgorinUpper slackHess = 29 := by
    rw [gershgorinUpper, vecMax_two]
    simp [absRowSum, slackHess]
    norm_num
  have hfro : 29 ≤ froNorm Real.sqrt slackHess := by
    refine Real.le_sqrt_of_sq_le ?_
    simp [slackHess]
  have hmin : vecMin (fun i => slackHess i i) = 24 := by
    rw [vecMin_two]; simp [slackHess]; norm_num
  have hlo : initialLower Real.sqrt slackGrad slackHess = 4 := by
    rw [initialLower, hmin, hg, hgu, hinf, min_eq_right hfro, min_self]; norm_num
  have hup : initialUpper Real.sqrt slackGrad slackHess = 9 := by
    rw [initialUpper, hg, hgl, hinf, min_eq_right hfro]; norm_num
  rw [initialLambda, hlo, hup, if_neg (by norm_num), newLambda]
  have : Real.sqrt (max 0 (4 * 9)) = 6 := by
    rw [show (max 0 (4 * 9) : ℝ) = 6 ^ 2 by norm_num, Real.sqrt_sq (by norm_num)]
  rw [this]; norm_num

theorem slack_iteration {ext : GqExternal ℝ 2} (hext : GqSpec ext) (threshold : ℝ) (ht : threshold < 33)
    (x0 : Vec ℝ 2) :
    (gqIteration Real.sqrt ext slackGrad slackHess threshold (1 / 10) (1 / 5)
      (gqStart Real.sqrt slackGrad slackHess x0)).converged = true ∧
    (gqIteration Real.sqrt ext slackGrad slackHess threshold (1 / 10) (1 / 5)
      (gqStart Real.sqrt slackGrad slackHess x0)).x = fun i => if i = 0 then -11 / 10 else 0 := by
  have hsym : SymmetricMat (addDiag slackHess 6) := by
    intro i j; fin_cases i <;> fin_cases j <;> simp [addDiag, slackHess]
  have hg : norm2 Real.sqrt slackGrad = 33 := by
    have : dot slackGrad slackGrad = 33 ^ 2 := by simp [dot, slackGrad]; norm_num
    rw [norm2, this, Real.sqrt_sq (by norm_num)]
  have hinfo : (ext.chol (addDiag slackHess 6)).info = 0 := by
    refine chol_of_posDef hext hsym fun v hv => ?_
    have : quadForm (addDiag slackHess 6) v = 30 * v 0 ^ 2 + 35 * v 1 ^ 2 := by
      simp [quadForm, addDiag, slackHess]; ring
    rw [this]
    have : dot v v = v 0 ^ 2 + v 1 ^ 2 := by simp [dot]; ring
    nlinarith [sq_nonneg (v 0), sq_nonneg (v 1)]
  have hfac := hext.chol_ok _ hsym hinfo
  have hx : ext.choSolve (ext.chol (addDiag slackHess 6)).upper (fun i => -(slackGrad i))
      = fun i => if i = 0 then -11 / 10 else 0 := by
    have h0 := hext.choSolve _ _ (fun i => -(slackGrad i)) hfac 0
    have h1 := hext.choSolve _ _ (fun i => -(slackGrad i)) hfac 1
    generalize ext.choSolve (ext.chol (addDiag slackHess 6)).upper (fun i => -(slackGrad i)) = x
      at h0 h1
    simp [addDiag, slackHess, slackGrad] at h0 h1
    funext i
    fin_cases i
    · simp; linarith
    · simp
      rcases h1 with h1 | h1
      · norm_num at h1
      · exact h1
  have hxn : norm2 Real.sqrt (fun i : Fin 2 => if i = 0 then (-11 / 10 : ℝ) else 0) = 11 / 10 := by
    have : dot (fun i : Fin 2 => if i = 0 then (-11 / 10 : ℝ) else 0)
        (fun i => if i = 0 then -11 / 10 else 0) = (11 / 10) ^ 2 := by simp [dot]; norm_num
    rw [norm2, this, Real.sqrt_sq (by norm_num)]
  have href := refactorize_start ext x0 slack_lambda
  have hnot : ¬ ((11 / 10 : ℝ) < 1) := by norm_num
  have habs : |(11 / 10 : ℝ) - 1| ≤ 1 / 10 := by norm_num [abs_le]
  simp only [gqIteration, href, hinfo, hg, ht, and_self, if_true, findNew, hx, hxn, hnot, if_false,
    habs]

/-- The region of the witness: the ball of radius one around zero; the first parameter has the lower
bound -1.05, which does not touch the ball. -/
noncomputable def slackRegion : Region ℝ 2 :=
  ⟨fun _ => 0, 1, ⟨fun i => if i = 0 then some (-105 / 100) else none, fun _ => none⟩⟩

/-- C40 does not hold for the default solver: for this convex model and this ball, which lies strictly
inside the bounds, `solve_subproblem` with the default options returns a point outside the trust
region that also violates the bounds. -/
theorem C40_violated_slack {ext : GqExternal ℝ 2} (hext : GqSpec ext) (eps : ℝ) (heps : eps ≤ 1 / 10)
    (maxiter : Nat) (hm : 0 < maxiter) (cr : ℝ → ℝ) (cube fbSphere fbCube : SubSolver ℝ 2)
    (retry : Bool) :
    ∃ res, solveSubproblem cr (gqtpar Real.sqrt ext eps (1 / 10) (1 / 5) maxiter) cube fbSphere fbCube
      retry ⟨0, slackGrad, some slackHess, fun _ => 1, fun _ => 0⟩ slackRegion = .ok res ∧
      slackRegion.shape = .sphere ∧ InBounds slackRegion.bounds slackRegion.center ∧
      ¬ InBallSq slackRegion.center slackRegion.radius res.x ∧
      ¬ InBounds slackRegion.bounds res.x := by
  have hinf : infNorm slackHess = 29 := by
    rw [infNorm, vecMax_two]
    simp [absRowSum, slackHess]
    norm_num
  have ht : gqThreshold eps slackHess < 33 := by
    rw [gqThreshold, hinf]; push_cast; linarith
  obtain ⟨hc, hx⟩ := slack_iteration hext (gqThreshold eps slackHess) ht
    (slackRegion.mapToUnit cr slackRegion.center)
  have hshape : slackRegion.shape = .sphere := by
    have h1 : lowerBinding slackRegion.center slackRegion.radius slackRegion.bounds.lower = false := by
      simp [lowerBinding, slackRegion]
      norm_num
    have h2 : upperBinding slackRegion.center slackRegion.radius slackRegion.bounds.upper = false := by
      simp [upperBinding, slackRegion]
    simp [Region.shape, h1, h2]
  have hsolve := gqtpar_one_pass (root := Real.sqrt) (ext := ext) (eps := eps) (kEasy := 1 / 10)
    (kHard := 1 / 5) hm
    (model := ⟨0, slackGrad, some slackHess, fun _ => 1, fun _ => 0⟩) rfl hc
  rw [hx] at hsolve
  have hold : slackRegion.mapToUnit cr slackRegion.center = fun _ => 0 := by
    funext i
    simp only [Region.mapToUnit, hshape]
    simp [slackRegion]
  rw [hold] at hsolve
  have hraw := solveSubproblem_sphere cr (gqtpar Real.sqrt ext eps (1 / 10) (1 / 5) maxiter) cube
    fbSphere fbCube retry ⟨0, slackGrad, some slackHess, fun _ => 1, fun _ => 0⟩ slackRegion hshape
    (hold ▸ hsolve) (by
      rw [hold]
      simp [ScalarModel.predict, dot, halfQuad, slackGrad, slackHess]
      norm_num)
  refine ⟨_, hraw, hshape, ?_, ?_, ?_⟩
  · intro i
    fin_cases i <;> simp [slackRegion]; norm_num
  · simp only [InBallSq, Region.mapFromUnit, hshape]
    simp [sumSq, slackRegion]
    norm_num
  · intro hb
    have := (hb 0).1 (-105 / 100) (by simp [slackRegion])
    simp only [Region.mapFromUnit, hshape] at this
    simp [slackRegion] at this
    norm_num at this

/-! ## The minimizer is left -/

theorem vecMin_one (v : Vec ℝ 1) : vecMin v = v 0 := by
  obtain ⟨i, hi⟩ := vecMin_attained v (by norm_num)
  rw [hi, Subsingleton.elim i 0]

theorem vecMax_one (v : Vec ℝ 1) : vecMax v = v 0 := by
  have hne : (Finset.univ : Finset (Fin 1)).Nonempty := ⟨0, Finset.mem_univ _⟩
  refine le_antisymm ?_ (le_vecMax v 0)
  rw [vecMax, dif_pos hne]
  exact Finset.sup'_le hne v fun i _ => by rw [Subsingleton.elim i 0]

/-- The model `x ^ 2 / 2 - 9 / 10 * x` of one variable. -/
noncomputable def interiorModel : ScalarModel ℝ 1 :=
  ⟨0, fun _ => -9 / 10, some fun _ _ => 1, fun _ => 1, fun _ => 0⟩

theorem interior_lambda : initialLambda Real.sqrt (fun _ : Fin 1 => (-9 / 10 : ℝ)) (fun _ _ => 1) = 0 := by
  have hg : norm2 Real.sqrt (fun _ : Fin 1 => (-9 / 10 : ℝ)) = 9 / 10 := by
    have : dot (fun _ : Fin 1 => (-9 / 10 : ℝ)) (fun _ => -9 / 10) = (9 / 10) ^ 2 := by
      simp [dot]; norm_num
    rw [norm2, this, Real.sqrt_sq (by norm_num)]
  have hlo : initialLower Real.sqrt (fun _ : Fin 1 => (-9 / 10 : ℝ)) (fun _ _ => 1) = 0 := by
    rw [initialLower, hg, vecMin_one, gershgorinUpper, vecMax_one, infNorm, vecMax_one, froNorm]
    simp [absRowSum]
    norm_num
  rw [initialLambda, if_pos hlo]

theorem pick_small {t1 t2 s : ℝ} (hs : s = 1 ∨ s = -1)
    (h1 : (1 / 10 * s - t1) * (1 / 10 * s - t2) = 0)
    (h2 : (-19 / 10 * s - t1) * (-19 / 10 * s - t2) = 0) :
    (if |t1| ≤ |t2| then t1 else t2) = 1 / 10 * s := by
  have habs : |s| = 1 := by rcases hs with rfl | rfl <;> simp
  have hs0 : s ≠ 0 := by rcases hs with rfl | rfl <;> norm_num
  have hne : 1 / 10 * s ≠ -19 / 10 * s := by
    intro h
    apply hs0
    linarith
  have e1 : |1 / 10 * s| = 1 / 10 := by rw [abs_mul, habs]; norm_num
  have e2 : |-19 / 10 * s| = 19 / 10 := by rw [abs_mul, habs]; norm_num
  rcases mul_eq_zero.1 h1 with h1 | h1 <;> rcases mul_eq_zero.1 h2 with h2 | h2
  · exact absurd ((sub_eq_zero.1 h1).trans (sub_eq_zero.1 h2).symm) hne
  · rw [← sub_eq_zero.1 h1, ← sub_eq_zero.1 h2, e1, e2, if_pos (by norm_num)]
  · rw [← sub_eq_zero.1 h1, ← sub_eq_zero.1 h2, e1, e2, if_neg (by norm_num)]
  · exact absurd ((sub_eq_zero.1 h1).trans (sub_eq_zero.1 h2).symm) hne

/-- C45 does not hold as stated: for this convex model the loop stops with lambda = 0 at the minimizer
0.9, which is inside the ball; the default rule for the hard case then moves the point to the boundary,
where the model value is larger. -/
theorem C45_violated_interior {ext : GqExternal ℝ 1} (hext : GqSpec ext) (eps : ℝ) (heps : eps ≤ 1 / 10)
    (maxiter : Nat) (hm : 0 < maxiter) (x0 : Vec ℝ 1) :
    ∃ raw, gqtpar Real.sqrt ext eps (1 / 10) (1 / 5) maxiter interiorModel x0 = .ok raw ∧
      raw.success = true ∧ raw.x = (fun _ => 1) ∧
      initialLambda Real.sqrt interiorModel.linearTerms (fun _ _ => 1) = 0 ∧
      IsGlobalMin interiorModel.linearTerms (fun _ _ => 1) 1 (fun _ => 9 / 10) ∧
      ¬ IsGlobalMin interiorModel.linearTerms (fun _ _ => 1) 1 raw.x := by
  have hq : ∀ x : Vec ℝ 1, quadModel interiorModel.linearTerms (fun _ _ => 1) x
      = -9 / 10 * x 0 + x 0 ^ 2 / 2 := by
    intro x; simp [quadModel, interiorModel]; ring
  have hsym : SymmetricMat (addDiag (fun _ _ : Fin 1 => (1 : ℝ)) 0) := fun i j => by
    rw [Subsingleton.elim i j]
  have hent : ∀ i j, addDiag (fun _ _ : Fin 1 => (1 : ℝ)) 0 i j = 1 := by simp [addDiag]
  have hinfo : (ext.chol (addDiag (fun _ _ : Fin 1 => (1 : ℝ)) 0)).info = 0 := by
    refine chol_of_posDef hext hsym fun v hv => ?_
    have : quadForm (addDiag (fun _ _ : Fin 1 => (1 : ℝ)) 0) v = dot v v := by
      simp [quadForm, hent, dot]
    rwa [this]
  have hfac := hext.chol_ok _ hsym hinfo
  have hx : ext.choSolve (ext.chol (addDiag (fun _ _ : Fin 1 => (1 : ℝ)) 0)).upper
      (fun _ => -(-9 / 10)) = fun _ => 9 / 10 := by
    have h0 := hext.choSolve _ _ (fun _ => -(-9 / 10)) hfac 0
    generalize ext.choSolve (ext.chol (addDiag (fun _ _ : Fin 1 => (1 : ℝ)) 0)).upper
      (fun _ => -(-9 / 10)) = x at h0 ⊢
    simp [hent] at h0
    funext i
    rw [Subsingleton.elim i 0, h0]; norm_num
  have hg : norm2 Real.sqrt (fun _ : Fin 1 => (-9 / 10 : ℝ)) = 9 / 10 := by
    have : dot (fun _ : Fin 1 => (-9 / 10 : ℝ)) (fun _ => -9 / 10) = (9 / 10) ^ 2 := by
      simp [dot]; norm_num
    rw [norm2, this, Real.sqrt_sq (by norm_num)]
  have hxn : norm2 Real.sqrt (fun _ : Fin 1 => (9 / 10 : ℝ)) = 9 / 10 := by
    have : dot (fun _ : Fin 1 => (9 / 10 : ℝ)) (fun _ => 9 / 10) = (9 / 10) ^ 2 := by
      simp [dot]; norm_num
    rw [norm2, this, Real.sqrt_sq (by norm_num)]
  have ht : gqThreshold eps (fun _ _ : Fin 1 => (1 : ℝ)) < 9 / 10 := by
    rw [gqThreshold, infNorm, vecMax_one]
    simp [absRowSum]
    linarith
  have hz := smallestSingular_spec sqrtSpec_real hext (by norm_num) hfac
  have hzq : ∀ z : Vec ℝ 1, quadForm (addDiag (fun _ _ : Fin 1 => (1 : ℝ)) 0) z = dot z z := by
    intro z; simp [quadForm, hent, dot]
  have hzs := hz.2
  rw [hzq, hz.1] at hzs
  -- the step
  have hstep : ∀ z : Vec ℝ 1, dot z z = 1 →
      stepLen ext (fun _ => 9 / 10) z * z 0 = 1 / 10 ∧ stepLen ext (fun _ => 9 / 10) z ^ 2 = 1 / 100 := by
    intro z hz1
    have hzz : z 0 * z 0 = 1 := by simpa [dot] using hz1
    have hr := hext.roots (dot z z) (2 * dot (fun _ => 9 / 10) z) (dot (fun _ : Fin 1 => (9 / 10 : ℝ))
      (fun _ => 9 / 10) - 1) (by rw [hz1]; norm_num) (by
        rw [hz1]
        have : dot (fun _ : Fin 1 => (9 / 10 : ℝ)) (fun _ => 9 / 10) = 81 / 100 := by simp [dot]; norm_num
        rw [this]
        nlinarith [sq_nonneg (dot (fun _ => (9 / 10 : ℝ)) z)])
    have h1 := hr (1 / 10 * z 0)
    have h2 := hr (-19 / 10 * z 0)
    have e1 : dot (fun _ : Fin 1 => (9 / 10 : ℝ)) (fun _ => 9 / 10) = 81 / 100 := by
      simp [dot]; norm_num
    have e2 : dot (fun _ : Fin 1 => (9 / 10 : ℝ)) z = 9 / 10 * z 0 := by simp [dot]
    have hz01 : z 0 = 1 ∨ z 0 = -1 := mul_self_eq_one_iff.1 hzz
    have hsl : stepLen ext (fun _ => 9 / 10) z = 1 / 10 * z 0 := by
      simp only [stepLen]
      refine pick_small hz01 ?_ ?_
      · simp only [hz1, one_mul] at h1 ⊢
        rw [← h1, e1, e2]
        linear_combination (1 / 100 + 18 / 100) * hzz
      · simp only [hz1, one_mul] at h2 ⊢
        rw [← h2, e1, e2]
        linear_combination (361 / 100 - 342 / 100) * hzz
    rw [hsl]
    exact ⟨by linear_combination 1 / 10 * hzz, by linear_combination 1 / 100 * hzz⟩
  obtain ⟨hs1, hs2⟩ := hstep _ hz.1
  have href := refactorize_start (root := Real.sqrt) ext (g := fun _ => (-9 / 10 : ℝ))
    (h := fun _ _ => 1) x0 interior_lambda
  have hlt : (9 / 10 : ℝ) < 1 := by norm_num
  have hrel : stepLen ext (fun _ => 9 / 10) (smallestSingular Real.sqrt ext
      (ext.chol (addDiag (fun _ _ : Fin 1 => (1 : ℝ)) 0)).upper).2 ^ 2
      * (smallestSingular Real.sqrt ext
      (ext.chol (addDiag (fun _ _ : Fin 1 => (1 : ℝ)) 0)).upper).1 ^ 2
      / (quadForm (addDiag (fun _ _ : Fin 1 => (1 : ℝ)) 0) (fun _ => 9 / 10) + 0) ≤ 1 / 5 := by
    rw [hs2, hzs, hzq]
    simp [dot]
    norm_num
  have hit : (gqIteration Real.sqrt ext interiorModel.linearTerms (fun _ _ => 1)
      (gqThreshold eps (fun _ _ : Fin 1 => (1 : ℝ))) (1 / 10) (1 / 5)
      (gqStart Real.sqrt interiorModel.linearTerms (fun _ _ => 1) x0)).converged = true ∧
      (gqIteration Real.sqrt ext interiorModel.linearTerms (fun _ _ => 1)
      (gqThreshold eps (fun _ _ : Fin 1 => (1 : ℝ))) (1 / 10) (1 / 5)
      (gqStart Real.sqrt interiorModel.linearTerms (fun _ _ => 1) x0)).x = fun _ => 1 := by
    simp only [interiorModel]
    simp only [gqIteration, href, hinfo, hg, ht, and_self, if_true, findNew, hx, hxn, hlt,
      withinUpdate, hrel]
    refine ⟨trivial, funext fun i => ?_⟩
    rw [Subsingleton.elim i 0, hs1]
    norm_num
  have hsol := gqtpar_one_pass (root := Real.sqrt) (ext := ext) (eps := eps) (kEasy := 1 / 10)
    (kHard := 1 / 5) hm (model := interiorModel) rfl hit.1
  rw [hit.2] at hsol
  refine ⟨_, hsol, rfl, rfl, interior_lambda, ?_, ?_⟩
  · intro y _
    rw [hq, hq]
    nlinarith [sq_nonneg (y 0 - 9 / 10)]
  · intro hmin
    have := hmin (fun _ => 9 / 10) (by simp [NormLe, sumSq]; norm_num)
    rw [hq, hq] at this
    norm_num at this

/-! ## A zero gradient -/

/-- An indefinite Hessian. -/
noncomputable def saddleHess : Mat ℝ 2 2 := fun i j =>
  if i = j then (if i = 0 then -1 else 8851 / 15625) else 51 / 625

theorem saddle_lambda : initialLambda Real.sqrt (fun _ => 0) saddleHess = 26 / 25 := by
  have hg : norm2 Real.sqrt (fun _ : Fin 2 => (0 : ℝ)) = 0 := by simp [norm2, dot]
  have hinf : infNorm saddleHess = 676 / 625 := by
    rw [infNorm, vecMax_two]
    simp [absRowSum, saddleHess, abs_of_pos]
    norm_num
  have hgl : gershgorinLower saddleHess = -(676 / 625) := by
    rw [gershgorinLower, vecMin_two]
    simp [absRowSum, saddleHess, abs_of_pos]
    norm_num
  have hgu : gershgorinUpper saddleHess = 10126 / 15625 := by
    rw [gershgorinUpper, vecMax_two]
    simp [absRowSum, saddleHess, abs_of_pos]
    norm_num
  have hfro : 676 / 625 ≤ froNorm Real.sqrt saddleHess := by
    refine Real.le_sqrt_of_sq_le ?_
    simp [saddleHess]
    norm_num
  have hmin : vecMin (fun i => saddleHess i i) = -1 := by
    rw [vecMin_two]; simp [saddleHess]; norm_num
  have hlo : initialLower Real.sqrt (fun _ => 0) saddleHess = 1 := by
    rw [initialLower, hmin, hg, hgu, hinf, min_eq_right hfro]; norm_num
  have hup : initialUpper Real.sqrt (fun _ => 0) saddleHess = 676 / 625 := by
    rw [initialUpper, hg, hgl, hinf, min_eq_right hfro]; norm_num
  rw [initialLambda, hlo, hup, if_neg (by norm_num), newLambda]
  have : Real.sqrt (max 0 (1 * (676 / 625))) = 26 / 25 := by
    rw [show (max 0 (1 * (676 / 625)) : ℝ) = (26 / 25) ^ 2 by norm_num, Real.sqrt_sq (by norm_num)]
  rw [this]; norm_num

theorem saddle_factor {u : Mat ℝ 2 2} (hu : UpperFactor u (addDiag saddleHess (26 / 25))) :
    u 0 0 = 1 / 5 ∧ u 0 1 = 51 / 125 ∧ u 1 0 = 0 ∧ u 1 1 = 6 / 5 := by
  obtain ⟨h0, hpos, hf⟩ := hu
  have h10 := h0 1 0 (by decide)
  have f00 := hf 0 0
  have f01 := hf 0 1
  have f11 := hf 1 1
  simp [addDiag, saddleHess, h10] at f00 f01 f11
  have h00 : u 0 0 = 1 / 5 := by
    have : (u 0 0 - 1 / 5) * (u 0 0 + 1 / 5) = 0 := by linear_combination f00
    rcases mul_eq_zero.1 this with h | h
    · linarith
    · have := hpos 0; linarith
  rw [h00] at f01
  have h01 : u 0 1 = 51 / 125 := by linarith
  rw [h01] at f11
  have h11 : u 1 1 = 6 / 5 := by
    have : (u 1 1 - 6 / 5) * (u 1 1 + 6 / 5) = 0 := by linear_combination f11
    rcases mul_eq_zero.1 this with h | h
    · linarith
    · have := hpos 1; linarith
  exact ⟨h00, h01, h10, h11⟩

theorem saddle_condition {u : Mat ℝ 2 2} (h00 : u 0 0 = 1 / 5) (h01 : u 0 1 = 51 / 125)
    (h11 : u 1 1 = 6 / 5) : estimateCondition u 0 = 5 ∧ estimateCondition u 1 = -38 / 15 := by
  have hl : List.finRange 2 = [0, 1] := by decide
  have h1 : ¬ ((1 : Fin 2) < 0) := by decide
  have h2 : (0 : Fin 2) < 1 := by decide
  rw [estimateCondition, hl]
  simp only [List.foldl_cons, List.foldl_nil]
  have e : conditionStep u (fun _ => 0, fun _ => 0) 0
      = (fun j => if 0 < j then 0 + u 0 j * ((1 - 0) / u 0 0) else 0, Function.update (fun _ => 0) 0 5) := by
    simp only [conditionStep]
    rw [if_pos]
    · simp [h00]
    · simp [h00, h01]
  rw [e]
  have e1 : (0 : ℝ) + u 0 1 * ((1 - 0) / u 0 0) = 51 / 25 := by rw [h00, h01]; norm_num
  simp only [conditionStep]
  rw [if_neg]
  · constructor
    · simp
    · simp [h11, h00, h01]
      norm_num
  · simp [h11, h00, h01]
    norm_num [abs_of_neg, abs_of_pos]

/-- The ball of radius one around zero without bounds. -/
def openRegion : Region ℝ 2 := ⟨fun _ => 0, 1, ⟨fun _ => none, fun _ => none⟩⟩

/-- C40 does not hold for the default solver: at a stationary point with an indefinite Hessian
`solve_subproblem` reports success and returns a point at distance two from the center of a ball of
radius one. -/
theorem C40_violated_zero_gradient {ext : GqExternal ℝ 2} (hext : GqSpec ext) (eps : ℝ) (heps : 0 ≤ eps)
    (maxiter : Nat) (hm : 0 < maxiter) (cr : ℝ → ℝ) (cube fbSphere fbCube : SubSolver ℝ 2)
    (retry : Bool) :
    ∃ res, solveSubproblem cr (gqtpar Real.sqrt ext eps (1 / 10) (1 / 5) maxiter) cube fbSphere fbCube
      retry ⟨0, fun _ => 0, some saddleHess, fun _ => 1, fun _ => 0⟩ openRegion = .ok res ∧
      res.success = true ∧ sumSq (fun i => res.x i - openRegion.center i) = 4 * openRegion.radius ^ 2 := by
  have hsym : SymmetricMat (addDiag saddleHess (26 / 25)) := by
    intro i j; fin_cases i <;> fin_cases j <;> simp [addDiag, saddleHess]
  have hinfo : (ext.chol (addDiag saddleHess (26 / 25))).info = 0 := by
    refine chol_of_posDef hext hsym fun v hv => ?_
    have e : quadForm (addDiag saddleHess (26 / 25)) v
        = (1 / 5 * v 0 + 51 / 125 * v 1) ^ 2 + (6 / 5 * v 1) ^ 2 := by
      simp [quadForm, addDiag, saddleHess]; ring
    have e2 : dot v v = v 0 ^ 2 + v 1 ^ 2 := by simp [dot]; ring
    rw [e]
    rw [e2] at hv
    by_contra hle
    have h1 : 6 / 5 * v 1 = 0 := by
      nlinarith [sq_nonneg (1 / 5 * v 0 + 51 / 125 * v 1), sq_nonneg (6 / 5 * v 1)]
    have h1' : v 1 = 0 := by linarith
    rw [h1'] at hv hle
    nlinarith
  have hfac := hext.chol_ok _ hsym hinfo
  obtain ⟨h00, h01, h10, h11⟩ := saddle_factor hfac
  obtain ⟨w0, w1⟩ := saddle_condition h00 h01 h11
  have hz := smallestSingular_spec sqrtSpec_real hext (by norm_num) hfac
  have hw : ∀ v : Vec ℝ 2, v = ext.solveUpper (ext.chol (addDiag saddleHess (26 / 25))).upper
      (estimateCondition (ext.chol (addDiag saddleHess (26 / 25))).upper) →
      v 0 = 2198 / 75 ∧ v 1 = -19 / 9 := by
    rintro v rfl
    have s0 := hext.solveUpper _ _ (estimateCondition
      (ext.chol (addDiag saddleHess (26 / 25))).upper) hfac 0
    have s1 := hext.solveUpper _ _ (estimateCondition
      (ext.chol (addDiag saddleHess (26 / 25))).upper) hfac 1
    generalize ext.solveUpper (ext.chol (addDiag saddleHess (26 / 25))).upper
      (estimateCondition (ext.chol (addDiag saddleHess (26 / 25))).upper) = v at s0 s1
    rw [w0, Fin.sum_univ_two, h00, h01] at s0
    rw [w1, Fin.sum_univ_two, h10, h11] at s1
    constructor <;> linarith
  obtain ⟨v0, v1⟩ := hw _ rfl
  have hsmall : 2 ^ 2 * (smallestSingular Real.sqrt ext
      (ext.chol (addDiag saddleHess (26 / 25))).upper).1 ^ 2 ≤ 1 / 5 * (26 / 25 : ℝ) := by
    simp only [smallestSingular, norm2, dot, Fin.sum_univ_two, w0, w1, v0, v1, div_pow]
    rw [Real.sq_sqrt (by norm_num), Real.sq_sqrt (by norm_num)]
    norm_num
  have hzq : quadForm (addDiag saddleHess (26 / 25)) (smallestSingular Real.sqrt ext
      (ext.chol (addDiag saddleHess (26 / 25))).upper).2 ≤ 1 / 10 := by
    rw [← hz.2]; linarith
  have hinf : infNorm saddleHess = 676 / 625 := by
    rw [infNorm, vecMax_two]
    simp [absRowSum, saddleHess, abs_of_pos]
    norm_num
  have hg : norm2 Real.sqrt (fun _ : Fin 2 => (0 : ℝ)) = 0 := by simp [norm2, dot]
  have ht : (0 : ℝ) ≤ gqThreshold eps saddleHess := by
    rw [gqThreshold, hinf]; push_cast; linarith
  have hshape : openRegion.shape = .sphere := by
    have h1 : lowerBinding openRegion.center openRegion.radius openRegion.bounds.lower = false := by
      simp [lowerBinding, openRegion]
    have h2 : upperBinding openRegion.center openRegion.radius openRegion.bounds.upper = false := by
      simp [upperBinding, openRegion]
    simp [Region.shape, h1, h2]
  have hold : openRegion.mapToUnit cr openRegion.center = fun _ => 0 := by
    funext i
    simp only [Region.mapToUnit, hshape]
    simp [openRegion]
  have href := refactorize_start ext (fun _ => 0) saddle_lambda
  generalize hS : smallestSingular Real.sqrt ext
    (ext.chol (addDiag saddleHess (26 / 25))).upper = S at hz hsmall hzq
  have hit : (gqIteration Real.sqrt ext (fun _ => 0) saddleHess (gqThreshold eps saddleHess) (1 / 10)
      (1 / 5) (gqStart Real.sqrt (fun _ => 0) saddleHess fun _ => 0)).converged = true ∧
      (gqIteration Real.sqrt ext (fun _ => 0) saddleHess (gqThreshold eps saddleHess) (1 / 10)
      (1 / 5) (gqStart Real.sqrt (fun _ => 0) saddleHess fun _ => 0)).x = fun i => 2 * S.2 i := by
    simp only [gqIteration, href, hinfo, hg, not_lt.2 ht, and_false, if_false, ht, and_self, if_true,
      interiorCheck, hS, hsmall]
  have hsolve := gqtpar_one_pass (root := Real.sqrt) (ext := ext) (eps := eps) (kEasy := 1 / 10)
    (kHard := 1 / 5) hm
    (model := ⟨0, fun _ => 0, some saddleHess, fun _ => 1, fun _ => 0⟩) rfl hit.1
  simp only [hit.2] at hsolve
  have hz1 := hz.1
  simp only [dot, Fin.sum_univ_two] at hz1
  simp [quadForm, addDiag, saddleHess] at hzq
  have hraw := solveSubproblem_sphere cr (gqtpar Real.sqrt ext eps (1 / 10) (1 / 5) maxiter) cube
    fbSphere fbCube retry ⟨0, fun _ => 0, some saddleHess, fun _ => 1, fun _ => 0⟩ openRegion hshape
    (by rw [hold]; exact hsolve) (by
      rw [hold]
      simp [ScalarModel.predict, dot, halfQuad, saddleHess]
      nlinarith)
  refine ⟨_, hraw, rfl, ?_⟩
  simp only [Region.mapFromUnit, hshape]
  simp [sumSq, openRegion]
  nlinarith

end Tranquilo
