import Verif.Props.GqtparWitness
import Verif.Props.ExactModels
import Verif.Props.CallUses
import Verif.Props.TranquiloCall
import Verif.Lemmas.Lstsq
import Verif.Lemmas.RunsLonger

/-!
# C68 and C106: a default call without line search evaluates outside of the bounds
-/

namespace Tranquilo

/-- The start vector `(10, 0)`, so that the default radius is one. -/
def slackStart : Vec ℝ 2 := fun i => if i = 0 then 10 else 0

/-- The first parameter must be at least 8.95, the ball of radius one around the start vector is inside. -/
noncomputable def slackBounds : Bounds ℝ 2 := ⟨fun i => if i = 0 then some (895 / 100) else none, fun _ => none⟩

/-- Two residuals: `sqrt 12 * (y0 - 10) + 33 / (2 sqrt 12)` and `sqrt (29 / 2) * y1`. -/
noncomputable def slackResiduals (k : Fin 2) (y : Vec ℝ 2) : ℝ :=
  if k = 0 then Real.sqrt 12 * (y 0 - 10) + 33 / (2 * Real.sqrt 12) else Real.sqrt 58 / 2 * y 1

/-- The trust region of the first iteration. -/
noncomputable def slackBall : Region ℝ 2 := ⟨slackStart, 1, slackBounds⟩

theorem slackBall_shape : slackBall.shape = .sphere := by
  have h1 : lowerBinding slackBall.center slackBall.radius slackBall.bounds.lower = false := by
    simp [lowerBinding, slackBall, slackBounds, slackStart]
    norm_num
  have h2 : upperBinding slackBall.center slackBall.radius slackBall.bounds.upper = false := by
    simp [upperBinding, slackBall, slackBounds]
  simp [Region.shape, h1, h2]

/-- The points that are sampled: the start vector moved by one in the direction of a parameter. -/
def slackPoints : List (Vec ℝ 2) :=
  [fun i => if i = 0 then 11 else 0, fun i => if i = 0 then 10 else 1, fun i => if i = 0 then 10 else 1]

theorem slack_determined : DeterminedBy .linear (slackStart :: slackPoints) := by
  rintro f ⟨c, g, sq, hsq, hf⟩ h y
  obtain rfl := hsq rfl
  have h0 := h slackStart (by simp)
  have h1 := h (fun i => if i = 0 then 11 else 0) (by simp [slackPoints])
  have h2 := h (fun i => if i = 0 then 10 else 1) (by simp [slackPoints])
  rw [hf] at h0 h1 h2 ⊢
  simp [polyVal, Fin.sum_univ_two, slackStart] at h0 h1 h2 ⊢
  have hg0 : g 0 = 0 := by linarith
  have hg1 : g 1 = 0 := by linarith
  have hc : c = 0 := by linarith
  rw [hc, hg0, hg1]
  ring

theorem slack_poly (k : Fin 2) : IsPoly .linear (slackResiduals k) := by
  refine ⟨if k = 0 then -10 * Real.sqrt 12 + 33 / (2 * Real.sqrt 12) else 0,
    fun i => if k = 0 then (if i = 0 then Real.sqrt 12 else 0) else (if i = 0 then 0 else Real.sqrt 58 / 2), none,
    fun _ => rfl, fun u => ?_⟩
  fin_cases k
  · simp [slackResiduals, polyVal, Fin.sum_univ_two]; ring
  · simp [slackResiduals, polyVal, Fin.sum_univ_two]

/-- The model of the sum of squares that a fit without error gives. -/
theorem slack_model {v : VectorModel ℝ 2 2} {cr : ℝ → ℝ} (hsq : v.squareTerms = none)
    (hv : ∀ y k, v.predict (slackBall.mapToUnit cr y) k = slackResiduals k y) :
    (aggregatorLeastSquares v).linearTerms = slackGrad ∧ (aggregatorLeastSquares v).squareTerms = some slackHess := by
  have hmap : ∀ y : Vec ℝ 2, slackBall.mapToUnit cr y = fun i => y i - slackStart i := by
    intro y
    funext i
    simp [Region.mapToUnit, slackBall_shape]
    simp [slackBall]
  have hp : ∀ u k, v.predict u k = v.intercepts k + ∑ i, v.linearTerms k i * u i := by
    intro u k
    simp [VectorModel.predict, hsq, dot]
    ring
  have hpred : ∀ (u : Vec ℝ 2) k, v.intercepts k + ∑ i, v.linearTerms k i * u i = slackResiduals k fun i => u i + slackStart i := by
    intro u k
    rw [← hp, ← hv, hmap]
    congr 1
    funext i
    ring
  have s12 : Real.sqrt 12 * Real.sqrt 12 = 12 := Real.mul_self_sqrt (by norm_num)
  have s29 : Real.sqrt 58 * Real.sqrt 58 = 58 := Real.mul_self_sqrt (by norm_num)
  have hpos : Real.sqrt 12 ≠ 0 := by positivity
  have a0 := hpred (fun _ => 0) 0
  have a1 := hpred (fun _ => 0) 1
  have b0 := hpred (fun i => if i = 0 then 1 else 0) 0
  have b1 := hpred (fun i => if i = 0 then 1 else 0) 1
  have c0 := hpred (fun i => if i = 0 then 0 else 1) 0
  have c1 := hpred (fun i => if i = 0 then 0 else 1) 1
  simp [slackResiduals, slackStart, Fin.sum_univ_two] at a0 a1 b0 b1 c0 c1
  have e00 : v.linearTerms 0 0 = Real.sqrt 12 := by linarith
  have e01 : v.linearTerms 0 1 = 0 := by linarith
  have e10 : v.linearTerms 1 0 = 0 := by linarith
  have e11 : v.linearTerms 1 1 = Real.sqrt 58 / 2 := by linarith
  constructor
  · funext i
    fin_cases i
    · simp [aggregatorLeastSquares, aggregateWith, slackGrad, Fin.sum_univ_two, e00, e10, a0]
      field_simp
    · simp [aggregatorLeastSquares, aggregateWith, slackGrad, Fin.sum_univ_two, e01, a1]
  · simp only [aggregatorLeastSquares, aggregateWith, Option.some.injEq]
    funext i j
    fin_cases i <;> fin_cases j
    · simp [slackHess, Fin.sum_univ_two, e00, e10]; linarith
    · simp [slackHess, Fin.sum_univ_two, e01, e10]
    · simp [slackHess, Fin.sum_univ_two, e01, e10]
    · simp [slackHess, Fin.sum_univ_two, e01, e11]; linarith

/-- The solution of the subproblem: the step has length 1.1. -/
theorem slack_solution {gq : GqExternal ℝ 2} (hgq : GqSpec gq) (eps : ℝ) (heps : eps ≤ 1 / 10) (maxiter : Nat)
    (hm : 0 < maxiter) (cr : ℝ → ℝ) (cube fbSphere fbCube : SubSolver ℝ 2) (retry : Bool) (model : ScalarModel ℝ 2)
    (hlin : model.linearTerms = slackGrad) (hsq : model.squareTerms = some slackHess) :
    ∃ res, solveSubproblem cr (gqtpar Real.sqrt gq eps (1 / 10) (1 / 5) maxiter) cube fbSphere fbCube retry model
      slackBall = .ok res ∧ res.x = fun i => if i = 0 then 89 / 10 else 0 := by
  have hinf : infNorm slackHess = 29 := by
    rw [infNorm, vecMax_two]
    simp [absRowSum, slackHess]
    norm_num
  have ht : gqThreshold eps slackHess < 33 := by
    rw [gqThreshold, hinf]; push_cast; linarith
  have hold : slackBall.mapToUnit cr slackBall.center = fun _ => 0 := by
    funext i
    simp only [Region.mapToUnit, slackBall_shape]
    simp [slackBall]
  obtain ⟨hc, hx⟩ := slack_iteration hgq (gqThreshold eps slackHess) ht (slackBall.mapToUnit cr slackBall.center)
  have hsolve := gqtpar_one_pass (root := Real.sqrt) (ext := gq) (eps := eps) (kEasy := 1 / 10)
    (kHard := 1 / 5) hm (model := model) hsq (by rw [hlin]; exact hc)
  rw [hlin, hx] at hsolve
  have hraw := solveSubproblem_sphere cr (gqtpar Real.sqrt gq eps (1 / 10) (1 / 5) maxiter) cube
    fbSphere fbCube retry model slackBall slackBall_shape hsolve (by
      rw [hold]
      simp [ScalarModel.predict, dot, halfQuad, hlin, hsq, slackGrad, slackHess]
      norm_num
      linarith)
  refine ⟨_, hraw, ?_⟩
  funext i
  simp only [Region.mapFromUnit, slackBall_shape]
  fin_cases i
  · simp [slackBall, slackStart]; norm_num
  · simp [slackBall, slackStart]

theorem endIterationR_x {K VM SM : Type} [Field K] [LinearOrder K] {n : Nat} {c : Config K} {comp : ComponentsR K n VM SM}
    (old st : LoopState K n VM SM) (states : List (LoopState K n VM SM)) (log : Log K n) (res : AcceptanceResult K n)
    (next : Int × Bool) : (endIterationR c comp old st states log res next).state.x = st.x := by
  unfold endIterationR
  dsimp only
  split
  · rfl
  · split <;> rfl

/-- An iteration without noise and with the classic decider, after the model has been built. -/
theorem iterationR_classic {K VM SM : Type} [Field K] [LinearOrder K] [FloorRing K] {n : Nat} {c : Config K}
    {comp : ComponentsR K n VM SM} {it : Nat} {r0 : Run K n VM SM} {old : List Nat} {bd : Build K n VM SM} {mi : K}
    (hnoisy : c.noisy = false) (hdec : c.decider = .classic mi)
    (hphase : buildPhaseR c comp it r0.state r0.log r0.nEvals = .ok (old, bd)) :
    ∃ r, iterationR c comp it r0 = .ok r ∧
      r.state.x = (acceptClassic comp.nrm comp.oracle mi bd.sub r0.state.current bd.log).2.x ∧
      r.log = (acceptClassic comp.nrm comp.oracle mi bd.sub r0.state.current bd.log).1 := by
  unfold iterationR
  rw [hphase, except_ok_bind]
  rw [show noiseR c comp bd.log r0.state.trustregion = .ok none by
    unfold noiseR
    rw [hnoisy]; rfl]
  rw [except_ok_bind]
  rw [show runDeciderR c comp it none bd.sub r0.state.current bd.log =
      .ok (acceptClassic comp.nrm comp.oracle mi bd.sub r0.state.current bd.log) by
    unfold runDeciderR
    rw [hdec]]
  rw [except_ok_bind]
  dsimp only
  rw [show ∀ st rho, nextNEvalsR c comp it r0.nEvals bd st rho = .ok (r0.nEvals, false) by
    intro st rho
    unfold nextNEvalsR
    rw [hnoisy]; rfl]
  refine ⟨_, rfl, ?_, ?_⟩
  · rw [endIterationR_x]
    rfl
  · rw [endIterationR_log]

/-- The candidate is better than the start vector. -/
theorem slack_accept {oracle : Oracle ℝ 2} (horacle : ∀ k x, oracle k x = .fin (∑ k, slackResiduals k x ^ 2))
    {h : Log ℝ 2} (hw : h.WF) (nrm : Vec ℝ 2 → ℝ) {mi : ℝ} (hmi : mi ≤ 0) (sub : SubSolution ℝ 2)
    (hsub : sub.x = fun i => if i = 0 then 89 / 10 else 0) (old : Current ℝ 2)
    (hold : old.fval = .fin (∑ k, slackResiduals k slackStart ^ 2)) :
    (acceptClassic nrm oracle mi sub old h).2.x = sub.x := by
  have hval : XVal.mean (((h.addX sub.x).1.evaluate oracle [((h.addX sub.x).2, 1)]).fvals (h.addX sub.x).2) =
      .fin (∑ k, slackResiduals k sub.x ^ 2) := by
    have h0 := Log.fvals_fresh hw (le_refl h.xs.length)
    have : ((h.addX sub.x).1.evaluate oracle [((h.addX sub.x).2, 1)]).fvals (h.addX sub.x).2 =
        [.fin (∑ k, slackResiduals k sub.x ^ 2)] := by
      simp only [Log.fvals] at h0
      simp [Log.addX, Log.evaluate, Log.evalOne, Log.fvals, horacle, h0]
      intro a v hav
      exact decide_eq_false fun h' => absurd (hw _ hav) (by rw [h']; simp)
    rw [this, mean_singleton]
  have hle : ∑ k, slackResiduals k sub.x ^ 2 ≤ ∑ k, slackResiduals k slackStart ^ 2 := by
    have s12 : Real.sqrt 12 * Real.sqrt 12 = 12 := Real.mul_self_sqrt (by norm_num)
    have hpos : Real.sqrt 12 ≠ 0 := by positivity
    rw [hsub]
    have e1 : slackResiduals 0 (fun i => if i = 0 then 89 / 10 else 0) = 33 / 10 / Real.sqrt 12 := by
      simp only [slackResiduals]
      simp
      field_simp
      nlinarith
    have e2 : slackResiduals 0 slackStart = 165 / 10 / Real.sqrt 12 := by
      simp [slackResiduals, slackStart]
      field_simp
      norm_num
    have e3 : slackResiduals 1 (fun i => if i = 0 then 89 / 10 else 0) = 0 := by simp [slackResiduals]
    rw [Fin.sum_univ_two, Fin.sum_univ_two, e1, e2, e3]
    have : (33 / 10 / Real.sqrt 12) ^ 2 ≤ (165 / 10 / Real.sqrt 12) ^ 2 := by
      have hp : 0 < Real.sqrt 12 := by positivity
      gcongr
      norm_num
    nlinarith [sq_nonneg (slackResiduals 1 slackStart)]
  unfold acceptClassic acceptSimple
  dsimp only
  rw [hval, hold]
  have hd : XVal.fin mi ≤ -(XVal.fin (∑ k, slackResiduals k sub.x ^ 2) - XVal.fin (∑ k, slackResiduals k slackStart ^ 2)) := by
    show mi ≤ -((∑ k, slackResiduals k sub.x ^ 2) - ∑ k, slackResiduals k slackStart ^ 2)
    linarith
  rw [decide_eq_true hd]
  simp [finishDecision, getAcceptanceResult, XVal.isFinite]

/-- The first iteration of a run with the default subsolver, whose model points are `slackPoints` and the start vector. -/
theorem slack_run {gq : GqExternal ℝ 2} (hgq : GqSpec gq) {eps : ℝ} (heps : eps ≤ 1 / 10) {maxiter : Nat}
    (hm : 0 < maxiter) {c : Config ℝ} {b : BuiltinSettings ℝ 2 2} (hnoisy : c.noisy = false) (hiter : c.maxIter = 1)
    (hbatch : c.batchSize = 1) (htarget : c.targetSize = 4) (hfactor : 0 ≤ c.searchRadiusFactor)
    (hper : c.nEvalsPerPoint = 1) (hstart : c.nEvalsAtStart = 1) (hkeep : c.stagnation.minRelativeStepKeep ≤ 1)
    (hrel : c.stagnation.minRelativeStep ≤ 1) {mi : ℝ} (hmi : mi ≤ 0) (hdec : c.decider = .classic mi) (hfilter : b.filter = .keepAll)
    (hl : LstsqSpec b.lstsq) (hroot : b.root = Real.sqrt) (hcr : 0 < b.cubeRadius 1) (hfit : b.fitter.Interpolates) (hmt : b.modelType = .linear)
    (hagg : b.aggregator = "least_squares_linear")
    (hsphere : b.sphere = gqtpar Real.sqrt gq eps (1 / 10) (1 / 5) maxiter)
    (hnrm : ∀ v, b.nrm v = norm2 Real.sqrt v)
    (hdata : ∀ log i k y, log.xs[i]? = some y → b.data log i k = .fin (slackResiduals k y))
    (horacle : ∀ k x, b.oracle k x = .fin (∑ k, slackResiduals k x ^ 2))
    (hsample : ∀ log, builtinSampleR b 0 1 log slackBall 3 [slackStart] = .ok slackPoints) :
    ∃ r, tranquiloR c (builtinComponents b) slackStart 1 slackBounds = .ok r ∧
      r.state.x = (fun i => if i = 0 then 89 / 10 else 0) ∧ r.log.xs = slackStart :: slackPoints ++ [fun i => if i = 0 then 89 / 10 else 0] := by
  have hzero : norm2 Real.sqrt (fun _ : Fin 2 => (0 : ℝ)) = 0 := by simp [norm2, dot]
  set s0 := startLogR c b.oracle slackStart with hs0
  have hxs0 : s0.xs = [slackStart] := by simp [hs0, startLogR]
  have hev0 : s0.evals ≠ [] := by
    simp [hs0, startLogR, hstart, Log.evaluate, Log.evalOne]
  have hfval0 : XVal.mean (s0.fvals 0) = .fin (∑ k, slackResiduals k slackStart ^ 2) := by
    refine mean_const _ _ ?_ ?_
    · simp [hs0, startLogR, hstart, Log.evaluate, Log.evalOne, Log.fvals]
    · intro v hv
      simpa [hs0, startLogR, hstart, Log.evaluate, Log.evalOne, Log.fvals, horacle] using hv
  -- the old points
  have hold : s0.indicesInRegion b.nrm slackStart (c.searchRadiusFactor * 1) = [0] := by
    rw [Log.indicesInRegion, if_neg hev0, hxs0]
    simp [hnrm, hzero, hfactor]
  obtain ⟨sm0, hsm0⟩ : ∃ sm, aggregate b.aggregator (builtinInit b s0 slackBall) = .ok sm := by
    rw [hagg]
    exact ⟨_, rfl⟩
  set log1 := (s0.addXs slackPoints).1.evaluate b.oracle
    (((s0.addXs slackPoints).2.map fun i => (i, (1 : Int).toNat)) ++ additionalEvalInfo s0 [0] 1) with hlog1
  have hxs1 : log1.xs = slackStart :: slackPoints := by
    simp [hlog1, Log.addXs, hxs0]
  have hids : (s0.addXs slackPoints).2 = [1, 2, 3] := by
    simp [Log.addXs, hxs0, slackPoints]
    decide
  have husable : Usable b.cubeRadius slackBall := by
    refine ⟨by simp [slackBall], by simpa [slackBall] using hcr, ?_, ?_⟩
    · intro i
      fin_cases i <;> simp [slackBall, slackBounds, slackStart]; norm_num
    · intro i l u _ hu
      simp [slackBall, slackBounds] at hu
  obtain ⟨v, hv, hvsq, -, hvp⟩ := C103_exact_fit b hl (by rw [hroot]; exact (fun w hw => Real.mul_self_sqrt hw)) hfit log1 [0, 1, 2, 3] slackBall husable
    (builtinInit b s0 slackBall) ⟨rfl, fun i => one_ne_zero⟩ slackResiduals (fun k => by rw [hmt]; exact slack_poly k)
    (by
      intro i hi
      have : ∃ y, log1.xs[i]? = some y := by
        rw [hxs1]
        simp only [List.mem_cons, List.not_mem_nil, or_false] at hi
        rcases hi with rfl | rfl | rfl | rfl <;> exact ⟨_, rfl⟩
      obtain ⟨y, hy⟩ := this
      exact ⟨y, hy, fun k => hdata log1 i k y hy⟩)
    (by
      rw [hmt]
      have : log1.getXs [0, 1, 2, 3] = slackStart :: slackPoints := by
        simp [Log.getXs, hxs1, slackPoints]
      rw [this]
      exact slack_determined)
  obtain ⟨hlin, hsq⟩ := slack_model (hvsq.1 hmt) hvp
  obtain ⟨sub, hsub, hsubx⟩ := slack_solution hgq eps heps maxiter hm b.cubeRadius b.cube b.fallbackSphere b.fallbackCube
    b.retry (aggregatorLeastSquares v) hlin hsq
  obtain ⟨r0, hr0, hr0log, hr0s, hr0n, hr0x, hr0f, hr0v⟩ : ∃ r0, startRunR c (builtinComponents b) slackStart 1 slackBounds = .ok r0 ∧
      r0.log = s0 ∧ r0.state.trustregion = slackBall ∧ r0.nEvals = 1 ∧ r0.state.x = slackStart ∧
      r0.state.fval = .fin (∑ k, slackResiduals k slackStart ^ 2) ∧ r0.state.vectorModel = builtinInit b s0 slackBall := by
    refine ⟨_, by
      unfold startRunR
      dsimp only
      rw [show (builtinComponents b).aggregate ((builtinComponents b).initModel (startLogR c (builtinComponents b).oracle slackStart)
        ⟨slackStart, 1, slackBounds⟩) = .ok sm0 from hsm0]
      rfl, rfl, rfl, hper, rfl, hfval0, rfl⟩
  have hbuild : buildModelR (builtinComponents b) r0.state log1 (log1.getXs [0, 1, 2, 3]) [0, 1, 2, 3] = .ok
      { log := log1, modelXs := log1.getXs [0, 1, 2, 3], modelIndices := [0, 1, 2, 3], vectorModel := v
        model := aggregatorLeastSquares v, sub := ⟨sub.x, sub.expectedImprovement⟩
        relStep := relStepLengthR (builtinComponents b) r0.state ⟨sub.x, sub.expectedImprovement⟩ } := by
    unfold buildModelR
    rw [show (builtinComponents b).fit log1 [0, 1, 2, 3] r0.state.trustregion r0.state.vectorModel = .ok v by
      rw [hr0s, hr0v]; exact hv]
    rw [except_ok_bind]
    rw [show (builtinComponents b).aggregate v = .ok (aggregatorLeastSquares v) by
      show aggregate b.aggregator v = _
      rw [hagg]; rfl]
    rw [except_ok_bind]
    rw [show (builtinComponents b).solve (aggregatorLeastSquares v) r0.state.trustregion =
      .ok ⟨sub.x, sub.expectedImprovement⟩ by
        rw [hr0s]
        show builtinSolve b _ _ = _
        unfold builtinSolve
        rw [hsphere, hsub]; rfl]
    rfl
  have hstep : relStepLengthR (builtinComponents b) r0.state ⟨sub.x, sub.expectedImprovement⟩ = .fin (11 / 10) := by
    unfold relStepLengthR
    rw [hr0s, hr0x]
    dsimp only
    rw [hsubx]
    show XVal.divFin (b.nrm _) 1 = _
    rw [hnrm]
    have : norm2 Real.sqrt (fun i : Fin 2 => (if i = 0 then (89 : ℝ) / 10 else 0) - slackStart i) = 11 / 10 := by
      simp only [norm2, dot, Fin.sum_univ_two, slackStart]
      rw [Real.sqrt_eq_iff_mul_self_eq (by simp; norm_num) (by norm_num)]
      simp; norm_num
    rw [this]
    simp [XVal.divFin]
  rw [hstep] at hbuild
  set bd : Build ℝ 2 (VectorModel ℝ 2 2) (ScalarModel ℝ 2) :=
    { log := log1, modelXs := log1.getXs [0, 1, 2, 3], modelIndices := [0, 1, 2, 3], vectorModel := v
      model := aggregatorLeastSquares v, sub := ⟨sub.x, sub.expectedImprovement⟩, relStep := .fin (11 / 10) } with hbd
  have hdrop : dropLoopR c (builtinComponents b) r0.state bd.modelXs.length bd = .ok bd := by
    have h4 : bd.modelXs.length = 3 + 1 := by
      simp [hbd, Log.getXs, hxs1, slackPoints]
    rw [h4]
    unfold dropLoopR
    rw [if_neg]
    rintro ⟨h, -⟩
    have h' : (11 / 10 : ℝ) < c.stagnation.minRelativeStepKeep := h
    linarith
  have hstag : stagnationLoopR c (builtinComponents b) r0.state r0.nEvals 0 (max 1 c.stagnation.maxTrials) 0 bd = .ok bd := by
    obtain ⟨k, hk⟩ : ∃ k, max 1 c.stagnation.maxTrials = k + 1 := ⟨max 1 c.stagnation.maxTrials - 1, by omega⟩
    rw [hk]
    unfold stagnationLoopR
    rw [if_neg]
    intro h
    have h' : (11 / 10 : ℝ) < c.stagnation.minRelativeStep := h
    linarith
  have hphase : buildPhaseR c (builtinComponents b) 0 r0.state r0.log r0.nEvals = .ok ([0], bd) := by
    have hold' : r0.log.indicesInRegion (builtinComponents b).nrm r0.state.trustregion.center
        (c.searchRadiusFactor * r0.state.trustregion.radius) = [0] := by
      rw [hr0log, hr0s]
      exact hold
    have hgx : r0.log.getXs [0] = [slackStart] := by
      rw [hr0log]
      simp [Log.getXs, hxs0]
    have hn : (nextMultiple (K := ℝ) (c.targetSize - 1) c.batchSize).toNat = 3 := by
      rw [htarget, hbatch]
      have h3 : (((4 - 1 : ℕ) : ℝ) / ((1 : ℕ) : ℝ)) = ((3 : ℤ) : ℝ) := by norm_num
      unfold nextMultiple
      rw [h3, Int.ceil_intCast]
      rfl
    unfold buildPhaseR
    simp only [hold', hgx]
    rw [show (builtinComponents b).filter r0.state r0.log c.targetSize r0.nEvals [slackStart] [0] =
      .ok ([slackStart], [0]) by
        show builtinFilter b _ _ _ _ = _
        unfold builtinFilter
        rw [hfilter]; rfl]
    rw [except_ok_bind]
    dsimp only [List.length_singleton]
    rw [hn, hr0log, hr0s, show (builtinComponents b).sample 0 1 s0 slackBall 3 [slackStart] = .ok slackPoints from hsample s0,
      except_ok_bind]
    rw [hids]
    rw [hids] at hlog1
    rw [hr0n, show (s0.addXs slackPoints).1.evaluate (builtinComponents b).oracle
      (([1, 2, 3].map fun i => (i, (1 : Int).toNat)) ++ additionalEvalInfo s0 [0] 1) = log1 from hlog1.symm]
    rw [show [0] ++ [1, 2, 3] = [0, 1, 2, 3] from rfl, hbuild, except_ok_bind, hdrop, except_ok_bind, ← hr0n, hstag]
    rfl
  have hwf : log1.WF := by
    refine Log.wf_evaluate (Log.wf_addXs ?_ _) _ _
    exact Log.wf_evaluate (by intro p hp; simp at hp) _ _
  obtain ⟨r, hr, hrs', hrl⟩ := iterationR_classic hnoisy hdec hphase
  have hrs : r.state.x = sub.x := by
    rw [hrs']
    exact slack_accept horacle hwf _ hmi _ hsubx _ hr0f
  have hrx : r.log.xs = slackStart :: slackPoints ++ [sub.x] := by
    rw [hrl, acceptClassic, acceptSimple]
    dsimp only
    rw [Log.evaluate_xs]
    simp [Log.addX, hxs1, hbd]
  refine ⟨r, ?_, by rw [hrs, hsubx], by rw [hrx, hsubx]⟩
  unfold tranquiloR
  rw [hr0, except_ok_bind, hiter]
  unfold runLoopR
  rw [hr, except_ok_bind]
  by_cases hs : r.stop
  · rw [if_pos hs]; rfl
  · rw [if_neg hs]; rfl

/-- An option that the user does not set has its default. -/
theorem uses_unset {K O : Type} [Field K] [LinearOrder K] [FloorRing K] {env : PyEnv K O} {name : String} {q w : K}
    (h : Uses env none name (num q) (num w)) : w = q := by
  have key : ∀ v, InForce env none name (num q) v → v = num q := by
    rintro v (⟨h, -⟩ | ⟨d, u, hd, -⟩)
    · exact h
    · rcases hd with hd | hd <;> cases hd
  rcases h with h | ⟨i, h, -⟩
  · have := key _ h
    simp only [num] at this
    cases this
    rfl
  · cases key _ h

theorem readsBool_bool {K O : Type} [Field K] [LinearOrder K] [FloorRing K] {env : PyEnv K O} {v b : Bool}
    (h : ReadsBool env (.bool v) b) : b = v := by
  unfold ReadsBool at h
  generalize hw : (PyVal.bool b : PyVal K O) = w at h
  cases h
  cases hw
  rfl

theorem readsInt_int {K O : Type} [Field K] [LinearOrder K] [FloorRing K] {env : PyEnv K O} {v i : ℤ}
    (h : ReadsInt env (.int v) i) : i = v := by
  rcases h with h | ⟨h, -⟩ | ⟨h, -⟩
  · generalize hw : (PyVal.int i : PyVal K O) = w at h
    cases h
    cases hw
    rfl
  · cases h
  · cases h

/-- The random numbers of the example. -/
noncomputable def slackRng : SampleRng ℝ 2 where
  normal k := List.replicate k fun _ => 1
  uniform01 k := List.replicate k fun _ => 0
  normalBlocks m k := List.replicate m (List.ofFn fun j : Fin k => if j.1 = 0 then fun i => if i = 0 then 1 else 0
    else fun i => if i = 0 then 0 else 1)
  uniformBlocks01 m k := List.replicate m (List.replicate k fun _ => 0)

theorem slackRng_spec : RngSpec slackRng := by
  have h1 : (fun _ : Fin 2 => (1 : ℝ)) ≠ fun _ => 0 := by
    intro h; have := congrFun h 0; simp at this
  have h2 : (fun _ : Fin 2 => (0 : ℝ)) ≠ fun _ => 1 / 2 := by
    intro h; have := congrFun h 0; norm_num at this
  have h3 : ∀ _ : Fin 2, (0 : ℝ) ≤ 0 ∧ (0 : ℝ) < 1 := fun _ => ⟨le_rfl, one_pos⟩
  refine ⟨?_, ?_, ?_, ?_, ?_, ?_, ?_, ?_, ?_⟩
  · intro k; simp [slackRng]
  · intro k v hv; rw [List.eq_of_mem_replicate hv]; exact h1
  · intro k; simp [slackRng]
  · intro k u hu; rw [List.eq_of_mem_replicate hu]; exact h3
  · intro k u hu; rw [List.eq_of_mem_replicate hu]; exact h2
  · intro m k; simp [slackRng]
  · intro m k b hb
    rw [List.eq_of_mem_replicate hb]
    refine ⟨by simp, ?_⟩
    intro v hv
    obtain ⟨j, rfl⟩ := List.mem_ofFn.1 hv
    by_cases hj : j.1 = 0
    · rw [if_pos hj]
      intro h; have := congrFun h 0; simp at this
    · rw [if_neg hj]
      intro h; have := congrFun h 1; simp at this
  · intro m k; simp [slackRng]
  · intro m k b hb
    rw [List.eq_of_mem_replicate hb]
    refine ⟨by simp, ?_⟩
    intro u hu
    rw [List.eq_of_mem_replicate hu]
    exact ⟨h3, h2⟩

/-- A world in which the default options lead out of the bounds. `gq` and `lstsq` are the functions of numpy and scipy,
the registered solver for balls is gqtpar with the options that it gets. -/
noncomputable def slackExternals (gq : GqExternal ℝ 2) (lstsq : Lstsq ℝ) : Externals ℝ Unit 2 2 where
  nrm := norm2 Real.sqrt
  root := Real.sqrt
  radial _ := 1
  cubeRadius := id
  dimRoot := Real.sqrt
  lstsq := lstsq
  qr _ _ _ _ := 0
  oracle _ x := .fin (∑ k, slackResiduals k x ^ 2)
  data log i k := match log.xs[i]? with
    | some y => .fin (slackResiduals k y)
    | none => .nan
  start _ k := slackResiduals k slackStart
  fvecs log i := (log.fvals i).map fun v _ => v
  rng _ _ _ := slackRng
  draws _ _ _ _ k := List.replicate k fun _ _ => 0
  covOfOne _ _ _ := .nan
  quantile := id
  logsumexp _ := 0
  minimize _ _ _ x0 := x0
  scipy crit x0 l u := ⟨fun i => npClip (x0 i) (l i) (u i), crit fun i => npClip (x0 i) (l i) (u i), 0⟩
  solver name d :=
    if name = "gqtpar_fast" then
      match numOf d "k_easy", numOf d "k_hard", natOf d "maxiter" with
      | some ke, some kh, some k => gqtpar Real.sqrt gq (1 / 2 ^ 52) ke kh k
      | _, _, _ => fun _ _ => .error .typeError
    else fun _ _ => .error .linAlgError

theorem slackExternals_spec (gq : GqExternal ℝ 2) (lstsq : Lstsq ℝ) : (slackExternals gq lstsq).Spec where
  zero := by simp [slackExternals, norm2, dot]
  root := sqrtSpec_realSqrt
  radial := fun _ => ⟨zero_le_one, le_rfl⟩
  cubeRadius := fun _ h => h
  dimRoot := fun a _ => Real.sqrt_nonneg a
  rng := fun _ _ _ => slackRng_spec
  minimize := fun _ _ _ x0 h => ⟨rfl, h⟩
  scipy := fun _ _ _ _ h => ⟨fun i => npClip_mem (h i), rfl⟩

/-- What the default sampler returns in the example. -/
theorem slack_sample {b : BuiltinSettings ℝ 2 2} {o : OptimalSampler ℝ 2} (hs : b.sampler = .optimalHull o)
    (hroot : b.root = Real.sqrt) (hrng : ∀ it round log, b.rng it round log = slackRng)
    (h1 : o.nPointsRandomsearch = 1) (h2 : o.distribution = none) (h3 : ∀ f x0, o.minimize f x0 = x0) (log : Log ℝ 2) :
    builtinSampleR b 0 1 log slackBall 3 [slackStart] = .ok slackPoints := by
  have e0 : norm2 Real.sqrt (fun i : Fin 2 => if i = 0 then (1 : ℝ) else 0) = 1 := by
    simp [norm2, dot]
  have e1 : norm2 Real.sqrt (fun i : Fin 2 => if i = 0 then (0 : ℝ) else 1) = 1 := by
    simp [norm2, dot, Fin.sum_univ_two]
  have hopt : ∀ eu x0, optimizerResult Real.sqrt .sphere 3 o eu x0 = x0 := by
    intro eu x0
    unfold optimizerResult
    rw [h3, ite_self]
  have hproj : projectHull Real.sqrt .sphere ([some fun i => if i = 0 then 1 else 0, some fun i => if i = 0 then 0 else 1,
      some fun i => if i = 0 then 0 else 1] : List (Row ℝ 2)) = [some fun i => if i = 0 then 1 else 0,
      some fun i => if i = 0 then 0 else 1, some fun i => if i = 0 then 0 else 1] := by
    simp [projectHull, projectRow, hullNorm, e0, e1]
  have hall : ∃ info, optimalHullSampler Real.sqrt b.cubeRadius slackBall 3 slackRng o (some [slackStart]) =
      .ok (slackPoints.map some, info) := by
    unfold optimalHullSampler
    rw [if_neg (by norm_num)]
    dsimp only
    rw [h2, h1, slackBall_shape]
    have hdraw : drawBlocks (theDistribution none .sphere) slackRng 1 (3 : ℤ).toNat =
        .ok [[fun i => if i = 0 then 1 else 0, fun i => if i = 0 then 0 else 1, fun i => if i = 0 then 0 else 1]] := by
      simp [drawBlocks, theDistribution, slackRng, List.ofFn_succ]
    rw [hdraw]
    simp only [List.map_cons, List.map_nil, hproj, startSample, List.headD_cons, if_true]
    refine ⟨_, congrArg Except.ok (Prod.ext ?_ rfl)⟩
    simp only [optimizeSample, slackBall_shape, hopt, ite_self, hproj]
    have hmap : ∀ u : Vec ℝ 2, slackBall.mapFromUnit b.cubeRadius u = fun i => u i + slackStart i := by
      intro u
      funext i
      simp [Region.mapFromUnit, slackBall_shape]
      simp [slackBall]
    simp only [List.map_cons, List.map_nil, Option.map_some, hmap, slackPoints]
    refine congrArg₂ _ (congrArg some ?_) (congrArg₂ _ (congrArg some ?_) (congrArg₂ _ (congrArg some ?_) rfl)) <;>
      funext i <;> fin_cases i <;> simp [slackStart]; norm_num
  obtain ⟨info, hall⟩ := hall
  unfold builtinSampleR
  rw [hs]
  dsimp only
  rw [hrng, hroot]
  rw [show ((3 : ℕ) : ℤ) = 3 from rfl, hall]
  rfl

/-- C106: with the default options a call leaves the bounds, although start vector and bounds are valid. -/
theorem C106_violated_default_solver (env : PyEnv ℝ Unit) {gq : GqExternal ℝ 2} (hgq : GqSpec gq) {lstsq : Lstsq ℝ}
    (hl : LstsqSpec lstsq) : ∃ r, tranquiloCall env (slackExternals gq lstsq)
      ({ functype := "least_squares", maxIter := 1 } : CallOptions ℝ).arguments slackStart slackBounds = .ok (some r) ∧
      InBounds slackBounds slackStart ∧ (∃ y ∈ r.log.xs, ¬ InBounds slackBounds y) ∧ ¬ InBounds slackBounds r.state.x := by
  have hin : ∀ y : Vec ℝ 2, InBounds ⟨fun _ => none, fun _ => none⟩ y := fun y i =>
    ⟨fun l h => (by cases h), fun u h => (by cases h)⟩
  obtain ⟨r, h, -⟩ := C106_call_returns_partial env (slackExternals gq lstsq) (slackExternals_spec gq lstsq)
    { functype := "least_squares", maxIter := 1 }
    { functype := Or.inr (Or.inr rfl), cores := le_refl 1, batch := fun _ h => (by cases h), factor := fun _ h => (by cases h)
      perPoint := fun _ h => (by cases h), atStart := fun _ h => (by cases h), sampler := Or.inr (Or.inr rfl)
      filter := fun _ h => (by cases h), fitter := fun _ h => (by cases h), cube := Or.inr rfl
      sphere := Or.inr (Or.inl rfl), decider := fun _ h => (by cases h) } (fun h => by simp at h) (fun h => by cases h)
    slackStart ⟨0, by simp [slackStart]⟩ ⟨fun _ => none, fun _ => none⟩ (Or.inl hin) (hin _) (fun _ _ _ h => by cases h)
  set a : Arguments ℝ Unit (Option (Piece ℝ 2)) :=
    ({ functype := "least_squares", maxIter := 1 } : CallOptions ℝ).arguments with ha
  have hcall : ∃ c b radius, CallUses env (slackExternals gq lstsq) a slackStart c b radius ∧
      tranquiloCall env (slackExternals gq lstsq) a slackStart slackBounds =
        (tranquiloR c (builtinComponents b) slackStart radius slackBounds).map some := by
    unfold tranquiloCall at h ⊢
    simp only [except_bind_ok] at h
    obtain ⟨p, hp, h⟩ := h
    split at h
    case h_2 => cases h
    rename_i c b radius hc hb hradius
    refine ⟨c, b, radius, call_uses env _ a _ p hp c hc b hb radius hradius, ?_⟩
    rw [hp, except_ok_bind]
    simp only [hc, hb, hradius]
  obtain ⟨c, b, radius, hu, hcall⟩ := hcall
  have hnoisy : c.noisy = false := by
    exact readsBool_bool hu.noisy
  have hbatch : c.batchSize = 1 := by
    rcases hu.batchSize with ⟨-, h⟩ | h
    · have : (c.batchSize : ℤ) = 1 := readsInt_int h
      omega
    · rcases h with h | ⟨h, -⟩ | ⟨h, -⟩ <;> cases h
  have hlinear : b.modelType = .linear := by
    have := hu.modelType
    generalize b.modelType = mt at this
    cases this with
    | scalar h => simp [ha, CallOptions.arguments] at h
    | vector => rfl
  have htarget : c.targetSize = 4 := by
    have := hu.sampleSize.2.2 rfl
    rw [hlinear, hnoisy, hbatch] at this
    simpa using this
  have hiter : c.maxIter = 1 := by
    obtain ⟨i, hi, h⟩ := hu.maxIter
    rw [readsInt_int hi] at h
    have : (max (1 : ℤ) 0) = 1 := by decide
    have h' : (c.maxIter : ℤ) = max 1 0 := h
    omega
  have hfactor : c.searchRadiusFactor = 5 := by
    rcases hu.factor with ⟨-, h⟩ | h
    · rw [h, if_neg (by simp [ha, CallOptions.arguments])]
    · cases h
  have hper : c.nEvalsPerPoint = 1 := by
    rcases hu.perPoint with ⟨-, h⟩ | h
    · rw [h, hnoisy]; rfl
    · rcases h with h | ⟨h, -⟩ | ⟨h, -⟩ <;> cases h
  have hstart : c.nEvalsAtStart = 1 := by
    rcases hu.atStart with ⟨-, h⟩ | h
    · have : (c.nEvalsAtStart : ℤ) = 1 := by rw [h, hnoisy]; rfl
      exact_mod_cast this
    · rcases h with h | ⟨h, -⟩ | ⟨h, -⟩ <;> cases h
  have hradius : radius = 1 := by
    obtain ⟨initial, h1, ⟨i, h2⟩, h3⟩ := hu.radius
    have hr := uses_unset (h3 ("initial_radius", num initial, num radius) (by simp [radiusTable]))
    have h4 := h1 0
    rw [hr]
    simp only [slackStart] at h4 h2
    fin_cases i
    · rw [h2]; norm_num
    · simp at h2
      rw [h2] at h4
      norm_num at h4
  have hkeep : c.stagnation.minRelativeStepKeep ≤ 1 := by
    have := uses_unset (hu.stagnation ("min_relative_step_keep",
      num (if c.noisy = true ∨ 1 < c.batchSize then 0 else 1 / 8), num c.stagnation.minRelativeStepKeep) (by simp [stagnationTable]))
    rw [this, hnoisy, hbatch]
    norm_num
  have hrel : c.stagnation.minRelativeStep ≤ 1 := by
    have := uses_unset (hu.stagnation ("min_relative_step", num (1 / 20),
      num c.stagnation.minRelativeStep) (by simp [stagnationTable]))
    rw [this]
    norm_num
  obtain ⟨mi, hdec, hmi⟩ : ∃ mi, c.decider = .classic mi ∧ mi ≤ 0 := by
    have := hu.decider "classic" (by rw [hnoisy]; rfl)
    generalize c.decider = d at this
    generalize hs : ("classic" : String) = s at this
    cases this with
    | classic mi h => exact ⟨mi, rfl, (uses_unset h).le⟩
    | _ => simp at hs
  have hfilter : b.filter = .keepAll := by
    have := hu.filter "keep_all" (by rw [hbatch]; rfl)
    generalize b.filter = d at this
    generalize hs : ("keep_all" : String) = s at this
    cases this with
    | keepAll => rfl
    | _ => simp at hs
  have hfitter : b.fitter = .ols := by
    have := (hu.fitter "ols" (by rw [hlinear]; simp [ha, CallOptions.arguments, requestedName])).1
    generalize b.fitter = d at this
    generalize hs : ("ols" : String) = s at this
    cases this with
    | ols => rfl
    | _ => simp at hs
  have hagg : b.aggregator = "least_squares_linear" := by
    have := hu.aggregator
    rw [hlinear] at this
    generalize b.aggregator = d at this
    generalize hf : a.functype = f at this
    have hf' : f = "least_squares" := hf.symm
    cases this with
    | leastSquares => rfl
    | _ => simp at hf'
  obtain ⟨n1, n2, n3, n4, n5, n6, n7, n8, n9, n10⟩ := hu.numpy
  obtain ⟨d, hd, hopts⟩ := hu.sphere "gqtpar_fast" rfl
  have key : ∀ e : String × PyVal ℝ Unit, ∀ w, InForce env a.subsolverOptions e.1 e.2 w → w = e.2 := by
    rintro e v (⟨h, -⟩ | ⟨d, u, hd, -⟩)
    · exact h
    · rcases hd with hd | hd <;> cases hd
  have key' : ∀ e : String × PyVal ℝ Unit, ∀ w, InForce env a.samplerOptions e.1 e.2 w → w = e.2 := key
  have hlook : ∀ e ∈ (solverOptions "gqtpar_fast" : List (String × PyVal ℝ Unit)), d.lookup e.1 = some e.2 := by
    intro e he
    obtain ⟨w, h1, h2⟩ := hopts e he
    rw [h1, key e w h2]
  have l1 : numOf d "k_easy" = some (1 / 10) := by
    unfold numOf
    rw [hlook ("k_easy", num (1 / 10)) (by simp [solverOptions])]
    rfl
  have l2 : numOf d "k_hard" = some (1 / 5) := by
    unfold numOf
    rw [hlook ("k_hard", num (1 / 5)) (by simp [solverOptions])]
    rfl
  have l3 : natOf d "maxiter" = some 20 := by
    unfold natOf intOf
    rw [hlook ("maxiter", .int 20) (by simp [solverOptions])]
    rfl
  have hsphere : b.sphere = gqtpar Real.sqrt gq (1 / 2 ^ 52) (1 / 10) (1 / 5) 20 := by
    rw [hd]
    simp only [slackExternals, if_true, l1, l2, l3]
  have hsample : ∀ log, builtinSampleR b 0 1 log slackBall 3 [slackStart] = .ok slackPoints := by
    have hs := hu.sampler "optimal_hull" rfl
    generalize hbs : b.sampler = S at hs
    generalize hname : ("optimal_hull" : String) = s at hs
    cases hs with
    | interior => simp at hname
    | hull => simp at hname
    | optimal dist hardness criterion nPoints algorithm algoOptions hall =>
      refine slack_sample hbs n2 (fun _ _ _ => by rw [n8]; rfl) ?_ ?_ (fun _ _ => rfl)
      · have := hall ("n_points_randomsearch", .int 1, .int (nPoints : ℕ)) (by simp)
        rcases this with this | ⟨i, -, h⟩
        · have h1 := key' ("n_points_randomsearch", .int 1) _ this
          simp only [PyVal.int.injEq] at h1
          exact_mod_cast h1
        · cases h
      · have := hall ("distribution", .none, pyName dist) (by simp)
        rcases this with this | ⟨i, h, -⟩
        · have h1 := key' ("distribution", .none) _ this
          cases dist with
          | none => rfl
          | some s => simp [pyName] at h1
        · cases key' ("distribution", .none) _ h
  obtain ⟨r, hr, hrs, hrx⟩ := slack_run hgq (by norm_num) (by norm_num) hnoisy hiter hbatch htarget (by rw [hfactor]; norm_num) hper
    hstart hkeep hrel hmi hdec hfilter (by rw [n6]; exact hl) n2 (by rw [n4]; exact one_pos) (by rw [hfitter]; trivial) hlinear hagg
    hsphere (fun v => by rw [n1]; rfl) (fun log i k y hy => by
      rw [hu.criterion.2.1]
      simp [slackExternals, hy]) (fun k x => by rw [hu.criterion.1]; rfl) hsample
  rw [← hradius] at hr
  have hout : ¬ InBounds slackBounds r.state.x := by
    rw [hrs]
    intro h
    have := (h 0).1 (895 / 100) rfl
    norm_num at this
  refine ⟨r, by rw [hcall, hr]; rfl, ?_, ⟨r.state.x, by rw [hrx, hrs]; simp, hout⟩, hout⟩
  intro i
  fin_cases i <;> simp [slackBounds, slackStart]; norm_num

/-- C68: also without line search the criterion is evaluated outside of the bounds. All options except the number of
iterations have their defaults. -/
theorem C68_violated_by_default_solver (env : PyEnv ℝ Unit) : ∃ (ext : Externals ℝ Unit 2 2) (x : Vec ℝ 2)
    (bounds : Bounds ℝ 2) (r : Run ℝ 2 (VectorModel ℝ 2 2) (ScalarModel ℝ 2)), ext.Spec ∧ InBounds bounds x ∧
      tranquiloCall env ext ({ functype := "least_squares", maxIter := 1 } : CallOptions ℝ).arguments x bounds =
        .ok (some r) ∧ ∃ y ∈ r.log.xs, ¬ InBounds bounds y := by
  obtain ⟨gq, hgq⟩ := gqSpec_real 2
  obtain ⟨lstsq, hl⟩ := exists_lstsq
  obtain ⟨r, h1, h2, h3, -⟩ := C106_violated_default_solver env hgq hl
  exact ⟨_, _, _, r, slackExternals_spec gq lstsq, h2, h1, h3⟩

end Tranquilo
