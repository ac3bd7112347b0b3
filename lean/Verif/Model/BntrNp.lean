import Verif.Model.SlowSolvers

/-!
# Model of `bntr.py`

The version of bntr for numpy. It keeps lists of indices where `bntr_fast.py` (`Model/Bntr.lean`) keeps
masks, and it reports messages where `bntr_fast.py` reports numbers. Simplifications as in `Model/Bntr.lean`;
a division of scalars by zero, which gives an infinite value or NaN in numpy, is not followed further: it is
an error of the model.
-/

namespace Tranquilo

variable {K : Type} [Field K] [LinearOrder K] {n : Nat}

/-- `v[indices]`. -/
def pickVec (indices : List (Fin n)) (v : Vec K n) : Vec K indices.length := fun k => v (indices.get k)

/-- `_find_hessian_submatrix_where_bounds_inactive`, bntr.py:692-698. -/
def pickMat (indices : List (Fin n)) (h : Mat K n n) : Mat K indices.length indices.length :=
  fun i j => h (indices.get i) (indices.get j)

/-- `_project_gradient_onto_feasible_set`, bntr.py:765-772. -/
def projectGradientNp (a : ActiveSets n) (g : Vec K n) : Vec K n :=
  setAt (fun _ => 0) a.inactive (pickVec a.inactive g)

/-- `_check_for_convergence`, bntr.py:701-754. -/
def bntrConvergedNp (root : K → K) (o : BntrOptions K) (x : Vec K n) (f : K) (g modelG l u : Vec K n)
    (converged : Bool) (reason : String) (niter : Option Nat) : Bool × String :=
  let gradientNorm := norm2 root (fbDirectionNp root x g l u)
  let initialNorm := norm2 root modelG
  if gradientNorm < o.gtolAbs then
    (true, "Norm of the gradient is less than absolute_gradient_tolerance.")
  else if f ≠ 0 ∧ |gradientNorm / f| < o.gtolRel then
    (true, "Norm of the gradient relative to the criterion value is less than " ++
      "relative_gradient_tolerance.")
  else if initialNorm ≠ 0 ∧ gradientNorm / initialNorm < o.gtolScaled then
    (true, "Norm of the gradient divided by norm of the gradient at the " ++
      "initial parameters is less than scaled_gradient_tolerance.")
  else if initialNorm ≠ 0 ∧ gradientNorm = 0 ∧ o.gtolScaled = 0 then
    (true, "Norm of the gradient divided by norm of the gradient at the " ++
      "initial parameters is less than scaled_gradient_tolerance.")
  else if niter = some o.maxiter then (converged, "Maximum number of iterations reached.")
  else (converged, reason)

/-- One pass of the loop of `_perform_gradient_descent_step`, bntr.py:563-601, with
`_update_trustregion_radius_and_gradient_descent` (lines 804-889, `gdUpdateRadius`). -/
def gdStepNp (eps : K) (f0 gradientNorm : K) (pg g : Vec K n) (h : Mat K n n)
    (l u : Vec K n) (inactive : List (Fin n)) (s : GdState K n) : Except Err (GdState K n) := do
  let size ← checkedDiv s.radius gradientNorm
  let x := applyBoundsNp l u fun i => s.x i - size * pg i
  let f := bntrCriterion x g h
  let squareTerms := quadForm (pickMat inactive h) (pickVec inactive fun i => x i - s.x i)
  let predicted := s.radius * (gradientNorm - 1 / 2 * s.radius * squareTerms / gradientNorm ^ 2)
  let r ← gdUpdateRadius eps s.radius s.lower predicted (f0 - f) gradientNorm
  .ok { x := x, fMin := if f < s.fMin then f else s.fMin
        stepSize := if f < s.fMin then size else s.stepSize, radius := r.1, lower := r.2 }

/-- The loop of `_perform_gradient_descent_step`, bntr.py:563-601. -/
def gdLoopNp (eps f0 gradientNorm : K) (pg g : Vec K n) (h : Mat K n n) (l u : Vec K n)
    (inactive : List (Fin n)) : Nat → GdState K n → Except Err (GdState K n)
  | 0, s => .ok s
  | k + 1, s => do
    let s' ← gdStepNp eps f0 gradientNorm pg g h l u inactive s
    gdLoopNp eps f0 gradientNorm pg g h l u inactive k s'

/-- `_perform_gradient_descent_step`, bntr.py:543-609. -/
def gradientDescentNp (root : K → K) (eps : K) (x : Vec K n) (f0 : K) (pg g : Vec K n) (h : Mat K n n)
    (l u : Vec K n) (inactive : List (Fin n)) (maxiter : Nat) : Except Err (GdState K n) :=
  gdLoopNp eps f0 (norm2 root pg) pg g h l u inactive maxiter
    { x := x, fMin := f0, stepSize := 0, radius := 100, lower := 0 }

/-- `np.clip(radius, min_radius, max_radius)`. -/
def clipRadiusNp (radius : K) : K := npClip radius bntrMinRadius bntrMaxRadius

/-- The variables of the main loop. -/
structure BntrNpState (K : Type) (n : Nat) where
  x : Vec K n
  f : K
  gradient : Vec K n
  radius : K
  active : ActiveSets n
  converged : Bool
  reason : String

/-- `_take_preliminary_gradient_descent_step_and_check_for_solution`, bntr.py:241-385. -/
def bntrPreliminaryNp (root : K → K) (eps : K) (o : BntrOptions K) (g : Vec K n) (h : Mat K n n)
    (l u x : Vec K n) : Except Err (BntrNpState K n) := do
  let f := bntrCriterion x g h
  let active := activeSets x g l u
  let gradient : Vec K n := fun i => g i + matVec h x i
  let pg := projectGradientNp active gradient
  let c := bntrConvergedNp root o x f gradient g l u false "Continue iterating." none
  if c.1 then
    .ok { x := x, f := f, gradient := gradient, radius := 100, active := active
          converged := true, reason := c.2 }
  else
    let d ← gradientDescentNp root eps x f pg g h l u active.inactive o.maxiterGradientDescent
    if d.fMin < f then
      let x' := applyBoundsNp l u fun i => d.x i - d.stepSize * pg i
      let gradient' : Vec K n := fun i => g i + matVec h x' i
      let active' := activeSets x' gradient' l u
      let c' := bntrConvergedNp root o x' d.fMin (projectGradientNp active' gradient') g l u false
        c.2 none
      .ok { x := x', f := d.fMin, gradient := gradient'
            radius := if c'.1 then d.radius else clipRadiusNp (max d.radius d.lower)
            active := active', converged := c'.1, reason := c'.2 }
    else
      .ok { x := x, f := f, gradient := gradient, radius := clipRadiusNp (max d.radius d.lower)
            active := active, converged := false, reason := c.2 }

/-- `_compute_conjugate_gradient_step`, bntr.py:421-496, when there are free parameters. -/
def freeStepNp (root : K → K) (inner : InnerSolver K) (g : Vec K n) (h : Mat K n n) (l u : Vec K n)
    (inactive : List (Fin n)) (radius : K) : Except Err (Vec K inactive.length × K) := do
  let solve := fun radius => inner _ (pickVec inactive g) (pickMat inactive h) radius
    (pickVec inactive l) (pickVec inactive u)
  let step ← solve radius
  if radius = 0 ∧ ¬ 0 < norm2 root step then
    let step ← solve (clipRadiusNp 100)
    if norm2 root step = 0 then .error .valueError else .ok (step, norm2 root step)
  else .ok (step, norm2 root step)

/-- `_compute_conjugate_gradient_step`, bntr.py:388-510, without the completion of the step. Without free
parameters (line 405) the assignment of a vector to an empty selection (line 784) raises a `ValueError`,
unless there is one parameter and the single value is broadcast. -/
def trialStepNp (root : K → K) (inner : InnerSolver K) (g : Vec K n) (h : Mat K n n)
    (l u x : Vec K n) (inactive : List (Fin n)) (radius : K) :
    Except Err (Vec K inactive.length × K) :=
  if inactive = [] then
    if n = 1 then .ok (fun _ => 0, norm2 root (applyBoundsNp l u x)) else .error .valueError
  else freeStepNp root inner g h l u inactive radius

/-- `_compute_predicted_reduction_from_conjugate_gradient_step`, bntr.py:513-540. -/
def predictedReductionNp (g : Vec K n) (h : Mat K n n) (a : ActiveSets n) (step : Vec K n)
    (stepInactive : Vec K a.inactive.length) : K :=
  if 0 < a.active.length then
    -(bntrCriterion (pickVec a.inactive step) (pickVec a.inactive g) (pickMat a.inactive h))
  else -(bntrCriterion stepInactive (pickVec a.inactive g) (pickMat a.inactive h))

/-- Lines 139-175 of bntr.py: the step, the predicted reduction and the norm of the step. -/
def bntrCandidateNp (root : K → K) (inner : InnerSolver K) (g : Vec K n) (h : Mat K n n)
    (l u x : Vec K n) (a : ActiveSets n) (radius : K) : Except Err (Vec K n × K × K) := do
  let t ← trialStepNp root inner g h l u x a.inactive radius
  let step := boundedStepNp a l u x t.1
  .ok (step, predictedReductionNp g h a step t.1, t.2)

/-- `_update_trustregion_radius_conjugate_gradient`, bntr.py:612-665. -/
def cgUpdateRadiusNp (eps f predicted actual stepNorm radius : K) : Except Err (K × Bool) := do
  if predicted < 0 then .ok (clipRadiusNp (1 / 4 * min radius stepNorm), false)
  else
    let kappa ← cgKappa eps f predicted actual
    if kappa < 1 / 10 ^ 4 then .ok (clipRadiusNp (1 / 4 * min radius stepNorm), false)
    else .ok (clipRadiusNp (if stepNorm = radius then boundaryFactor kappa * radius else radius), true)

/-- One pass of the loop `while` in `bntr`, bntr.py:139-228. -/
def bntrTrialNp (root : K → K) (eps : K) (inner : InnerSolver K) (o : BntrOptions K)
    (g : Vec K n) (h : Mat K n n) (l u : Vec K n) (niter : Nat) (s : BntrNpState K n) :
    Except Err (BntrNpState K n × Bool) := do
  let t ← bntrCandidateNp root inner s.gradient h l u s.x s.active s.radius
  let x := applyBoundsNp l u fun i => s.x i + t.1 i
  let f := bntrCriterion x g h
  let r ← cgUpdateRadiusNp eps f t.2.1 (s.f - f) t.2.2 s.radius
  if r.2 then
    let gradient : Vec K n := fun i => g i + matVec h x i
    let c := bntrConvergedNp root o x f gradient g l u s.converged s.reason (some niter)
    .ok ({ x := x, f := f, gradient := gradient, radius := r.1, active := activeSets x gradient l u
           converged := c.1, reason := c.2 }, true)
  else if r.1 = s.radius then .ok ({ s with converged := true }, false)
  else
    let c := bntrConvergedNp root o s.x s.f s.gradient g l u s.converged s.reason (some niter)
    .ok ({ s with radius := r.1, converged := c.1, reason := c.2 }, false)

/-- The loop `while not accept_step and not converged`, bntr.py:138-228. -/
def bntrInnerNp (root : K → K) (eps : K) (inner : InnerSolver K) (o : BntrOptions K)
    (g : Vec K n) (h : Mat K n n) (l u : Vec K n) (niter : Nat) :
    Nat → BntrNpState K n → Except Err (Option (BntrNpState K n))
  | 0, _ => .ok none
  | fuel + 1, s => do
    let r ← bntrTrialNp root eps inner o g h l u niter s
    if r.2 || r.1.converged then .ok (some r.1)
    else bntrInnerNp root eps inner o g h l u niter fuel r.1

/-- The loop `for niter in range(maxiter + 1)`, bntr.py:130-228. -/
def bntrOuterNp (root : K → K) (eps : K) (inner : InnerSolver K) (o : BntrOptions K)
    (g : Vec K n) (h : Mat K n n) (l u : Vec K n) (fuel : Nat) :
    Nat → Nat → BntrNpState K n → Except Err (Option (BntrNpState K n × Nat))
  | 0, niter, s => .ok (some (s, niter - 1))
  | k + 1, niter, s => do
    if s.converged then .ok (some (s, niter))
    else
      match ← bntrInnerNp root eps inner o g h l u niter fuel s with
      | none => .ok none
      | some s' => bntrOuterNp root eps inner o g h l u fuel k (niter + 1) s'

/-- The result of `bntr`, bntr.py:230-236. -/
structure BntrNpResult (K : Type) (n : Nat) where
  x : Vec K n
  criterion : K
  nIterations : Nat
  success : Bool
  message : String

/-- `bntr`, bntr.py:26-238, for models with square terms and a nonnegative `maxiter`. -/
def bntrNp (root : K → K) (eps : K) (inner : InnerSolver K) (o : BntrOptions K)
    (fuel : Nat) (g : Vec K n) (h : Mat K n n) (l u x : Vec K n) :
    Except Err (Option (BntrNpResult K n)) := do
  let s ← bntrPreliminaryNp root eps o g h l u x
  match ← bntrOuterNp root eps inner o g h l u fuel (o.maxiter + 1) 0 s with
  | none => .ok none
  | some (s', niter) => .ok (some { x := s'.x, criterion := s'.f, nIterations := niter
                                    success := s'.converged, message := s'.reason })

/-- The inner solver "cg" of `bntr`, bntr.py:421-429. -/
def innerCgNp (root : K → K) (gtolAbs gtolRel : K) : InnerSolver K := fun _ g h radius _ _ =>
  .ok (minimizeCg root g h radius gtolAbs gtolRel)

/-- The inner solver "trsbox" of `bntr`, bntr.py:437-445. -/
def innerTrsboxNp [FloorSemiring K] (root : K → K) : InnerSolver K := fun _ g h radius l u =>
  minimizeTrsboxNp root g h radius l u

/-- The inner solver "steihaug_toint" of `bntr_fast`, bntr_fast.py:615-620. -/
def innerSt (root : K → K) (pinvMul : ∀ m, Mat K m m → Vec K m → Vec K m) : InnerSolver K :=
  fun m g h radius _ _ => minimizeStFast root (pinvMul m) g h radius

/-- The inner solver "steihaug_toint" of `bntr`, bntr.py:430-436. A step with NaN or infinite entries is an
error of the model. -/
def innerStNp (root : K → K) (pinvMul : ∀ m, Mat K m m → Vec K m → Vec K m) : InnerSolver K :=
  fun m g h radius _ _ =>
    match minimizeSt root (pinvMul m) g h radius with
    | some s => .ok s
    | none => .error .valueError

end Tranquilo
