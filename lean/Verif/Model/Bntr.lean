import Verif.Model.ConjugateGradient

/-!
# Model of `bntr_fast.py`

The trust region solver for boxes, in the version for numba, which is the default of tranquilo. The
helpers of `bntr.py` that are written differently are modelled at the end, the rest in `Model/BntrNp.lean`.

Simplifications, for the whole file:
* Numbers are exact. Bounds are finite (tranquilo calls the solver with the unit cube). `root` is `np.sqrt`
  and `eps` is `EPSILON`, line 14.
* Divisions by zero raise `ZeroDivisionError`, as in functions compiled by numba. (In `bntr.py` they give
  infinite values or NaN.)
* Arrays that are selected by a mask are vectors indexed by the positions in the list of the selected
  indices.
* The inner solver for the free parameters is a parameter. The loop `while` has a limit `fuel`; the result
  is `none` when the limit is reached (C47 shows that this does not happen).
* Messages are numbers, as in `bntr_fast.py`.
-/

namespace Tranquilo

variable {K : Type} [Field K] [LinearOrder K] {n : Nat}

/-! ## Helpers -/

/-- `_evaluate_model_criterion`, bntr_fast.py:1149-1167, and bntr.py:928-946. -/
def bntrCriterion (x g : Vec K n) (h : Mat K n n) : K := dot g x + 1 / 2 * quadForm h x

/-- `_apply_bounds_to_x_candidate`, bntr_fast.py:967-974 (`bound_tol` is always 0). The update of the
array in place is not modelled: the only caller whose argument is used later passes a vector within the
bounds (line 589), which is not changed. -/
def applyBounds (l u x : Vec K n) : Vec K n := fun i =>
  if x i ≤ l i then l i else if u i ≤ x i then u i else x i

/-- The four masks of `_get_information_on_active_bounds`. -/
structure ActiveBounds (n : Nat) where
  lower : Fin n → Bool
  upper : Fin n → Bool
  fixed : Fin n → Bool
  inactive : Fin n → Bool

/-- `_get_information_on_active_bounds`, bntr_fast.py:888-909. -/
def activeBounds (x g l u : Vec K n) : ActiveBounds n where
  lower := fun i => decide (x i ≤ l i) && decide (0 < g i)
  upper := fun i => !(decide (x i ≤ l i) && decide (0 < g i)) &&
    (decide (u i ≤ x i) && decide (g i < 0))
  fixed := fun i => !(decide (x i ≤ l i) && decide (0 < g i)) &&
    (!(decide (u i ≤ x i) && decide (g i < 0)) && decide (l i = u i))
  inactive := fun i => !(decide (x i ≤ l i) && decide (0 < g i)) &&
    (!(decide (u i ≤ x i) && decide (g i < 0)) && !decide (l i = u i))

/-- The selected indices of a mask in increasing order. -/
def maskIndices (mask : Fin n → Bool) : List (Fin n) := (List.finRange n).filter mask

/-- `v[mask]`. -/
def maskVec (mask : Fin n → Bool) (v : Vec K n) : Vec K (maskIndices mask).length :=
  fun i => v ((maskIndices mask).get i)

/-- `_find_hessian_submatrix_where_bounds_inactive`, bntr_fast.py:913-916. -/
def maskMat (mask : Fin n → Bool) (h : Mat K n n) :
    Mat K (maskIndices mask).length (maskIndices mask).length :=
  fun i j => h ((maskIndices mask).get i) ((maskIndices mask).get j)

/-- `out = np.zeros(n); out[mask] = v`. -/
def unmask (mask : Fin n → Bool) (v : Vec K (maskIndices mask).length) : Vec K n := fun i =>
  if h : i ∈ maskIndices mask then v ⟨(maskIndices mask).idxOf i, List.idxOf_lt_length_iff.2 h⟩ else 0

/-- `_project_gradient_onto_feasible_set`, bntr_fast.py:978-983. -/
def projectGradient (inactive : Fin n → Bool) (g : Vec K n) : Vec K n :=
  unmask inactive (maskVec inactive g)

/-- `_apply_bounds_to_conjugate_gradient_step`, bntr_fast.py:987-1016. -/
def boundedStep (a : ActiveBounds n) (l u x : Vec K n)
    (step : Vec K (maskIndices a.inactive).length) : Vec K n := fun i =>
  if a.fixed i then 0
  else if a.upper i then u i - x i
  else if a.lower i then l i - x i
  else unmask a.inactive step i

/-- `_get_fischer_burmeister_scalar`, bntr_fast.py:1126-1145, and bntr.py:906-925. -/
def fbScalar (root : K → K) (a b : K) : K :=
  if a + b ≤ 0 then root (a ^ 2 + b ^ 2) - (a + b)
  else -2 * a * b / (root (a ^ 2 + b ^ 2) + (a + b))

/-- `_get_fischer_burmeister_direction_vector`, bntr_fast.py:1111-1122. -/
def fbDirection (root : K → K) (x g l u : Vec K n) : Vec K n := fun i =>
  if l i = u i then l i - x i
  else fbScalar root (fbScalar root (u i - x i) (-(g i))) (x i - l i)

/-- Tolerances and limits of the solver. -/
structure BntrOptions (K : Type) where
  maxiter : Nat
  maxiterGradientDescent : Nat
  gtolAbs : K
  gtolRel : K
  gtolScaled : K

/-- `_check_for_convergence`, bntr_fast.py:920-963: the flag and the reason. The criterion value is
finite, therefore the case in line 957 does not occur. -/
def bntrConverged (root : K → K) (o : BntrOptions K) (x : Vec K n) (f : K) (g modelG l u : Vec K n)
    (converged : Bool) (reason : Nat) (niter : Option Nat) : Bool × Nat :=
  let gradientNorm := norm2 root (fbDirection root x g l u)
  let initialNorm := norm2 root modelG
  if gradientNorm < o.gtolAbs then (true, 1)
  else if f ≠ 0 ∧ |gradientNorm / f| < o.gtolRel then (true, 2)
  else if initialNorm ≠ 0 ∧ gradientNorm / initialNorm < o.gtolScaled then (true, 3)
  else if initialNorm ≠ 0 ∧ gradientNorm = 0 ∧ o.gtolScaled = 0 then (true, 4)
  else if niter = some o.maxiter then (converged, 6)
  else (converged, reason)

/-- Division in compiled functions. -/
def checkedDiv (a b : K) : Except Err K := if b = 0 then .error .zeroDivisionError else .ok (a / b)

/-! ## The gradient descent -/

/-- The factor `tau` of `_update_trustregion_radius_and_gradient_descent`, bntr_fast.py:1061-1103, with
`mu1 = 0.35`, `mu2 = 0.5` and `gamma1, ..., gamma4 = 0.0625, 0.5, 2, 5` (lines 385-390). -/
def gdTau (kappa tau1 tau2 : K) : K :=
  let tauMin := min tau1 tau2
  let tauMax := max tau1 tau2
  if |kappa - 1| ≤ 35 / 100 then
    if tauMax < 1 then 2 else if 5 < tauMax then 5 else tauMax
  else if |kappa - 1| ≤ 1 / 2 then
    if tauMax < 1 / 2 then 1 / 2 else if 2 < tauMax then 2 else tauMax
  else
    if 1 < tauMin then 1 / 2
    else if tauMax < 1 / 16 then 1 / 16
    else if tauMin < 1 / 16 ∧ 1 ≤ tauMax then 1 / 16
    else if 1 / 16 ≤ tau1 ∧ tau1 < 1 ∧ (tau2 < 1 / 16 ∨ 1 ≤ tau2) then tau1
    else if 1 / 16 ≤ tau2 ∧ tau2 < 1 ∧ (tau1 < 1 / 16 ∨ 1 ≤ tau2) then tau2
    else tauMax

/-- `kappa` in lines 1035-1038 of bntr_fast.py. -/
def gdKappa (eps predicted actual : K) : Except Err K :=
  if |actual| ≤ eps ∧ |predicted| ≤ eps then .ok 1 else checkedDiv actual predicted

/-- `_update_trustregion_radius_and_gradient_descent`, bntr_fast.py:1020-1107, with `theta = 0.25` (line
384): the new radius and the new lower bound of the radius. -/
def gdUpdateRadius (eps radius lower predicted actual gradientNorm : K) : Except Err (K × K) := do
  let kappa ← gdKappa eps predicted actual
  let tau1 ← checkedDiv (1 / 4 * gradientNorm * radius)
    (1 / 4 * gradientNorm * radius + (1 - 1 / 4) * predicted - actual)
  let tau2 ← checkedDiv (1 / 4 * gradientNorm * radius)
    (1 / 4 * gradientNorm * radius - (1 + 1 / 4) * predicted + actual)
  .ok (radius * gdTau kappa tau1 tau2, if |kappa - 1| ≤ 1 / 2 then max lower radius else lower)

/-- The variables of the loop of `_perform_gradient_descent_step`. -/
structure GdState (K : Type) (n : Nat) where
  x : Vec K n
  fMin : K
  stepSize : K
  radius : K
  lower : K

/-- One pass of the loop of `_perform_gradient_descent_step`, bntr_fast.py:770-814. The predicted
reduction divides by the square of the norm, which is nonzero when the step size was computed. -/
def gdStep (eps : K) (f0 gradientNorm : K) (pg g : Vec K n) (h : Mat K n n)
    (l u : Vec K n) (inactive : Fin n → Bool) (s : GdState K n) : Except Err (GdState K n) := do
  let size ← checkedDiv s.radius gradientNorm
  let x := applyBounds l u fun i => s.x i - size * pg i
  let f := bntrCriterion x g h
  let squareTerms := quadForm (maskMat inactive h) (maskVec inactive fun i => x i - s.x i)
  let predicted := s.radius * (gradientNorm - 1 / 2 * s.radius * squareTerms / gradientNorm ^ 2)
  let r ← gdUpdateRadius eps s.radius s.lower predicted (f0 - f) gradientNorm
  .ok { x := x, fMin := if f < s.fMin then f else s.fMin
        stepSize := if f < s.fMin then size else s.stepSize, radius := r.1, lower := r.2 }

/-- The loop of `_perform_gradient_descent_step`. -/
def gdLoop (eps f0 gradientNorm : K) (pg g : Vec K n) (h : Mat K n n) (l u : Vec K n)
    (inactive : Fin n → Bool) : Nat → GdState K n → Except Err (GdState K n)
  | 0, s => .ok s
  | k + 1, s => do
    let s' ← gdStep eps f0 gradientNorm pg g h l u inactive s
    gdLoop eps f0 gradientNorm pg g h l u inactive k s'

/-- `_perform_gradient_descent_step`, bntr_fast.py:742-822, with `default_radius = 100` (line 381). -/
def gradientDescent (root : K → K) (eps : K) (x : Vec K n) (f0 : K) (pg g : Vec K n) (h : Mat K n n)
    (l u : Vec K n) (inactive : Fin n → Bool) (maxiter : Nat) : Except Err (GdState K n) :=
  gdLoop eps f0 (norm2 root pg) pg g h l u inactive maxiter
    { x := x, fMin := f0, stepSize := 0, radius := 100, lower := 0 }

/-! ## The main loop -/

/-- `min_radius`, bntr_fast.py:382. -/
def bntrMinRadius : K := 1 / 10 ^ 10

/-- `max_radius`, bntr_fast.py:383. -/
def bntrMaxRadius : K := 10 ^ 10

/-- `min(max(radius, min_radius), max_radius)`. -/
def clipRadius (radius : K) : K := min (max radius bntrMinRadius) bntrMaxRadius

/-- The variables of the main loop. -/
structure BntrState (K : Type) (n : Nat) where
  x : Vec K n
  f : K
  gradient : Vec K n
  radius : K
  active : ActiveBounds n
  converged : Bool
  reason : Nat

/-- `_take_preliminary_gradient_descent_step_and_check_for_solution`, bntr_fast.py:345-530. The active
bounds at the start are determined by the linear terms of the model (line 406), the gradient at zero. -/
def bntrPreliminary (root : K → K) (eps : K) (o : BntrOptions K) (g : Vec K n) (h : Mat K n n)
    (l u x : Vec K n) : Except Err (BntrState K n) := do
  let f := bntrCriterion x g h
  let active := activeBounds x g l u
  let gradient : Vec K n := fun i => g i + matVec h x i
  let pg := projectGradient active.inactive gradient
  let c := bntrConverged root o x f gradient g l u false 0 none
  if c.1 then
    .ok { x := x, f := f, gradient := gradient, radius := 100, active := active
          converged := true, reason := c.2 }
  else
    let d ← gradientDescent root eps x f pg g h l u active.inactive o.maxiterGradientDescent
    if d.fMin < f then
      let x' := applyBounds l u fun i => d.x i - d.stepSize * pg i
      let gradient' : Vec K n := fun i => g i + matVec h x' i
      let active' := activeBounds x' gradient' l u
      let c' := bntrConverged root o x' d.fMin (projectGradient active'.inactive gradient') g l u false
        c.2 none
      .ok { x := x', f := d.fMin, gradient := gradient'
            radius := if c'.1 then d.radius else clipRadius (max d.radius d.lower)
            active := active', converged := c'.1, reason := c'.2 }
    else
      .ok { x := x, f := f, gradient := gradient, radius := clipRadius (max d.radius d.lower)
            active := active, converged := false, reason := c.2 }

/-- An inner solver: gradient, Hessian, radius and bounds of the free parameters give a step. -/
abbrev InnerSolver (K : Type) :=
  (m : Nat) → Vec K m → Mat K m m → K → Vec K m → Vec K m → Except Err (Vec K m)

/-- The inner solver "cg" (the default of tranquilo), bntr_fast.py:606-613. -/
def innerCg (root : K → K) (gtolAbs gtolRel : K) : InnerSolver K := fun _ g h radius _ _ =>
  .ok (minimizeCgFast root g h radius gtolAbs gtolRel)

/-- `_compute_conjugate_gradient_step`, bntr_fast.py:534-688, when there are free parameters: the step
of the free parameters and its norm. A zero radius (line 637) does not occur in the main loop. -/
def freeStep (root : K → K) (inner : InnerSolver K) (g : Vec K n) (h : Mat K n n) (l u : Vec K n)
    (inactive : Fin n → Bool) (radius : K) :
    Except Err (Vec K (maskIndices inactive).length × K) := do
  let solve := fun radius => inner _ (maskVec inactive g) (maskMat inactive h) radius
    (maskVec inactive l) (maskVec inactive u)
  let step ← solve radius
  if radius = 0 ∧ ¬ 0 < norm2 root step then
    let step ← solve (clipRadius 100)
    if norm2 root step = 0 then .error .valueError else .ok (step, norm2 root step)
  else .ok (step, norm2 root step)

/-- `_compute_conjugate_gradient_step`, bntr_fast.py:534-688: the step of the free parameters, and the
norm that is compared with the radius. Without free parameters (line 587) the assignment to an empty
selection (line 999) fails, unless there is one parameter and the single value is broadcast
(`broadcast`). -/
def trialStep (root : K → K) (broadcast : Bool) (inner : InnerSolver K) (g : Vec K n) (h : Mat K n n)
    (l u x : Vec K n) (a : ActiveBounds n) (radius : K) :
    Except Err (Vec K (maskIndices a.inactive).length × K) :=
  if maskIndices a.inactive = [] then
    if n = 1 ∧ broadcast = true then .ok (fun _ => 0, norm2 root (applyBounds l u x))
    else .error .valueError
  else freeStep root inner g h l u a.inactive radius

/-- `_compute_predicted_reduction_from_conjugate_gradient_step`, bntr_fast.py:692-738. -/
def predictedReduction (g : Vec K n) (h : Mat K n n) (inactive : Fin n → Bool) (step : Vec K n)
    (stepInactive : Vec K (maskIndices inactive).length) : K :=
  if (List.finRange n).any (fun i => !inactive i) then
    -(bntrCriterion (maskVec inactive step) (maskVec inactive g) (maskMat inactive h))
  else -(bntrCriterion stepInactive (maskVec inactive g) (maskMat inactive h))

/-- `kappa` in lines 855-860 of bntr_fast.py. -/
def cgKappa (eps f predicted actual : K) : Except Err K :=
  if |actual| ≤ max 1 (|f| * eps) ∧ |predicted| ≤ max 1 (|f| * eps) then .ok 1
  else checkedDiv actual predicted

/-- The factor in lines 871-881 of bntr_fast.py. -/
def boundaryFactor (kappa : K) : K :=
  if kappa < 1 / 4 then 1 / 2 else if kappa < 1 / 2 then 1 else if kappa < 9 / 10 then 2 else 4

/-- `_update_trustregion_radius_conjugate_gradient`, bntr_fast.py:826-884, with the constants of lines
291-301: the new radius, and whether the step is accepted. -/
def cgUpdateRadius (eps f predicted actual stepNorm radius : K) : Except Err (K × Bool) := do
  if predicted < 0 then .ok (clipRadius (1 / 4 * min radius stepNorm), false)
  else
    let kappa ← cgKappa eps f predicted actual
    if kappa < 1 / 10 ^ 4 then .ok (clipRadius (1 / 4 * min radius stepNorm), false)
    else .ok (clipRadius (if stepNorm = radius then boundaryFactor kappa * radius else radius), true)

/-- One pass of the loop `while` in `_bntr_fast_jitted`, bntr_fast.py:233-340. The candidate at the start
of each pass is the last accepted point. The second component says whether the step was accepted. -/
def bntrTrial (root : K → K) (eps : K) (broadcast : Bool) (inner : InnerSolver K) (o : BntrOptions K)
    (g : Vec K n) (h : Mat K n n) (l u : Vec K n) (niter : Nat) (s : BntrState K n) :
    Except Err (BntrState K n × Bool) := do
  let t ← trialStep root broadcast inner s.gradient h l u s.x s.active s.radius
  let step := boundedStep s.active l u s.x t.1
  let x := applyBounds l u fun i => s.x i + step i
  let predicted := predictedReduction s.gradient h s.active.inactive step t.1
  let f := bntrCriterion x g h
  let r ← cgUpdateRadius eps f predicted (s.f - f) t.2 s.radius
  if r.2 then
    let gradient : Vec K n := fun i => g i + matVec h x i
    let c := bntrConverged root o x f gradient g l u s.converged s.reason (some niter)
    .ok ({ x := x, f := f, gradient := gradient, radius := r.1, active := activeBounds x gradient l u
           converged := c.1, reason := c.2 }, true)
  else if r.1 = s.radius then .ok ({ s with converged := true }, false)
  else
    let c := bntrConverged root o s.x s.f s.gradient g l u s.converged s.reason (some niter)
    .ok ({ s with radius := r.1, converged := c.1, reason := c.2 }, false)

/-- The loop `while not accept_step and not converged`, bntr_fast.py:232-340. -/
def bntrInner (root : K → K) (eps : K) (broadcast : Bool) (inner : InnerSolver K) (o : BntrOptions K)
    (g : Vec K n) (h : Mat K n n) (l u : Vec K n) (niter : Nat) :
    Nat → BntrState K n → Except Err (Option (BntrState K n))
  | 0, _ => .ok none
  | fuel + 1, s => do
    let r ← bntrTrial root eps broadcast inner o g h l u niter s
    if r.2 || r.1.converged then .ok (some r.1)
    else bntrInner root eps broadcast inner o g h l u niter fuel r.1

/-- The loop `for niter in range(maxiter + 1)`, bntr_fast.py:224-340: the state and the last value of
`niter`. The first argument is the number of passes that are left. -/
def bntrOuter (root : K → K) (eps : K) (broadcast : Bool) (inner : InnerSolver K) (o : BntrOptions K)
    (g : Vec K n) (h : Mat K n n) (l u : Vec K n) (fuel : Nat) :
    Nat → Nat → BntrState K n → Except Err (Option (BntrState K n × Nat))
  | 0, niter, s => .ok (some (s, niter - 1))
  | k + 1, niter, s => do
    if s.converged then .ok (some (s, niter))
    else
      match ← bntrInner root eps broadcast inner o g h l u niter fuel s with
      | none => .ok none
      | some s' => bntrOuter root eps broadcast inner o g h l u fuel k (niter + 1) s'

/-- The result of `bntr_fast`, bntr_fast.py:115-121. -/
structure BntrResult (K : Type) (n : Nat) where
  x : Vec K n
  criterion : K
  nIterations : Nat
  success : Bool
  message : Nat

/-- `bntr_fast`, bntr_fast.py:17-341, for models with square terms and a nonnegative `maxiter`. -/
def bntrFast (root : K → K) (eps : K) (broadcast : Bool) (inner : InnerSolver K) (o : BntrOptions K)
    (fuel : Nat) (g : Vec K n) (h : Mat K n n) (l u x : Vec K n) :
    Except Err (Option (BntrResult K n)) := do
  let s ← bntrPreliminary root eps o g h l u x
  match ← bntrOuter root eps broadcast inner o g h l u fuel (o.maxiter + 1) 0 s with
  | none => .ok none
  | some (s', niter) => .ok (some { x := s'.x, criterion := s'.f, nIterations := niter
                                    success := s'.converged, message := s'.reason })

/-! ## Helpers of `bntr.py` that are written differently -/

/-- `_apply_bounds_to_x_candidate`, bntr.py:757-762. -/
def applyBoundsNp (l u x : Vec K n) : Vec K n :=
  let y : Vec K n := fun i => if x i ≤ l i then l i else x i
  fun i => if u i ≤ y i then u i else y i

/-- The index sets of `_get_information_on_active_bounds`, bntr.py:668-689. -/
structure ActiveSets (n : Nat) where
  lower : List (Fin n)
  upper : List (Fin n)
  fixed : List (Fin n)
  active : List (Fin n)
  inactive : List (Fin n)

/-- `_get_information_on_active_bounds`, bntr.py:668-689. `union1d` and `setdiff1d` give sorted arrays
without repetitions. -/
def activeSets (x g l u : Vec K n) : ActiveSets n :=
  let lower := (List.finRange n).filter fun i => decide (x i ≤ l i) && decide (0 < g i)
  let upper := (List.finRange n).filter fun i => decide (u i ≤ x i) && decide (g i < 0)
  let fixed := (List.finRange n).filter fun i => decide (l i = u i)
  let active := (List.finRange n).filter fun i =>
    decide (i ∈ fixed) || decide (i ∈ lower) || decide (i ∈ upper)
  { lower := lower, upper := upper, fixed := fixed, active := active
    inactive := (List.finRange n).filter fun i => decide (i ∉ active) }

/-- `v[indices] = values` for a list of distinct indices, as in `cg_step[indices] = values`. -/
def setAt (v : Vec K n) (indices : List (Fin n)) (values : Vec K indices.length) : Vec K n := fun i =>
  if h : i ∈ indices then values ⟨indices.idxOf i, List.idxOf_lt_length_iff.2 h⟩ else v i

/-- `_apply_bounds_to_conjugate_gradient_step`, bntr.py:775-801. -/
def boundedStepNp (a : ActiveSets n) (l u x : Vec K n) (step : Vec K a.inactive.length) : Vec K n :=
  let s0 := setAt (fun _ => 0) a.inactive step
  let s1 := setAt s0 a.lower fun k => l (a.lower.get k) - x (a.lower.get k)
  let s2 := setAt s1 a.upper fun k => u (a.upper.get k) - x (a.upper.get k)
  setAt s2 a.fixed fun _ => 0

/-- `_get_fischer_burmeister_direction_vector`, bntr.py:892-903. -/
def fbDirectionNp (root : K → K) (x g l u : Vec K n) : Vec K n :=
  let fb : Vec K n := fun i =>
    [-(g i), x i - l i].foldl (fbScalar root) (u i - x i)
  fun i => if l i = u i then l i - x i else fb i

end Tranquilo
