import Verif.Model.Trsbox
import Verif.Model.Gqtpar

/-!
# The other versions of the subsolvers

`_trsbox.py` and `gqtpar.py` (numpy) beside `_trsbox_fast.py` and `gqtpar_fast.py` (numba), and
`_steihaug_toint_fast.py` beside `_steihaug_toint.py`. Helpers whose text is the same in both versions are
shared; the comments of the definitions below name the lines of the version modelled here.
-/

namespace Tranquilo

variable {K : Type} [Field K] [LinearOrder K] {n : Nat}

/-! ## Steihaug-Toint for numba -/

/-- The loop of `minimize_trust_stcg_fast`, _steihaug_toint_fast.py:90-150, with `_check_convergence`, lines 198-207.
In contrast to numpy, numba raises a `ZeroDivisionError` for a division of scalars by zero (`alpha` in line 91, `beta` in line 121). -/
def stLoopFast (root : K → K) (h : Mat K n n) (radius normR0 ttol : K) (maxIter : Nat) :
    Nat → Bool → StState K n → Except Err (Vec K n)
  | 0, _, s => .ok s.x
  | k + 1, finished, s => do
    let alpha ← checkedDiv s.rz s.kappa
    let normDp1 := s.normD + alpha * (2 * s.dp + alpha * s.normP)
    if radius ≠ 0 ∧ radius ^ 2 ≤ normDp1 then
      .ok (if 0 < s.normP then stBoundaryStep root s.x s.p s.dp (radius ^ 2) s.normD s.normP else s.x)
    else
      let x : Vec K n := fun i => s.x i + alpha * s.p i
      let hp := matVec h s.p
      let residual : Vec K n := fun i => s.residual i - alpha * hp i
      let rz := dot residual residual
      let normR := norm2 root residual
      if finished = true ∨ normR ≤ ttol ∨ 10000 * normR0 ≤ normR then .ok x
      else do
        let beta ← checkedDiv rz s.rz
        if |beta| ≤ 0 then .ok x
        else if maxIter ≤ s.nIter then .ok x
        else
          let p : Vec K n := fun i => residual i + beta * s.p i
          let dp := dot x p
          let normP := dot p p
          let kappa := dot p (matVec h p)
          let normD := dot x x
          if kappa ≤ 0 then
            .ok (if radius ≠ 0 ∧ 0 < normP then stBoundaryStep root x p dp (radius ^ 2) normD normP
              else x)
          else
            stLoopFast root h radius normR0 ttol maxIter k false
              { x := x, residual := residual, p := p, rz := rz, kappa := kappa, dp := dp
                normD := normD, normP := normP, nIter := s.nIter + 1 }

/-- `ttol`, _steihaug_toint_fast.py:55-58. -/
def stTolFast (normR0 : K) : K :=
  if 1 / 10 ^ 50 ≤ 1 / 10 ^ 5 * normR0 then 1 / 10 ^ 5 * normR0 else 1 / 10 ^ 50

/-- `minimize_trust_stcg_fast`, _steihaug_toint_fast.py:6-150, with
`_update_candidate_vector_and_iteration_number` (lines 153-185, the text of `stFirstStep`),
`_take_step_to_trustregion_boundary` (lines 188-194, `stBoundaryStep`) and `_check_convergence` (lines
197-207). -/
def minimizeStFast (root : K → K) (pinvMul : Mat K n n → Vec K n → Vec K n) (g : Vec K n)
    (h : Mat K n n) (radius : K) : Except Err (Vec K n) :=
  let residual : Vec K n := fun i => -(g i)
  let rr := dot residual residual
  let normR := root rr
  let ttol := stTolFast normR
  let converged := decide (normR ≤ ttol)
  let diverged := !converged && decide (10000 * normR ≤ normR)
  let p := matVec h (pinvMul h residual)
  let kappa := dot p (matVec h p)
  let normP := dot p p
  let start := if kappa ≤ 0 then stFirstStep root residual p rr radius normP else (fun _ => 0, false)
  stLoopFast root h radius normR ttol (min n 10000) (min n 10000)
    (decide (kappa ≤ 0) || converged || diverged)
    { x := start.1, residual := residual, p := p, rz := rr, kappa := kappa, dp := 0, normD := 0
      normP := normP, nIter := if start.2 then 2 else 1 }

/-! ## trsbox for numpy

A division of scalars by zero gives an infinite value or NaN in numpy; what the code does with it is not
modelled: it is the same error value as in `Model/Trsbox.lean` (and does not occur, C74). -/

/-- The condition in lines 94-96 of _trsbox.py. -/
def trsSmallNp (s : TrsState K n) : Prop :=
  s.gs ≤ min (1 / 10 ^ 6 * s.gsInitial) (1 / 10 ^ 18) ∨
    s.gs * s.deltaSq ≤ min (1 / 10 ^ 6 * s.total ^ 2) (1 / 10 ^ 18)

instance (s : TrsState K n) : Decidable (trsSmallNp s) := by unfold trsSmallNp; infer_instance

/-- `_take_unconstrained_step_up_to_boundary`, _trsbox.py:366-382. -/
def trsboxDistanceNp (root : K → K) (raw gs ps gx php : K) : Except Err (K × K) := do
  let dist ← boundaryDistance root raw ps gx
  if php ≤ 0 then .ok (dist, dist) else .ok (min dist (gs / php), dist)

/-- The step of one pass, _trsbox.py:100-173, with `_take_constrained_step_up_to_boundary` (lines 433-454,
`trsboxConstrained`) and `_update_candidate_vectors_and_reduction` (lines 385-430, `trsMove`). -/
def trsStepNp (root : K → K) (h : Mat K n n) (l u : Vec K n) (s : TrsState K n) :
    Except Err (TrsState K n × Option Bool) :=
  let gx := freeDot s.side s.projected s.x
  let php := freeDot s.side s.projected (matVec h s.projected)
  let raw := s.deltaSq - freeDot s.side s.x s.x
  if raw ≤ 0 then .ok (s, some true)
  else
    match trsboxDistanceNp root raw s.gs (dot s.projected s.projected) gx php with
    | .error e => .error e
    | .ok d =>
      if d.1 ≤ 1 / 10 ^ 30 then .ok (s, some false)
      else
        let c := trsboxConstrained s.x s.projected l u d.1
        trsContinue s.gs (trsReduction s php c.1) c.1 d.2 c.2 (trsMove h php c.1 s)

/-- One pass of the conjugate gradient loop, _trsbox.py:73-173. -/
def trsPassNp (root : K → K) (h : Mat K n n) (l u : Vec K n) (s : TrsState K n) :
    Except Err (TrsState K n × Option Bool) :=
  if dot (trsDirection s) (trsDirection s) = 0 then
    .ok ({ s with projected := trsDirection s }, some false)
  else if trsSmallNp (trsPrepare s) then .ok (trsPrepare s, some false)
  else trsStepNp root h l u (trsPrepare s)

/-- The conjugate gradient loop, _trsbox.py:72-173. -/
def trsLoopNp (root : K → K) (h : Mat K n n) (l u : Vec K n) :
    Nat → TrsState K n → Except Err (TrsState K n × Bool)
  | 0, s => .ok (s, false)
  | k + 1, s => do
    match ← trsPassNp root h l u s with
    | (t, some alt) => .ok (t, alt)
    | (t, none) => trsLoopNp root h l u k t

/-- `_apply_bounds_to_candidate_vector`, _trsbox.py:352-363. The arguments of `np.clip` are permuted in
the code: it clips the lower bounds to the interval from the candidate to the upper bounds. -/
def trsboxBoundsNp (side : Fin n → Side) (l u x : Vec K n) : Vec K n := fun i =>
  match side i with
  | .lower => l i
  | .upper => u i
  | .free => npClip (l i) (x i) (u i)

/-- `_update_candidate_vectors_and_reduction_alt_step`, _trsbox.py:560-595, with line 324 for
`total_reduction`. -/
def altTurnNp (tangent current : K) (dir hs hRed : Vec K n) (s : AltState K n) : AltState K n :=
  { s with
    gradient := fun i =>
      s.gradient i + (tangentCosine tangent - 1) * hRed i + tangentSine tangent * hs i
    x := fun i =>
      if s.side i = .free then tangentCosine tangent * s.x i + tangentSine tangent * dir i else s.x i
    total := s.total + current }

/-- Lines 264-338 of _trsbox.py, with `_calc_greatest_criterion_reduction` (lines 516-557, `angleSearch`),
`_update_tangent` (lines 622-639, `updateTangent`) and `_calc_new_reduction` (lines 614-619,
`tangentReduction`). -/
def altStepNp [FloorSemiring K] (h : Mat K n n) (xGrad sNorm : K) (dir hRed : Vec K n) (bound : K)
    (active : Option (Fin n × Side)) (s : AltState K n) :
    Except Err (AltState K n × Vec K n × Option Bool) :=
  let reduction := tangentReduction (freeDot s.side dir (matVec h dir)) (freeDot s.side s.x hRed)
    (freeDot s.side s.x (matVec h dir)) xGrad sNorm
  let nAngles := ⌊17 * bound + 31 / 10⌋₊
  let a := angleSearch reduction bound nAngles
  match a.index with
  | none => .ok (s, hRed, some false)
  | some k =>
    match chosenTangent bound nAngles k a with
    | .error e => .error e
    | .ok tangent =>
      if reduction tangent ≤ 0 then .ok (s, hRed, some false)
      else
        .ok (altContinue active (decide ((k : Int) = (nAngles : Int) - 1)) (reduction tangent)
          (altHessian tangent (matVec h dir) hRed)
          (altTurnNp tangent (reduction tangent) dir (matVec h dir) hRed s))

/-- One pass of the inner loop of the alternative step, _trsbox.py:230-338, with
`_compute_new_search_direction_and_norm` (lines 598-611, `altDirection`) and
`_calc_upper_bound_on_tangent` (lines 457-513, `tangentLoop`). -/
def altPassNp [FloorSemiring K] (root : K → K) (h : Mat K n n) (l u : Vec K n) (xReduced : K)
    (s : AltState K n) (hRed : Vec K n) : Except Err (AltState K n × Vec K n × Option Bool) :=
  let xGrad := freeDot s.side s.x s.gradient
  let raw := freeDot s.side s.gradient s.gradient * xReduced - xGrad ^ 2
  if raw ≤ 1 / 10 ^ 4 * s.total ^ 2 then .ok (s, hRed, some false)
  else
    let dir := altDirection s.side s.x s.gradient xReduced xGrad (root raw)
    match tangentLoop root s.x dir l u s.side (List.finRange n) (1, none) with
    | .reached i side => .ok (altFix i side s, hRed, some true)
    | .bound bound active => altStepNp h xGrad (-(root raw)) dir hRed bound active s

/-- The inner loop of the alternative step, _trsbox.py:229-338. -/
def altInnerNp [FloorSemiring K] (root : K → K) (h : Mat K n n) (l u : Vec K n) (xReduced : K) :
    Nat → AltState K n → Vec K n → Except Err (AltState K n × Bool)
  | 0, s, _ => .ok (s, false)
  | k + 1, s, hRed => do
    match ← altPassNp root h l u xReduced s hRed with
    | (t, _, some restart) => .ok (t, restart)
    | (t, hRed', none) => altInnerNp root h l u xReduced k t hRed'

/-- The outer loop of the alternative step, _trsbox.py:209-343. -/
def altOuterNp [FloorSemiring K] (root : K → K) (h : Mat K n n) (l u : Vec K n) (maxIter : Nat) :
    Nat → AltState K n → Except Err (AltState K n)
  | 0, s => .ok s
  | k + 1, s =>
    if (n : Int) - 1 ≤ s.nFixed then .ok { s with x := trsboxBoundsNp s.side l u s.x }
    else do
      let hRed := matVec h fun i => if s.side i = .free then s.x i else 0
      match ← altInnerNp root h l u (freeDot s.side s.x s.x) maxIter s hRed with
      | (t, true) => altOuterNp root h l u maxIter k t
      | (t, false) => .ok t

/-- Lines 175-192 of _trsbox.py. -/
def trsFinishNp [FloorSemiring K] (root : K → K) (h : Mat K n n) (l u : Vec K n)
    (r : TrsState K n × Bool) : Except Err (Vec K n) :=
  if r.2 then do
    let t ← altOuterNp root h l u (100 * n ^ 2) (100 * n ^ 2)
      { x := r.1.x, side := r.1.side, gradient := r.1.gradient, total := r.1.total
        nFixed := r.1.nFixed }
    .ok (trsboxBoundsNp t.side l u t.x)
  else .ok (trsboxBoundsNp r.1.side l u r.1.x)

/-- `minimize_trust_trsbox`, _trsbox.py:5-192. -/
def minimizeTrsboxNp [FloorSemiring K] (root : K → K) (g : Vec K n) (h : Mat K n n) (radius : K)
    (l u : Vec K n) : Except Err (Vec K n) := do
  let r ← trsLoopNp root h l u (100 * n ^ 2) (trsStart g l u radius)
  trsFinishNp root h l u r

/-! ## gqtpar for numpy -/

/-- `HessianInfo`, gqtpar.py:10-13. The arrays are `None` before the first pass of the loop, which assigns
them before any use; the model has some matrices there. -/
structure HessianInfo (K : Type) (n : Nat) where
  plusLambda : Mat K n n
  upper : Mat K n n
  already : Bool

/-- `DampingFactors`, gqtpar.py:16-19. -/
structure DampingFactors (K : Type) where
  candidate : K
  lowerBound : K
  upperBound : K

/-- The variables of the loop in `gqtpar`; `info` is `factorization_info`. -/
structure GqNpState (K : Type) (n : Nat) where
  x : Vec K n
  hessian : HessianInfo K n
  info : Nat
  lambdas : DampingFactors K
  converged : Bool

/-- `_get_new_lambda_candidate`, gqtpar.py:374-390; `np.clip(a, 0, np.inf)` is the larger of `a` and 0. -/
def newLambdaNp (root : K → K) (lower upper : K) : K :=
  max (root (max (lower * upper) 0)) (lower + 1 / 100 * (upper - lower))

/-- `_get_initial_guess_for_lambdas`, gqtpar.py:148-209, with `_compute_gershgorin_bounds` (lines 393-421). -/
def initialLambdasNp (root : K → K) (g : Vec K n) (h : Mat K n n) : DampingFactors K :=
  let lower := max 0 (max (-(vecMin fun i => h i i))
    (norm2 root g - min (gershgorinUpper h) (min (froNorm root h) (infNorm h))))
  let upper := max 0 (norm2 root g + min (-(gershgorinLower h)) (min (froNorm root h) (infNorm h)))
  { candidate := if lower = 0 then 0 else newLambdaNp root lower upper
    lowerBound := lower
    upperBound := upper }

/-- `_solve_scalar_quadratic_equation`, gqtpar.py:533-569 (`np.copysign` for `b = 0` depends on the sign of
the zero; the sorted pair does not). -/
def sphereRootsNp (root : K → K) (z d : Vec K n) : K × K :=
  let a := dot d d
  let b := 2 * dot z d
  let c := dot z z - 1
  let rootDisc := root (b * b - 4 * a * c)
  let aux := b + if 0 ≤ b then rootDisc else -rootDisc
  let ta := -aux / (2 * a)
  let tb := -2 * c / aux
  if ta ≤ tb then (ta, tb) else (tb, ta)

/-- `_compute_smallest_step_len_for_candidate_vector`, gqtpar.py:512-530: `min` with `key=abs` returns the
first of two values with the same key. -/
def stepLenNp (root : K → K) (x z : Vec K n) : K :=
  let t := sphereRootsNp root x z
  if |t.1| ≤ |t.2| then t.1 else t.2

/-- `_update_candidate_and_parameters_when_candidate_within_trustregion`, gqtpar.py:442-495. `singular` is
`estimate_smallest_singular_value` of scipy. -/
def withinUpdateNp (root : K → K) (ext : GqExternal K n) (singular : Mat K n n → K × Vec K n)
    (h : Mat K n n) (kHard : K) (s : GqNpState K n) (newton : K) : GqNpState K n :=
  let sz := singular s.hessian.upper
  let step := stepLenNp root s.x sz.2
  let quadratic := quadForm s.hessian.plusLambda s.x
  let stop := (step ^ 2 * sz.1 ^ 2) / (quadratic + s.lambdas.candidate) ≤ kHard
  let lower := max s.lambdas.lowerBound (s.lambdas.candidate - sz.1 ^ 2)
  let plusLambda := addDiag h newton
  let ok := (ext.chol plusLambda).info = 0
  let lower' := if ok then lower else max lower newton
  { x := if stop then fun i => s.x i + step * sz.2 i else s.x
    hessian :=
      { plusLambda := plusLambda
        upper := s.hessian.upper
        already := if ok then true else s.hessian.already }
    info := s.info
    lambdas :=
      { candidate := if ok then newton else newLambdaNp root lower' s.lambdas.candidate
        lowerBound := lower'
        upperBound := s.lambdas.candidate }
    converged := if stop then true else s.converged }

/-- `_update_lambdas_when_candidate_outside_trustregion`, gqtpar.py:498-509. -/
def outsideUpdateNp (kEasy : K) (s : GqNpState K n) (newton pNorm : K) : GqNpState K n :=
  { s with
    lambdas := { s.lambdas with candidate := newton, lowerBound := s.lambdas.candidate }
    converged := if |pNorm - 1| ≤ kEasy then true else s.converged }

/-- `_find_new_candidate_and_update_parameters`, gqtpar.py:262-313, with `_compute_newton_step` (lines
424-439). -/
def findNewNp (root : K → K) (ext : GqExternal K n) (singular : Mat K n n → K × Vec K n) (g : Vec K n)
    (h : Mat K n n) (kEasy kHard : K) (s : GqNpState K n) : GqNpState K n :=
  let x := ext.choSolve s.hessian.upper fun i => -(g i)
  let xNorm := norm2 root x
  let s' : GqNpState K n :=
    { s with
      x := x
      converged := if xNorm ≤ 1 ∧ s.lambdas.candidate = 0 then true else s.converged }
  let w := ext.solveTransposed s.hessian.upper x
  let newton := newtonStep s.lambdas.candidate xNorm (norm2 root w)
  if xNorm < 1 then withinUpdateNp root ext singular h kHard s' newton
  else outsideUpdateNp kEasy s' newton xNorm

/-- `_check_for_interior_convergence_and_update`, gqtpar.py:316-346. -/
def interiorCheckNp (root : K → K) (singular : Mat K n n → K × Vec K n) (kHard : K)
    (s : GqNpState K n) : GqNpState K n :=
  let sz := singular s.hessian.upper
  let x := if s.lambdas.candidate = 0 then fun _ => 0 else s.x
  let converged := if s.lambdas.candidate = 0 then true else s.converged
  let stop := (2 : K) ^ 2 * sz.1 ^ 2 ≤ kHard * s.lambdas.candidate
  let lower := max s.lambdas.lowerBound (s.lambdas.upperBound - sz.1 ^ 2)
  { s with
    x := if stop then fun i => 2 * sz.2 i else x
    converged := if stop then true else converged
    lambdas :=
      { candidate := newLambdaNp root lower s.lambdas.candidate
        lowerBound := lower
        upperBound := s.lambdas.candidate } }

/-- `_update_lambdas_when_factorization_unsuccessful`, gqtpar.py:349-371, with
`_compute_terms_to_make_leading_submatrix_singular` (lines 572-618, `singularDelta` and `singularVector`).
As in `failedUpdate` the state is left alone for values of `info` that do not occur. -/
def failedUpdateNp (root : K → K) (ext : GqExternal K n) (s : GqNpState K n) : GqNpState K n :=
  if h : s.info - 1 < n then
    let k : Fin n := ⟨s.info - 1, h⟩
    let v := singularVector ext s.hessian.upper k
    let lower := max s.lambdas.lowerBound
      (s.lambdas.candidate + singularDelta s.hessian.upper s.hessian.plusLambda k / norm2 root v ^ 2)
    { s with
      lambdas :=
        { s.lambdas with
          candidate := newLambdaNp root lower s.lambdas.upperBound
          lowerBound := lower } }
  else s

/-- Lines 90-95 of gqtpar.py with `add_lambda_and_factorize_hessian`, lines 212-259. -/
def refactorizeNp (ext : GqExternal K n) (h : Mat K n n) (s : GqNpState K n) : GqNpState K n :=
  if s.hessian.already then { s with hessian := { s.hessian with already := false } }
  else
    let plusLambda := addDiag h s.lambdas.candidate
    { s with
      hessian := { s.hessian with plusLambda := plusLambda, upper := (ext.chol plusLambda).upper }
      info := (ext.chol plusLambda).info }

/-- One pass of the loop, gqtpar.py:89-129. -/
def gqIterationNp (root : K → K) (ext : GqExternal K n) (singular : Mat K n n → K × Vec K n)
    (g : Vec K n) (h : Mat K n n) (zeroThreshold kEasy kHard : K) (s : GqNpState K n) :
    GqNpState K n :=
  let s := refactorizeNp ext h s
  if s.info = 0 ∧ zeroThreshold < norm2 root g then findNewNp root ext singular g h kEasy kHard s
  else if s.info = 0 ∧ norm2 root g ≤ zeroThreshold then interiorCheckNp root singular kHard s
  else failedUpdateNp root ext s

/-- The loop, gqtpar.py:89-132: the number of passes and the final state. -/
def gqLoopNp (step : GqNpState K n → GqNpState K n) : Nat → Nat → GqNpState K n → Nat × GqNpState K n
  | 0, k, s => (k, s)
  | m + 1, k, s =>
    let s' := step s
    if s'.converged then (k + 1, s') else gqLoopNp step m (k + 1) s'

/-- State before the loop, gqtpar.py:69-87. -/
def gqStartNp (root : K → K) (g : Vec K n) (h : Mat K n n) (x0 : Vec K n) : GqNpState K n :=
  { x := x0
    hessian := { plusLambda := h, upper := h, already := false }
    info := 0
    lambdas := initialLambdasNp root g h
    converged := false }

/-- `gqtpar`, gqtpar.py:22-145. -/
def gqtparNp (root : K → K) (ext : GqExternal K n) (singular : Mat K n n → K × Vec K n)
    (eps kEasy kHard : K) (maxiter : Nat) : SubSolver K n := fun model x0 =>
  match model.squareTerms with
  | none => .error .attributeError
  | some h =>
    if maxiter = 0 then .error .unboundLocalError
    else
      let res := gqLoopNp
        (gqIterationNp root ext singular model.linearTerms h (n * eps * infNorm h) kEasy kHard) maxiter 0
        (gqStartNp root model.linearTerms h x0)
      .ok { x := res.2.x, nIterations := res.1 - 1, success := res.2.converged }

end Tranquilo
