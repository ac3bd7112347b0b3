import Verif.Model.Bntr
import Mathlib.Algebra.Order.Floor.Semiring

/-!
# Model of `subsolvers/_trsbox_fast.py`

The quadratic trust region solver trsbox. `_trsbox.py` is modelled in
`Model/SlowSolvers.lean`. Numbers are exact, `root` is `np.sqrt`. The minimal curvature (`curve_min`) is not
modelled: it is not part of the result. Divisions of scalars whose divisor is not checked just before raise
a `ZeroDivisionError` (`checkedDiv`).
-/

namespace Tranquilo

/-- The values of `x_bounded`: 0, -1 and 1. -/
inductive Side where
  | free
  | lower
  | upper
deriving DecidableEq

variable {K : Type} [Field K] [LinearOrder K] {n : Nat}

/-- `a[x_bounded == 0] @ b[x_bounded == 0]`. -/
def freeDot (side : Fin n → Side) (a b : Vec K n) : K :=
  ∑ i, if side i = .free then a i * b i else 0

/-- `distance_to_boundary`, _trsbox_fast.py:384-388. -/
def boundaryDistance (root : K → K) (raw ps gx : K) : Except Err K :=
  if 0 ≤ gx then checkedDiv raw (root (ps * raw + gx ^ 2) + gx)
  else checkedDiv (root (ps * raw + gx ^ 2) - gx) ps

/-- `_take_unconstrained_step_up_to_boundary`, _trsbox_fast.py:379-397: the step length and the distance
to the boundary. -/
def trsboxDistance (root : K → K) (raw gs ps gx php : K) : Except Err (K × K) := do
  let dist ← boundaryDistance root raw ps gx
  if php ≤ 0 then .ok (dist, dist)
  else if dist ≤ gs / php then .ok (dist, dist)
  else .ok (gs / php, dist)

/-- One pass of the loop of `_take_constrained_step_up_to_boundary`, _trsbox_fast.py:455-467. -/
def limitStep (x p l u : Vec K n) (s : K × Option (Fin n)) (i : Fin n) : K × Option (Fin n) :=
  if p i = 0 then s
  else
    let c := if 0 < p i then (u i - x i) / p i else (l i - x i) / p i
    if c < s.1 then (c, some i) else s

/-- `_take_constrained_step_up_to_boundary`, _trsbox_fast.py:449-469. -/
def trsboxConstrained (x p l u : Vec K n) (step : K) : K × Option (Fin n) :=
  (List.finRange n).foldl (limitStep x p l u) (step, none)

/-- The variables of the conjugate gradient loop. -/
structure TrsState (K : Type) (n : Nat) where
  x : Vec K n
  side : Fin n → Side
  gradient : Vec K n
  projected : Vec K n
  total : K
  deltaSq : K
  beta : K
  gs : K
  gsInitial : K
  nIter : Nat
  nFixed : Nat
  maxIter : Int

/-- `gradient_projected`, _trsbox_fast.py:74-81. -/
def trsDirection (s : TrsState K n) : Vec K n := fun i =>
  if s.side i = .free then
    if s.beta = 0 then -(s.gradient i) else s.beta * s.projected i - s.gradient i
  else 0

/-- The state after lines 74-93 of _trsbox_fast.py. -/
def trsPrepare (s : TrsState K n) : TrsState K n :=
  let p := trsDirection s
  let gs := if s.beta = 0 then dot p p else s.gs
  { s with
    projected := p
    gs := gs
    maxIter := if s.beta = 0 then s.nIter + n - s.nFixed else s.maxIter
    gsInitial := if s.nIter = 0 then gs else s.gsInitial }

/-- The condition in lines 95-101 of _trsbox_fast.py. -/
def trsSmall (s : TrsState K n) : Prop :=
  (s.gs ≤ 1 / 10 ^ 6 * s.gsInitial ∧ s.gs ≤ 1 / 10 ^ 18) ∨
    (s.gs * s.deltaSq ≤ 1 / 10 ^ 6 * s.total ^ 2 ∧ s.gs * s.deltaSq ≤ 1 / 10 ^ 18)

instance (s : TrsState K n) : Decidable (trsSmall s) := by unfold trsSmall; infer_instance

/-- `current_reduction`, _trsbox_fast.py:127 and 433-435. -/
def trsReduction (s : TrsState K n) (php step : K) : K :=
  if 0 < step then max (step * (s.gs - 1 / 2 * step * php)) 0 else 0

/-- The state after a step along the projected gradient, _trsbox_fast.py:128-151 and 424-436. -/
def trsMove (h : Mat K n n) (php step : K) (s : TrsState K n) : TrsState K n :=
  if 0 < step then
    let gradient : Vec K n := fun i => s.gradient i + step * matVec h s.projected i
    { s with
      nIter := s.nIter + 1
      gradient := gradient
      x := fun i => s.x i + step * s.projected i
      gs := freeDot s.side gradient gradient
      total := s.total + trsReduction s php step }
  else s

/-- A parameter is fixed at the bound that stopped the step, _trsbox_fast.py:153-160. -/
def trsFix (i : Fin n) (s : TrsState K n) : TrsState K n :=
  { s with
    nFixed := s.nFixed + 1
    side := fun j => if j = i then (if 0 ≤ s.projected i then .upper else .lower) else s.side j
    deltaSq := s.deltaSq - s.x i ^ 2 }

/-- Lines 153-177 of _trsbox_fast.py, for the state `t` after the step. `gsOld` is `gradient_sumsq_old`. -/
def trsContinue (gsOld reduction step dist : K) (active : Option (Fin n)) (t : TrsState K n) :
    Except Err (TrsState K n × Option Bool) :=
  match active with
  | some i =>
    if (trsFix i t).deltaSq ≤ 0 then .ok (trsFix i t, some true)
    else .ok ({ trsFix i t with beta := 0 }, none)
  | none =>
    if dist ≤ step then .ok (t, some true)
    else if (t.nIter : Int) = t.maxIter ∨ reduction ≤ 1 / 10 ^ 6 * t.total then .ok (t, some false)
    else (checkedDiv t.gs gsOld).map fun beta => ({ t with beta := beta }, none)

/-- The step of one pass, _trsbox_fast.py:105-177. -/
def trsStep (root : K → K) (h : Mat K n n) (l u : Vec K n) (s : TrsState K n) :
    Except Err (TrsState K n × Option Bool) :=
  let gx := freeDot s.side s.projected s.x
  let php := freeDot s.side s.projected (matVec h s.projected)
  let raw := s.deltaSq - freeDot s.side s.x s.x
  if raw ≤ 0 then .ok (s, some true)
  else
    match trsboxDistance root raw s.gs (dot s.projected s.projected) gx php with
    | .error e => .error e
    | .ok d =>
      if d.1 ≤ 1 / 10 ^ 30 then .ok (s, some false)
      else
        let c := trsboxConstrained s.x s.projected l u d.1
        trsContinue s.gs (trsReduction s php c.1) c.1 d.2 c.2 (trsMove h php c.1 s)

/-- One pass of the conjugate gradient loop, _trsbox_fast.py:73-177. The second component is `none` if the
loop goes on, and `some need_alt_trust_step` at a `break`. -/
def trsPass (root : K → K) (h : Mat K n n) (l u : Vec K n) (s : TrsState K n) :
    Except Err (TrsState K n × Option Bool) :=
  if dot (trsDirection s) (trsDirection s) = 0 then
    .ok ({ s with projected := trsDirection s }, some false)
  else if trsSmall (trsPrepare s) then .ok (trsPrepare s, some false)
  else trsStep root h l u (trsPrepare s)

/-- The conjugate gradient loop, _trsbox_fast.py:72-177, with the number of passes that are left. -/
def trsLoop (root : K → K) (h : Mat K n n) (l u : Vec K n) :
    Nat → TrsState K n → Except Err (TrsState K n × Bool)
  | 0, s => .ok (s, false)
  | k + 1, s => do
    match ← trsPass root h l u s with
    | (t, some alt) => .ok (t, alt)
    | (t, none) => trsLoop root h l u k t

/-- `_apply_bounds_to_candidate_vector`, _trsbox_fast.py:357-376. -/
def trsboxBounds (side : Fin n → Side) (l u x : Vec K n) : Vec K n := fun i =>
  match side i with
  | .lower => l i
  | .upper => u i
  | .free => if x i ≤ l i then l i else if u i ≤ x i then u i else x i

/-! ## The alternative step -/

/-- `_calc_new_reduction`, _trsbox_fast.py:631-637. -/
def tangentReduction (shs xhx xhs xGrad sNorm tangent : K) : K :=
  let sine := 2 * tangent / (1 + tangent ^ 2)
  sine * (tangent * xGrad - sNorm - 1 / 2 * sine * (shs + tangent * (tangent * xhx - 2 * xhs)))

/-- The result of `_calc_upper_bound_on_tangent`: a free parameter is at a bound, or the bound on the
tangent with the parameter (and side) that restricts it. `index_active_bound` is not assigned if there is
none; numba initializes it with an empty array, `_trsbox.py` with `None`. -/
inductive TangentBound (K : Type) (n : Nat) where
  | reached (i : Fin n) (side : Side)
  | bound (tangent : K) (active : Option (Fin n × Side))

/-- Lines 504-510 and 512-518 of _trsbox_fast.py: restrict the tangent by one bound. `margin` is the
distance to the bound and `disc` is `ssq_lower` or `ssq_upper`, `towards` the component of the search
direction towards the bound. (`ssq` is positive in the division: the margin is.) -/
def restrictTangent (root : K → K) (margin disc towards : K) (who : Fin n × Side)
    (b : K × Option (Fin n × Side)) : K × Option (Fin n × Side) :=
  if 0 < disc then
    let ssq := root disc + towards
    if margin < b.1 * ssq then (margin / ssq, some who) else b
  else b

/-- The loop of `_calc_upper_bound_on_tangent`, _trsbox_fast.py:485-518. -/
def tangentLoop (root : K → K) (x s l u : Vec K n) (side : Fin n → Side) :
    List (Fin n) → K × Option (Fin n × Side) → TangentBound K n
  | [], b => .bound b.1 b.2
  | i :: rest, b =>
    if side i = .free then
      if x i - l i ≤ 0 then .reached i .lower
      else if u i - x i ≤ 0 then .reached i .upper
      else
        let ssq := x i ^ 2 + s i ^ 2
        let b1 := restrictTangent root (x i - l i) (ssq - l i ^ 2) (-(s i)) (i, .lower) b
        let b2 := restrictTangent root (u i - x i) (ssq - u i ^ 2) (s i) (i, .upper) b1
        tangentLoop root x s l u side rest b2
    else tangentLoop root x s l u side rest b

/-- The variables of the loop of `_calc_greatest_criterion_reduction`. -/
structure AngleState (K : Type) where
  maxReduction : K
  index : Option Nat
  previous : Option K
  next : Option K
  old : K

/-- `index_angle_greatest_reduction`, which is −1 before an angle is found, _trsbox_fast.py:545. -/
def angleIndex : Option Nat → Int
  | none => -1
  | some k => k

/-- One pass of the loop of `_calc_greatest_criterion_reduction`, _trsbox_fast.py:549-563. -/
def anglePass (reduction : K → K) (bound : K) (nAngles : Nat) (a : AngleState K) (i : Nat) :
    AngleState K :=
  let new := reduction (bound * (i + 1) / nAngles)
  if a.maxReduction < new then
    { a with maxReduction := new, index := some i, previous := some a.old, old := new }
  else if (i : Int) = angleIndex a.index + 1 then
    { a with next := some new, old := new }
  else { a with old := new }

/-- `_calc_greatest_criterion_reduction`, _trsbox_fast.py:530-572, without the tangent of the last pass. -/
def angleSearch (reduction : K → K) (bound : K) (nAngles : Nat) : AngleState K :=
  (List.range nAngles).foldl (anglePass reduction bound nAngles)
    { maxReduction := 0, index := none, previous := none, next := none, old := 0 }

/-- `_update_tangent`, _trsbox_fast.py:640-658. Arithmetic with `None` is a `TypeError`. -/
def updateTangent (bound : K) (nAngles k : Nat) (a : AngleState K) : Except Err K :=
  match a.previous, a.next with
  | some previous, some next => do
    let r ← checkedDiv (next - previous) (2 * a.maxReduction - previous - next)
    .ok (bound * (((k : K) + 1) + 1 / 2 * r) / nAngles)
  | _, _ => .error .typeError

/-- The tangent that is used, _trsbox_fast.py:292-300: the one of the last pass (line 550 with
`i = n_angles - 1`) if that was the best. -/
def chosenTangent (bound : K) (nAngles k : Nat) (a : AngleState K) : Except Err K :=
  if (k : Int) < (nAngles : Int) - 1 then updateTangent bound nAngles k a
  else .ok (bound * (((nAngles - 1 : Nat) : K) + 1) / nAngles)

/-- The variables of the two loops of the alternative step. -/
structure AltState (K : Type) (n : Nat) where
  x : Vec K n
  side : Fin n → Side
  gradient : Vec K n
  total : K
  nFixed : Nat

/-- `search_direction`, _trsbox_fast.py:614-628. -/
def altDirection (side : Fin n → Side) (x g : Vec K n) (xReduced xGrad rootRaw : K) : Vec K n := fun i =>
  if side i = .free then (xGrad * x i - xReduced * g i) / rootRaw else 0

/-- `cosine`, _trsbox_fast.py:302. -/
def tangentCosine (t : K) : K := (1 - t ^ 2) / (1 + t ^ 2)

/-- `sine`, _trsbox_fast.py:303. -/
def tangentSine (t : K) : K := 2 * t / (1 + t ^ 2)

/-- `_update_candidate_vectors_and_reduction_alt_step` for `x_candidate` and `gradient_candidate`, with line
326 for `total_reduction`, _trsbox_fast.py:575-611. -/
def altTurn (tangent current : K) (dir hs hRed : Vec K n) (s : AltState K n) : AltState K n :=
  { s with
    gradient := fun i =>
      s.gradient i + ((tangentCosine tangent - 1) * hRed i + tangentSine tangent * hs i)
    x := fun i =>
      if s.side i = .free then tangentCosine tangent * s.x i + tangentSine tangent * dir i else s.x i
    total := s.total + current }

/-- `hessian_reduced` after the step, _trsbox_fast.py:603. -/
def altHessian (tangent : K) (hs hRed : Vec K n) : Vec K n := fun i =>
  tangentCosine tangent * hRed i + tangentSine tangent * hs i

/-- A parameter is fixed in the alternative step, _trsbox_fast.py:332-333, 490-492 and 497-499. -/
def altFix (i : Fin n) (side : Side) (s : AltState K n) : AltState K n :=
  { s with nFixed := s.nFixed + 1, side := fun j => if j = i then side else s.side j }

/-- Lines 327-343 of _trsbox_fast.py: fix the parameter that restricts the tangent, stop or go on. -/
def altContinue (active : Option (Fin n × Side)) (last : Bool) (current : K) (hRed : Vec K n)
    (s : AltState K n) : AltState K n × Vec K n × Option Bool :=
  match active, last with
  | some a, true => (altFix a.1 a.2 s, hRed, some true)
  | _, _ => if current ≤ 1 / 100 * s.total then (s, hRed, some false) else (s, hRed, none)

/-- Lines 270-343 of _trsbox_fast.py: the step with the best angle. -/
def altStep [FloorSemiring K] (h : Mat K n n) (xGrad sNorm : K) (dir hRed : Vec K n) (bound : K)
    (active : Option (Fin n × Side)) (s : AltState K n) :
    Except Err (AltState K n × Vec K n × Option Bool) :=
  let reduction := tangentReduction (freeDot s.side dir (matVec h dir)) (freeDot s.side s.x hRed)
    (freeDot s.side s.x (matVec h dir)) xGrad sNorm
  let nAngles := ⌊17 * bound + 31 / 10⌋₊
  let a := angleSearch reduction bound nAngles
  match a.index with
  | none => .ok (s, hRed, some false)
  | some k =>
    match chosenTangent bound nAngles k a with
    | .error e => .error e
    | .ok tangent =>
      if reduction tangent ≤ 0 then .ok (s, hRed, some false)
      else
        .ok (altContinue active (decide ((k : Int) = (nAngles : Int) - 1)) (reduction tangent)
          (altHessian tangent (matVec h dir) hRed)
          (altTurn tangent (reduction tangent) dir (matVec h dir) hRed s))

/-- One pass of the inner loop of the alternative step, _trsbox_fast.py:234-343. `xReduced` and `hRed`
(`hessian_reduced`) are the variables of the same names; `x_grad` and `gradient_reduced` are always the
products of the current vectors, lines 225-228 and 599-602. The second component is `none` if the loop
goes on, and `some restart_alt_loop` at a `break`. -/
def altPass [FloorSemiring K] (root : K → K) (h : Mat K n n) (l u : Vec K n) (xReduced : K)
    (s : AltState K n) (hRed : Vec K n) : Except Err (AltState K n × Vec K n × Option Bool) :=
  let xGrad := freeDot s.side s.x s.gradient
  let raw := freeDot s.side s.gradient s.gradient * xReduced - xGrad ^ 2
  if raw ≤ 1 / 10 ^ 4 * s.total ^ 2 then .ok (s, hRed, some false)
  else
    let dir := altDirection s.side s.x s.gradient xReduced xGrad (root raw)
    match tangentLoop root s.x dir l u s.side (List.finRange n) (1, none) with
    | .reached i side => .ok (altFix i side s, hRed, some true)
    | .bound bound active => altStep h xGrad (-(root raw)) dir hRed bound active s

/-- The inner loop of the alternative step, _trsbox_fast.py:234-343: the state and `restart_alt_loop`. -/
def altInner [FloorSemiring K] (root : K → K) (h : Mat K n n) (l u : Vec K n) (xReduced : K) :
    Nat → AltState K n → Vec K n → Except Err (AltState K n × Bool)
  | 0, s, _ => .ok (s, false)
  | k + 1, s, hRed => do
    match ← altPass root h l u xReduced s hRed with
    | (t, _, some restart) => .ok (t, restart)
    | (t, hRed', none) => altInner root h l u xReduced k t hRed'

/-- The outer loop of the alternative step, _trsbox_fast.py:214-348. -/
def altOuter [FloorSemiring K] (root : K → K) (h : Mat K n n) (l u : Vec K n) (maxIter : Nat) :
    Nat → AltState K n → Except Err (AltState K n)
  | 0, s => .ok s
  | k + 1, s =>
    if (n : Int) - 1 ≤ s.nFixed then .ok { s with x := trsboxBounds s.side l u s.x }
    else do
      let hRed := matVec h fun i => if s.side i = .free then s.x i else 0
      match ← altInner root h l u (freeDot s.side s.x s.x) maxIter s hRed with
      | (t, true) => altOuter root h l u maxIter k t
      | (t, false) => .ok t

/-- The initial value of `x_bounded`, _trsbox_fast.py:56-58. -/
def trsboxSides (g l u : Vec K n) : Fin n → Side := fun i =>
  if u i ≤ 0 ∧ g i ≤ 0 then .upper else if 0 ≤ l i ∧ 0 ≤ g i then .lower else .free

/-- The initial values of the variables, _trsbox_fast.py:44-70. -/
def trsStart (g l u : Vec K n) (radius : K) : TrsState K n :=
  { x := fun _ => 0, side := trsboxSides g l u, gradient := g, projected := fun _ => 0, total := 0
    deltaSq := radius ^ 2, beta := 0, gs := 0, gsInitial := 0, nIter := 0, nFixed := 0
    maxIter := 100 * n ^ 2 }

/-- Lines 178-196 of _trsbox_fast.py, with `need_alt_trust_step`. -/
def trsFinish [FloorSemiring K] (root : K → K) (h : Mat K n n) (l u : Vec K n)
    (r : TrsState K n × Bool) : Except Err (Vec K n) :=
  if r.2 then do
    let t ← altOuter root h l u (100 * n ^ 2) (100 * n ^ 2)
      { x := r.1.x, side := r.1.side, gradient := r.1.gradient, total := r.1.total
        nFixed := r.1.nFixed }
    .ok (trsboxBounds t.side l u t.x)
  else .ok (trsboxBounds r.1.side l u r.1.x)

/-- `minimize_trust_trsbox_fast`, _trsbox_fast.py:6-196. -/
def minimizeTrsbox [FloorSemiring K] (root : K → K) (g : Vec K n) (h : Mat K n n) (radius : K)
    (l u : Vec K n) : Except Err (Vec K n) := do
  let r ← trsLoop root h l u (100 * n ^ 2) (trsStart g l u radius)
  trsFinish root h l u r

/-- The inner solver "trsbox" of bntr, bntr_fast.py:621-629: the bounds are those of the parameters, not
of the step. -/
def innerTrsbox [FloorSemiring K] (root : K → K) : InnerSolver K := fun _ g h radius l u =>
  minimizeTrsbox root g h radius l u

end Tranquilo
