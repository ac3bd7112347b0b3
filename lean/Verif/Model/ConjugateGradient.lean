import Verif.Model.Models

/-!
# Models of `_conjugate_gradient.py`, `_conjugate_gradient_fast.py` and `_steihaug_toint.py`

`root` is `np.sqrt`; `np.linalg.norm(v)` is `root (v @ v)`. Numbers are exact (no rounding).
-/

namespace Tranquilo

variable {K : Type} [Field K] [LinearOrder K] {n : Nat}

/-- `h @ d` for a matrix and a vector. -/
def matVec (h : Mat K n n) (d : Vec K n) : Vec K n := fun i => ∑ j, h i j * d j

/-- `d.T @ h @ d`. -/
def quadForm (h : Mat K n n) (d : Vec K n) : K := ∑ j, (∑ i, d i * h i j) * d j

/-- `np.linalg.norm`; for the numba solver `_norm` with `order=2`, gqtpar_fast.py:656-662. -/
def norm2 (root : K → K) (v : Vec K n) : K := root (dot v v)

/-- `_get_distance_to_trustregion_boundary`, _conjugate_gradient.py:99-125. -/
def cgDistance (root : K → K) (x d : Vec K n) (radius : K) : K :=
  (-(dot x d) + root (dot x d * dot x d + dot d d * (radius ^ 2 - dot x x))) / dot d d

/-- The vectors of the loop in `minimize_trust_cg`. -/
structure CgState (K : Type) (n : Nat) where
  x : Vec K n
  residual : Vec K n
  direction : Vec K n

/-- `_update_vectors_for_next_iteration`, _conjugate_gradient.py:68-96. -/
def cgUpdate (h : Mat K n n) (s : CgState K n) (alpha : K) : CgState K n :=
  let x : Vec K n := fun i => s.x i + alpha * s.direction i
  let hd := matVec h s.direction
  let residual : Vec K n := fun i => s.residual i + alpha * hd i
  let beta := dot residual residual / dot s.residual s.residual
  { x := x, residual := residual, direction := fun i => -(residual i) + beta * s.direction i }

/-- The loop of `minimize_trust_cg`, _conjugate_gradient.py:40-65. The distance and the update are
parameters, so that the same loop serves for the fast version. -/
def cgLoop (root : K → K) (distance : Vec K n → Vec K n → K → K)
    (update : Mat K n n → CgState K n → K → CgState K n) (h : Mat K n n) (radius stopTol : K) :
    Nat → CgState K n → Vec K n
  | 0, s => s.x
  | k + 1, s =>
    if norm2 root s.residual ≤ stopTol then s.x
    else
      let squareTerms := quadForm h s.direction
      let dist := distance s.x s.direction radius
      let stepSize := dot s.residual s.residual / squareTerms
      if squareTerms ≤ 0 ∨ dist < stepSize then fun i => s.x i + dist * s.direction i
      else cgLoop root distance update h radius stopTol k (update h s stepSize)

/-- The start of `minimize_trust_cg`, _conjugate_gradient.py:32-35. -/
def cgStart (g : Vec K n) : CgState K n :=
  { x := fun _ => 0, residual := g, direction := fun i => -(g i) }

/-- `minimize_trust_cg`, _conjugate_gradient.py:5-65. -/
def minimizeCg (root : K → K) (g : Vec K n) (h : Mat K n n) (radius gtolAbs gtolRel : K) : Vec K n :=
  cgLoop root (cgDistance root) cgUpdate h radius (max gtolAbs (gtolRel * norm2 root g)) (n * 2)
    (cgStart g)

/-! ## The version for numba -/

/-- The accumulators of the loop of `_get_distance_to_trustregion_boundary`,
_conjugate_gradient_fast.py:128-134: `cc`, `cd`, `dd`. -/
def cgDistanceSums (x d : Vec K n) : K × K × K :=
  (List.finRange n).foldl (fun acc i =>
    (acc.1 + x i ^ 2, acc.2.1 + x i * d i, acc.2.2 + d i ^ 2)) (0, 0, 0)

/-- `_get_distance_to_trustregion_boundary`, _conjugate_gradient_fast.py:108-138. -/
def cgDistanceFast (root : K → K) (x d : Vec K n) (radius : K) : K :=
  let sums := cgDistanceSums x d
  let cc := sums.1
  let cd := sums.2.1
  let dd := sums.2.2
  (-cd + root (cd * cd + dd * (radius ^ 2 - cc))) / dd

/-- The loop of `_update_vectors_for_next_iteration`, _conjugate_gradient_fast.py:90-101: the arrays
`x_candidate` (updated in place) and `residual_new`, and the sums `nom` and `denom`. -/
def cgUpdateLoop (h : Mat K n n) (s : CgState K n) (alpha : K) : Vec K n × Vec K n × K × K :=
  (List.finRange n).foldl (fun acc i =>
    let temp := (List.finRange n).foldl (fun t j => t + h i j * s.direction j) 0
    let new := temp * alpha + s.residual i
    (Function.update acc.1 i (acc.1 i + alpha * s.direction i), Function.update acc.2.1 i new,
      acc.2.2.1 + new * new, acc.2.2.2 + s.residual i * s.residual i))
    (s.x, fun _ => 0, 0, 0)

/-- `_update_vectors_for_next_iteration`, _conjugate_gradient_fast.py:70-105. -/
def cgUpdateFast (h : Mat K n n) (s : CgState K n) (alpha : K) : CgState K n :=
  let r := cgUpdateLoop h s alpha
  let beta := r.2.2.1 / r.2.2.2
  { x := r.1, residual := r.2.1, direction := fun i => -(r.2.1 i) + beta * s.direction i }

/-- `minimize_trust_cg_fast`, _conjugate_gradient_fast.py:6-67. -/
def minimizeCgFast (root : K → K) (g : Vec K n) (h : Mat K n n) (radius gtolAbs gtolRel : K) :
    Vec K n :=
  cgLoop root (cgDistanceFast root) cgUpdateFast h radius (max gtolAbs (gtolRel * norm2 root g))
    (n * 2) (cgStart g)

/-! ## Steihaug-Toint -/

/-- The variables of the loop in `minimize_trust_stcg`. `z`, `n_iter` other than for its limit, and the
flags do not influence the result. -/
structure StState (K : Type) (n : Nat) where
  x : Vec K n
  residual : Vec K n
  p : Vec K n
  rz : K
  kappa : K
  dp : K
  normD : K
  normP : K
  nIter : Nat

/-- `_take_step_to_trustregion_boundary`, _steihaug_toint.py:182-187. -/
def stBoundaryStep (root : K → K) (x p : Vec K n) (dp radiusSq normD normP : K) : Vec K n := fun i =>
  x i + (root (dp * dp + normP * (radiusSq - normD)) - dp) / normP * p i

/-- `_update_candidate_vector_and_iteration_number`, the new candidate, _steihaug_toint.py:148-179. The
second component says whether `n_iter` is increased. -/
def stFirstStep (root : K → K) (residual p : Vec K n) (rr radius normP : K) : Vec K n × Bool :=
  if radius ≠ 0 ∧ 0 < normP then (fun i => 0 + root (radius ^ 2 / normP) * p i, false)
  else if radius ≠ 0 then
    let alpha := if rr ≤ radius ^ 2 then 1 else root (radius ^ 2 / rr)
    (fun i => 0 + alpha * residual i, true)
  else (fun _ => 0, false)

/-- The loop of `minimize_trust_stcg`, _steihaug_toint.py:85-145, with `_check_convergence`, lines 190-199.
`normR0` and `ttol` are the norm of the gradient and the tolerance. `none` stands for a vector with NaN or infinite
entries, which arises for `kappa = 0`: then `alpha` is infinite (or NaN if `rz = 0`), `norm_dp1` is infinite if also `0 < norm_p`, else
NaN. `finished` is `converged or diverged` before the loop; these flags are never reset. -/
def stLoop (root : K → K) (h : Mat K n n) (radius normR0 ttol : K) (maxIter : Nat) :
    Nat → Bool → StState K n → Option (Vec K n)
  | 0, _, s => some s.x
  | k + 1, finished, s =>
    if s.kappa = 0 then
      if radius ≠ 0 ∧ 0 < s.rz ∧ 0 < s.normP then
        some (stBoundaryStep root s.x s.p s.dp (radius ^ 2) s.normD s.normP)
      else none
    else
    let alpha := s.rz / s.kappa
    let normDp1 := s.normD + alpha * (2 * s.dp + alpha * s.normP)
    if radius ≠ 0 ∧ radius ^ 2 ≤ normDp1 then
      some (if 0 < s.normP then stBoundaryStep root s.x s.p s.dp (radius ^ 2) s.normD s.normP else s.x)
    else
      let x : Vec K n := fun i => s.x i + alpha * s.p i
      let hp := matVec h s.p
      let residual : Vec K n := fun i => s.residual i - alpha * hp i
      let rz := dot residual residual
      let normR := norm2 root residual
      if finished = true ∨ normR ≤ ttol ∨ 10000 * normR0 ≤ normR then some x
      else
        let beta := rz / s.rz
        if |beta| ≤ 0 then some x
        else if maxIter ≤ s.nIter then some x
        else
          let p : Vec K n := fun i => residual i + beta * s.p i
          let dp := dot x p
          let normP := dot p p
          let kappa := dot p (matVec h p)
          let normD := dot x x
          if kappa ≤ 0 then
            some (if radius ≠ 0 ∧ 0 < normP then stBoundaryStep root x p dp (radius ^ 2) normD normP
              else x)
          else
            stLoop root h radius normR0 ttol maxIter k false
              { x := x, residual := residual, p := p, rz := rz, kappa := kappa, dp := dp
                normD := normD, normP := normP, nIter := s.nIter + 1 }

/-- `minimize_trust_stcg`, _steihaug_toint.py:5-145. `pinvMul h v` is `np.linalg.pinv(h) @ v`. -/
def minimizeSt (root : K → K) (pinvMul : Mat K n n → Vec K n → Vec K n) (g : Vec K n) (h : Mat K n n)
    (radius : K) : Option (Vec K n) :=
  let residual : Vec K n := fun i => -(g i)
  let rr := dot residual residual
  let normR := root rr
  let ttol := max (1 / 10 ^ 5 * normR) (1 / 10 ^ 50)
  let converged := decide (normR ≤ ttol)
  let diverged := !converged && decide (10000 * normR ≤ normR)
  let p := matVec h (pinvMul h residual)
  let kappa := dot p (matVec h p)
  let normP := dot p p
  let start := if kappa ≤ 0 then stFirstStep root residual p rr radius normP else (fun _ => 0, false)
  stLoop root h radius normR ttol (min n 10000) (min n 10000)
    (decide (kappa ≤ 0) || converged || diverged)
    { x := start.1, residual := residual, p := p, rz := rr, kappa := kappa, dp := 0, normD := 0
      normP := normP, nIter := if start.2 then 2 else 1 }

end Tranquilo
