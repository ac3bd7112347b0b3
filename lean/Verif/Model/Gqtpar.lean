import Verif.Model.ConjugateGradient
import Verif.Model.Subproblem
import Mathlib.Data.Finset.Lattice.Fold
import Mathlib.Algebra.Order.Group.Unbundled.Abs

/-!
# Model of `subsolvers/gqtpar_fast.py`

`gqtpar.py` is modelled in `Model/SlowSolvers.lean`.

Numbers are exact. LAPACK and scipy routines enter as the parameters `GqExternal`; what is assumed
about them is `GqSpec` in `Spec/Gqtpar.lean`. `root` is `np.sqrt`.
-/

namespace Tranquilo

variable {K : Type} [Field K] [LinearOrder K] {n : Nat}

/-- What `dpotrf` returns: the factor (partial if it failed) and `info`. -/
structure CholResult (K : Type) (n : Nat) where
  upper : Mat K n n
  info : Nat

/-- The library functions that gqtpar calls. -/
structure GqExternal (K : Type) (n : Nat) where
  /-- `scipy.linalg.lapack.dpotrf(a, lower=False, clean=True)` -/
  chol : Mat K n n → CholResult K n
  /-- `scipy.linalg.cho_solve((u, False), b)` -/
  choSolve : Mat K n n → Vec K n → Vec K n
  /-- `scipy.linalg.solve_triangular(u, b, trans="T")` -/
  solveTransposed : Mat K n n → Vec K n → Vec K n
  /-- `scipy.linalg.solve_triangular(u, b)` -/
  solveUpper : Mat K n n → Vec K n → Vec K n
  /-- `scipy.linalg.solve_triangular(u[:k, :k], b[:k])`, where entries of the result from `k` on are
  not used -/
  solveLeading : Nat → Mat K n n → Vec K n → Vec K n
  /-- `np.roots([a, b, c])` for a quadratic with two real roots -/
  roots : K → K → K → K × K

/-- `min` of the entries of a nonempty array (`np.min`, builtin `min`). For an empty array Python
raises; the model gives 0. -/
def vecMin (v : Vec K n) : K :=
  if h : (Finset.univ : Finset (Fin n)).Nonempty then Finset.univ.inf' h v else 0

/-- `max` of the entries of a nonempty array, 0 for an empty one. -/
def vecMax (v : Vec K n) : K :=
  if h : (Finset.univ : Finset (Fin n)).Nonempty then Finset.univ.sup' h v else 0

/-- `np.sum(np.abs(h), axis=1)`. -/
def absRowSum (h : Mat K n n) : Vec K n := fun i => ∑ j, |h i j|

/-- `_norm(h, np.Inf)` for a matrix: largest row sum of absolute values. -/
def infNorm (h : Mat K n n) : K := vecMax (absRowSum h)

/-- `_norm(h, -1)` for a matrix: Frobenius norm. -/
def froNorm (root : K → K) (h : Mat K n n) : K := root (∑ i, ∑ j, h i j ^ 2)

/-- First result of `_compute_gershgorin_bounds`, gqtpar_fast.py:403-407. -/
def gershgorinLower (h : Mat K n n) : K := vecMin fun i => h i i + |h i i| - absRowSum h i

/-- Second result of `_compute_gershgorin_bounds`, gqtpar_fast.py:403-408. -/
def gershgorinUpper (h : Mat K n n) : K := vecMax fun i => h i i - |h i i| + absRowSum h i

/-- `_get_new_lambda_candidate`, gqtpar_fast.py:367-384. -/
def newLambda (root : K → K) (lower upper : K) : K :=
  max (root (max 0 (lower * upper))) (lower + 1 / 100 * (upper - lower))

/-- `lambda_lower_bound` in `_get_initial_guess_for_lambdas`, gqtpar_fast.py:189-194. -/
def initialLower (root : K → K) (g : Vec K n) (h : Mat K n n) : K :=
  max 0 (max (-(vecMin fun i => h i i))
    (norm2 root g - min (gershgorinUpper h) (min (froNorm root h) (infNorm h))))

/-- `lambda_upper_bound` in `_get_initial_guess_for_lambdas`, gqtpar_fast.py:195-199. -/
def initialUpper (root : K → K) (g : Vec K n) (h : Mat K n n) : K :=
  max 0 (norm2 root g + min (-(gershgorinLower h)) (min (froNorm root h) (infNorm h)))

/-- `lambda_candidate` in `_get_initial_guess_for_lambdas`, gqtpar_fast.py:201-206. -/
def initialLambda (root : K → K) (g : Vec K n) (h : Mat K n n) : K :=
  if initialLower root g h = 0 then 0
  else newLambda root (initialLower root g h) (initialUpper root g h)

/-- `h + lam * np.eye(n)`, gqtpar_fast.py:227-229, 457; `_identity`, lines 666-668. -/
def addDiag (h : Mat K n n) (lam : K) : Mat K n n := fun i j => h i j + lam * (if i = j then 1 else 0)

/-- One pass of the loop of `_estimate_condition`, gqtpar_fast.py:591-602, on the arrays `p` and `w`. -/
def conditionStep (u : Mat K n n) (pw : Vec K n × Vec K n) (k : Fin n) : Vec K n × Vec K n :=
  let p := pw.1
  let w := pw.2
  let wp := (1 - p k) / u k k
  let wm := (-1 - p k) / u k k
  let pp : Vec K n := fun j => p j + u k j * wp
  let pm : Vec K n := fun j => p j + u k j * wm
  let tail (q : Vec K n) : K := ∑ j, if k < j then |q j| else 0
  if |wm| + tail pm ≤ |wp| + tail pp then
    (fun j => if k < j then pp j else p j, Function.update w k wp)
  else (fun j => if k < j then pm j else p j, Function.update w k wm)

/-- `_estimate_condition`, gqtpar_fast.py:563-603 (the matrix is square by its type). -/
def estimateCondition (u : Mat K n n) : Vec K n :=
  ((List.finRange n).foldl (conditionStep u) (fun _ => 0, fun _ => 0)).2

/-- `_estimate_smallest_singular_value`, gqtpar_fast.py:606-652: `(s_min, z_min)`. -/
def smallestSingular (root : K → K) (ext : GqExternal K n) (u : Mat K n n) : K × Vec K n :=
  let w := estimateCondition u
  let v := ext.solveUpper u w
  let vNorm := norm2 root v
  (norm2 root w / vNorm, fun i => v i / vNorm)

/-- `_compute_smallest_step_len_for_candidate_vector`, gqtpar_fast.py:487-511. -/
def stepLen (ext : GqExternal K n) (x z : Vec K n) : K :=
  let t := ext.roots (dot z z) (2 * dot x z) (dot x x - 1)
  if |t.1| ≤ |t.2| then t.1 else t.2

/-- `_compute_newton_step`, gqtpar_fast.py:413-428, and gqtpar.py:424-439. -/
def newtonStep (lam pNorm wNorm : K) : K := lam + (pNorm / wNorm) ^ 2 * (pNorm - 1)

/-- The variables of the loop in `gqtpar_fast`. -/
structure GqState (K : Type) (n : Nat) where
  x : Vec K n
  hPlus : Mat K n n
  fac : CholResult K n
  already : Bool
  lam : K
  lower : K
  upper : K
  converged : Bool

/-- `_update_candidate_and_parameters_when_candidate_within_trustregion`, gqtpar_fast.py:431-484.
As in the code, the factor of the Hessian at the Newton step is not kept: only whether the
factorization worked. -/
def withinUpdate (root : K → K) (ext : GqExternal K n) (h : Mat K n n) (kHard : K) (s : GqState K n)
    (newton : K) : GqState K n :=
  let sz := smallestSingular root ext s.fac.upper
  let step := stepLen ext s.x sz.2
  let relativeError := (step ^ 2 * sz.1 ^ 2) / (quadForm s.hPlus s.x + s.lam)
  let stop := relativeError ≤ kHard
  let lower := max s.lower (s.lam - sz.1 ^ 2)
  let hPlus := addDiag h newton
  let ok := (ext.chol hPlus).info = 0
  let lower' := if ok then lower else max lower newton
  { x := if stop then fun i => s.x i + step * sz.2 i else s.x
    hPlus := hPlus
    fac := s.fac
    already := if ok then true else s.already
    lam := if ok then newton else newLambda root lower' s.lam
    lower := lower'
    upper := s.lam
    converged := if stop then true else s.converged }

/-- `_find_new_candidate_and_update_parameters`, gqtpar_fast.py:240-307. -/
def findNew (root : K → K) (ext : GqExternal K n) (g : Vec K n) (h : Mat K n n) (kEasy kHard : K)
    (s : GqState K n) : GqState K n :=
  let x := ext.choSolve s.fac.upper fun i => -(g i)
  let xNorm := norm2 root x
  let converged := if xNorm ≤ 1 ∧ s.lam = 0 then true else s.converged
  let w := ext.solveTransposed s.fac.upper x
  let newton := newtonStep s.lam xNorm (norm2 root w)
  if xNorm < 1 then withinUpdate root ext h kHard { s with x := x, converged := converged } newton
  else
    { s with
      x := x
      converged := if |xNorm - 1| ≤ kEasy then true else converged
      lam := newton
      lower := s.lam }

/-- `_check_for_interior_convergence_and_update`, gqtpar_fast.py:310-341. -/
def interiorCheck (root : K → K) (ext : GqExternal K n) (kHard : K) (s : GqState K n) : GqState K n :=
  let sz := smallestSingular root ext s.fac.upper
  let x := if s.lam = 0 then fun _ => 0 else s.x
  let converged := if s.lam = 0 then true else s.converged
  let stepLen : K := 2
  let stop := stepLen ^ 2 * sz.1 ^ 2 ≤ kHard * s.lam
  let lower := max s.lower (s.upper - sz.1 ^ 2)
  { s with
    x := if stop then fun i => stepLen * sz.2 i else x
    converged := if stop then true else converged
    lower := lower
    lam := newLambda root lower s.lam
    upper := s.lam }

/-- `delta` in `_compute_terms_to_make_leading_submatrix_singular`, gqtpar_fast.py:546-549; `k` is the
index of the failing row counted from 0 (`info - 1`). -/
def singularDelta (u hPlus : Mat K n n) (k : Fin n) : K :=
  (∑ l, if l < k then u l k ^ 2 else 0) - hPlus k k

/-- `v` in `_compute_terms_to_make_leading_submatrix_singular`, gqtpar_fast.py:551-558. For `k = 0`
nothing is solved. -/
def singularVector (ext : GqExternal K n) (u : Mat K n n) (k : Fin n) : Vec K n := fun i =>
  if i < k then ext.solveLeading k u (fun l => -(u l k)) i else if i = k then 1 else 0

/-- `_update_lambdas_when_factorization_unsuccessful`, gqtpar_fast.py:344-364. `info` is between 1
and n; the model leaves the state alone for other values. -/
def failedUpdate (root : K → K) (ext : GqExternal K n) (s : GqState K n) : GqState K n :=
  if h : s.fac.info - 1 < n then
    let k : Fin n := ⟨s.fac.info - 1, h⟩
    let v := singularVector ext s.fac.upper k
    let lower := max s.lower (s.lam + singularDelta s.fac.upper s.hPlus k / norm2 root v ^ 2)
    { s with lower := lower, lam := newLambda root lower s.upper }
  else s

/-- The first statement of the loop, gqtpar_fast.py:80-87: factorize unless the flag says that the
stored factor is current. -/
def refactorize (ext : GqExternal K n) (h : Mat K n n) (s : GqState K n) : GqState K n :=
  if s.already then { s with already := false }
  else { s with hPlus := addDiag h s.lam, fac := ext.chol (addDiag h s.lam) }

/-- One pass of the loop, gqtpar_fast.py:79-139. -/
def gqIteration (root : K → K) (ext : GqExternal K n) (g : Vec K n) (h : Mat K n n)
    (zeroThreshold kEasy kHard : K) (s : GqState K n) : GqState K n :=
  let s := refactorize ext h s
  if s.fac.info = 0 ∧ zeroThreshold < norm2 root g then findNew root ext g h kEasy kHard s
  else if s.fac.info = 0 ∧ norm2 root g ≤ zeroThreshold then interiorCheck root ext kHard s
  else failedUpdate root ext s

/-- The loop, gqtpar_fast.py:79-142: the final state and the number of passes. -/
def gqLoop (step : GqState K n → GqState K n) : Nat → Nat → GqState K n → Nat × GqState K n
  | 0, k, s => (k, s)
  | m + 1, k, s =>
    let s' := step s
    if s'.converged then (k + 1, s') else gqLoop step m (k + 1) s'

/-- State before the loop, gqtpar_fast.py:55-77. `hPlus` and `fac` are not bound yet in the code;
the first pass of the loop assigns them before any use. -/
def gqStart (root : K → K) (g : Vec K n) (h : Mat K n n) (x0 : Vec K n) : GqState K n :=
  { x := x0, hPlus := h, fac := ⟨h, 0⟩, already := false, lam := initialLambda root g h
    lower := initialLower root g h, upper := initialUpper root g h, converged := false }

/-- `zero_threshold`, gqtpar_fast.py:62-64. -/
def gqThreshold (eps : K) (h : Mat K n n) : K := n * eps * infNorm h

/-- The loop applied to the state before it. -/
def gqRun (root : K → K) (ext : GqExternal K n) (eps kEasy kHard : K) (maxiter : Nat) (g : Vec K n)
    (h : Mat K n n) (x0 : Vec K n) : Nat × GqState K n :=
  gqLoop (gqIteration root ext g h (gqThreshold eps h) kEasy kHard) maxiter 0 (gqStart root g h x0)

/-- `gqtpar_fast`, gqtpar_fast.py:8-155. The value `criterion` of the result is not used by
`solve_subproblem`. A model without square terms has no attribute `shape` (AttributeError), and
`maxiter = 0` leaves `_niter` unbound. -/
def gqtpar (root : K → K) (ext : GqExternal K n) (eps kEasy kHard : K) (maxiter : Nat) :
    SubSolver K n := fun model x0 =>
  match model.squareTerms with
  | none => .error .attributeError
  | some h =>
    if maxiter = 0 then .error .unboundLocalError
    else
      let res := gqRun root ext eps kEasy kHard maxiter model.linearTerms h x0
      .ok { x := res.2.x, nIterations := res.1 - 1, success := res.2.converged }

end Tranquilo
