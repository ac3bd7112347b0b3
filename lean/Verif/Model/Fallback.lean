import Verif.Model.Subproblem
import Verif.Model.ConjugateGradient

/-!
# Model of `subsolvers/fallback_subsolvers.py`

`scipy.optimize.minimize` is a parameter. The random start values of the multistart solver are an
arbitrary list.
-/

namespace Tranquilo

variable {K : Type} [Field K] [LinearOrder K] {n : Nat}

/-- The attributes of a scipy result that are used. -/
structure ScipyResult (K : Type) (n : Nat) where
  x : Vec K n
  value : K
  nit : Nat

/-- `scipy.optimize.minimize(crit, x0, bounds=Bounds(lower, upper), ...)`. -/
abbrev ScipyMinimize (K : Type) (n : Nat) :=
  (Vec K n → K) → Vec K n → Vec K n → Vec K n → ScipyResult K n

/-- `_crit` in `_get_crit_and_grad`, fallback_subsolvers.py:173-183: evaluates to a `TypeError` for
models without square terms. -/
def fallbackCrit (model : ScalarModel K n) : Except Err (Vec K n → K) :=
  match model.squareTerms with
  | none => .error .typeError
  | some h => .ok fun x => model.intercept + dot x model.linearTerms + halfQuad h x

/-- The result of `robust_cube_solver` including the field `criterion`. -/
structure CubeSolution (K : Type) (n : Nat) where
  x : Vec K n
  criterion : K
  nIterations : Nat

/-- `robust_cube_solver`, fallback_subsolvers.py:11-38. -/
def robustCube (scipy : ScipyMinimize K n) (radius : K) (model : ScalarModel K n) (x0 : Vec K n) :
    Except Err (CubeSolution K n) := do
  let crit ← fallbackCrit model
  let res := scipy crit x0 (fun _ => -radius) (fun _ => radius)
  return { x := res.x, criterion := res.value, nIterations := res.nit }

/-- `robust_cube_solver` with the default radius as a cube solver. -/
def fallbackCubeSolver (scipy : ScipyMinimize K n) : SubSolver K n := fun model x0 =>
  (robustCube scipy 1 model x0).map fun r => ⟨r.x, r.nIterations, true⟩

/-- `robust_sphere_solver_inscribed_cube`, fallback_subsolvers.py:80-89. -/
def inscribedCubeSolver (root : K → K) (scipy : ScipyMinimize K n) : SubSolver K n := fun model x0 =>
  (robustCube scipy (1 / root n) model x0).map fun r => ⟨r.x, r.nIterations, true⟩

/-- Projection on the unit ball, fallback_subsolvers.py:103-107 and 123-128. -/
def projectToBall (root : K → K) (x : Vec K n) : Vec K n :=
  if norm2 root x ≤ 1 then x else fun i => x i / norm2 root x

/-- `robust_sphere_solver_reparametrized`, fallback_subsolvers.py:92-135. -/
def reparametrizedSolver (root : K → K) (scipy : ScipyMinimize K n) : SubSolver K n := fun model x0 =>
  let res := scipy (fun x => model.predict (projectToBall root x)) x0 (fun _ => -1) (fun _ => 1)
  .ok ⟨projectToBall root res.x, res.nit, true⟩

/-- The loop of `robust_cube_solver_multistart`, fallback_subsolvers.py:53-64; `none` is the start
value `best_crit = np.inf`, `accepted_x = None`. -/
def multistartLoop (run : Vec K n → Except Err (CubeSolution K n)) :
    List (Vec K n) → Option (Vec K n × K) → Except Err (Option (Vec K n × K))
  | [], best => .ok best
  | x :: rest, best =>
    match run x with
    | .error e => .error e
    | .ok res =>
      match best with
      | none => multistartLoop run rest (some (res.x, res.criterion))
      | some b =>
        if res.criterion ≤ b.2 then multistartLoop run rest (some (res.x, res.criterion))
        else multistartLoop run rest (some b)

/-- `robust_cube_solver_multistart`, fallback_subsolvers.py:41-72. -/
def multistart (scipy : ScipyMinimize K n) (starts : List (Vec K n)) (model : ScalarModel K n) :
    Except Err (Option (Vec K n × K)) :=
  multistartLoop (robustCube scipy 1 model) starts none

/-- `_grad` in `_get_crit_and_grad`, fallback_subsolvers.py:177-178: `g + x @ h`. -/
def fallbackGrad (model : ScalarModel K n) (h : Mat K n n) (x : Vec K n) : Vec K n := fun j =>
  model.linearTerms j + ∑ i, x i * h i j

/-- The functions that `_get_constraint` returns: `fun`, `jac` and `ub`, fallback_subsolvers.py:186-199. -/
structure NormConstraint (K : Type) (n : Nat) where
  value : Vec K n → K
  jac : Vec K n → Vec K n
  ub : K

/-- `_get_constraint`, fallback_subsolvers.py:186-199. -/
def normConstraint : NormConstraint K n where
  value x := dot x x
  jac x := fun i => 2 * x i
  ub := 1

/-- The attributes of the result of SLSQP that are used, fallback_subsolvers.py:160-165. -/
structure SlsqpResult (K : Type) (n : Nat) where
  x : Vec K n
  value : K
  nit : Nat
  success : Bool

/-- `scipy.optimize.minimize(crit, x0, method="SLSQP", bounds=Bounds(lower, upper), jac=grad, constraints=...)`, the
call in fallback_subsolvers.py:150-158. -/
abbrev Slsqp (K : Type) (n : Nat) :=
  (Vec K n → K) → (Vec K n → Vec K n) → NormConstraint K n → Vec K n → Vec K n → Vec K n → SlsqpResult K n

/-- `robust_sphere_solver_norm_constraint`, fallback_subsolvers.py:138-165. The criterion raises the `TypeError` when
scipy calls it for the first time. -/
def normConstraintSolver (slsqp : Slsqp K n) : SubSolver K n := fun model x0 =>
  match model.squareTerms with
  | none => .error .typeError
  | some h =>
    (fallbackCrit model).map fun crit =>
      let res := slsqp crit (fallbackGrad model h) normConstraint x0 (fun _ => -1) (fun _ => 1)
      ⟨res.x, res.nit, res.success⟩

end Tranquilo
