import Verif.Model.TranquiloCall
import Verif.Spec.BuiltinRun
import Verif.Spec.Fallback

/-!
# Specification: calls with built in components

The options that a user can set in a call, with their defaults, except option bundles and user functions.
-/

namespace Tranquilo

variable {K O : Type} [Field K] [LinearOrder K] {n m : Nat}

/-- Options of a call, process_arguments.py:36-91. `none` is `None`. -/
structure CallOptions (K : Type) [Field K] where
  functype : String
  noisy : Bool := false
  disableConvergence : Bool := false
  ftolAbs : K := 0
  gtolAbs : K := 0
  xtolAbs : K := 0
  ftolRel : K := 2 / 10 ^ 9
  gtolRel : K := 1 / 10 ^ 8
  xtolRel : K := 1 / 10 ^ 8
  maxEval : ℤ := 2000
  maxIter : ℤ := 200
  nCores : ℕ := 1
  batchSize : Option ℕ := none
  sampleSize : Option ℕ := none
  searchRadiusFactor : Option K := none
  nEvalsPerPoint : Option ℕ := none
  nEvalsAtStart : Option ℕ := none
  seed : ℕ := 925408
  sampler : String := "optimal_hull"
  sampleFilter : Option String := none
  modelFitter : Option String := none
  cubeSubsolver : String := "bntr_fast"
  sphereSubsolver : String := "gqtpar_fast"
  acceptanceDecider : Option String := none
  residualize : Option Bool := none

/-- An optional integer as a value of Python. -/
def pyNat : Option ℕ → PyVal K O
  | none => .none
  | some i => .int i

/-- An optional number as a value of Python. -/
def pyNum : Option K → PyVal K O
  | none => .none
  | some q => .flt (.fin q)

/-- An optional truth value as a value of Python. -/
def pyBool : Option Bool → PyVal K O
  | none => .none
  | some b => .bool b

/-- The arguments of the call; `tranquiloCall` fills in the start vector. All other arguments have their defaults. -/
def CallOptions.arguments {R : Type} (o : CallOptions K) : Arguments K O R where
  functype := o.functype
  x := []
  noisy := .bool o.noisy
  disableConvergence := .bool o.disableConvergence
  ftolAbs := .flt (.fin o.ftolAbs)
  gtolAbs := .flt (.fin o.gtolAbs)
  xtolAbs := .flt (.fin o.xtolAbs)
  ftolRel := .flt (.fin o.ftolRel)
  gtolRel := .flt (.fin o.gtolRel)
  xtolRel := .flt (.fin o.xtolRel)
  maxEval := .int o.maxEval
  maxIter := .int o.maxIter
  nCores := .int o.nCores
  batchSize := pyNat o.batchSize
  sampleSize := .value (pyNat o.sampleSize)
  searchRadiusFactor := pyNum o.searchRadiusFactor
  nEvalsPerPoint := pyNat o.nEvalsPerPoint
  nEvalsAtStart := pyNat o.nEvalsAtStart
  seed := .int o.seed
  sampler := .str o.sampler
  sampleFilter := o.sampleFilter.map .str
  modelFitter := o.modelFitter.map .str
  cubeSubsolver := .str o.cubeSubsolver
  sphereSubsolver := .str o.sphereSubsolver
  acceptanceDecider := o.acceptanceDecider.map .str
  residualize := pyBool o.residualize

/-- Options that make sense: known names, positive sizes, and in noisy runs repeated evaluations. -/
structure CallOptions.Valid (o : CallOptions K) : Prop where
  functype : o.functype = "scalar" ∨ o.functype = "likelihood" ∨ o.functype = "least_squares"
  cores : 1 ≤ o.nCores
  batch : ∀ b, o.batchSize = some b → o.nCores ≤ b
  factor : ∀ q, o.searchRadiusFactor = some q → 0 < q
  perPoint : ∀ k, o.nEvalsPerPoint = some k → 1 ≤ k
  atStart : ∀ k, o.nEvalsAtStart = some k → 1 ≤ k ∧ (o.noisy = true → 2 ≤ k)
  sampler : o.sampler = "random_interior" ∨ o.sampler = "random_hull" ∨ o.sampler = "optimal_hull"
  filter : ∀ s, o.sampleFilter = some s →
    s = "discard_all" ∨ s = "keep_all" ∨ s = "clustering" ∨ s = "drop_excess"
  fitter : ∀ s, o.modelFitter = some s → s = "ols" ∨ s = "ridge" ∨ s = "powell" ∨ s = "tranquilo"
  cube : o.cubeSubsolver = "bntr" ∨ o.cubeSubsolver = "bntr_fast"
  sphere : o.sphereSubsolver = "gqtpar" ∨ o.sphereSubsolver = "gqtpar_fast" ∨
    o.sphereSubsolver = "fallback_reparametrized" ∨ o.sphereSubsolver = "fallback_inscribed_cube" ∨
    o.sphereSubsolver = "fallback_norm_constraint"
  /-- the line search leaves the bounds (C68), the noisy decider needs the estimated noise (C98) -/
  decider : ∀ s, o.acceptanceDecider = some s →
    (s = "classic" ∧ o.noisy = false) ∨ s = "naive_noisy" ∨ (s = "noisy" ∧ o.noisy = true)

/-- What is assumed about numpy and scipy and the random numbers. The solvers may raise or return anything. -/
structure Externals.Spec (ext : Externals K O n m) : Prop where
  zero : ext.nrm (fun _ => 0) = 0
  root : SqrtSpec ext.root
  radial : RadialSpec ext.radial
  cubeRadius : ∀ a, 0 < a → 0 < ext.cubeRadius a
  dimRoot : ∀ a, 0 ≤ a → 0 ≤ ext.dimRoot a
  rng : ∀ it round log, RngSpec (ext.rng it round log)
  minimize : ∀ algorithm options, MinimizeSpec (ext.minimize algorithm options)
  scipy : ScipySpec ext.scipy

/-- The solver for balls stays in the ball or raises. gqtpar does not guarantee this (C40). -/
def Externals.StaysInBall (ext : Externals K O n m) (name : String) : Prop :=
  ∀ options model x raw, ext.solver name options model x = .ok raw → sumSq raw.x ≤ 1

/-- In noisy runs all evaluations are finite, and there is a vector for each. -/
structure Externals.FiniteData (ext : Externals K O n m) : Prop where
  finite : ∀ k x, (ext.oracle k x).isFinite = true
  rows : ∀ log i, (ext.fvecs log i).length = (log.fvals i).length
  finiteRows : ∀ log, (∀ e ∈ log.evals, e.2.isFinite = true) → ∀ i, ∀ row ∈ ext.fvecs log i, ∀ k,
    (row k).isFinite = true

end Tranquilo
