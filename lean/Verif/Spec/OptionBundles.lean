import Verif.Spec.SaneCall

/-!
# Specification: option bundles that a user can pass

The names of the options of the nine bundles (options.py:132-215) with the kind of value that they take.
-/

namespace Tranquilo

variable {K O : Type} [Field K] [LinearOrder K] [FloorRing K] {n m : Nat}

/-- Kinds of options. -/
inductive OptionKind where
  /-- a finite number -/
  | number
  /-- a number or infinite -/
  | ratio
  /-- an integer that is not negative -/
  | size
  /-- a truth value -/
  | flag
  /-- a string -/
  | text
  /-- anything -/
  | any
  deriving DecidableEq

/-- The values that a user passes for an option of this kind. -/
def OptionKind.Accepts : OptionKind → PyVal K O → Prop
  | .number, v => (∃ q : K, v = .flt (.fin q)) ∨ ∃ i, v = .int i
  | .ratio, v => v = .flt .pinf ∨ ∃ q : K, v = .flt (.fin q)
  | .size, v => ∃ i, v = .int i ∧ 0 ≤ i
  | .flag, v => ∃ b, v = .bool b
  | .text, v => ∃ s, v = .str s
  | .any, _ => True

/-- The user passes nothing, or a dict or a `NamedTuple` with known names and values of the right kind. -/
def PlainOptions (kinds : List (String × OptionKind)) (user : Option (UserOptions K O)) : Prop :=
  user = none ∨ ∃ d, Gives user d ∧ ∀ kv ∈ d, ∃ kind, kinds.lookup kv.1 = some kind ∧ kind.Accepts kv.2

/-- `RadiusOptions`, options.py:132-143. -/
def radiusKinds : List (String × OptionKind) :=
  [("initial_radius", .number), ("min_radius", .number), ("max_radius", .number), ("rho_decrease", .number),
   ("rho_increase", .number), ("shrinking_factor", .number), ("expansion_factor", .number), ("large_step", .number),
   ("max_radius_to_step_ratio", .ratio)]

/-- `StagnationOptions`, options.py:156-161. -/
def stagnationKinds : List (String × OptionKind) :=
  [("min_relative_step_keep", .number), ("drop", .flag), ("min_relative_step", .number), ("sample_increment", .size),
   ("max_trials", .size)]

/-- `NoiseAdaptationOptions`, options.py:206-215. -/
def noiseKinds : List (String × OptionKind) :=
  [("rho_noise_n_draws", .size), ("high_rho", .number), ("low_rho", .number), ("ignore_corelation", .flag),
   ("min_share_high_rho", .number), ("min_share_low_rho", .number), ("min_n_evals", .size), ("max_n_evals", .size),
   ("good_rho_threshold", .number)]

/-- `SamplerOptions`, options.py:196-203. -/
def samplerKinds : List (String × OptionKind) :=
  [("distribution", .any), ("hardness", .size), ("algorithm", .text), ("algo_options", .any), ("criterion", .any),
   ("n_points_randomsearch", .size), ("return_info", .flag)]

/-- `FilterOptions`, options.py:190-193. -/
def filterKinds : List (String × OptionKind) :=
  [("strictness", .number), ("shape", .text), ("n_max_factor", .size)]

/-- `FitterOptions`, options.py:177-182. -/
def fitterKinds : List (String × OptionKind) :=
  [("l2_penalty_linear", .number), ("l2_penalty_square", .number), ("p_intercept", .number), ("p_linear", .number),
   ("p_square", .number)]

/-- `SubsolverOptions`, options.py:164-174. -/
def subsolverKinds : List (String × OptionKind) :=
  [("maxiter", .size), ("maxiter_gradient_descent", .size), ("conjugate_gradient_method", .text), ("gtol_abs", .number),
   ("gtol_rel", .number), ("gtol_scaled", .number), ("gtol_abs_conjugate_gradient", .number),
   ("gtol_rel_conjugate_gradient", .number), ("k_easy", .number), ("k_hard", .number)]

/-- `AcceptanceOptions`, options.py:146-153. -/
def acceptanceKinds : List (String × OptionKind) :=
  [("confidence_level", .number), ("power_level", .number), ("n_initial", .size), ("n_min", .size), ("n_max", .size),
   ("min_improvement", .number), ("speculative_sampling_radius_factor", .number)]

/-- `VarianceEstimatorOptions`, options.py:185-187. -/
def varianceKinds : List (String × OptionKind) := [("max_distance_factor", .number), ("min_n_evals", .size)]

/-- The option bundles of a call, process_arguments.py:66-90. -/
structure Bundles (K O : Type) where
  radius : Option (UserOptions K O) := none
  stagnation : Option (UserOptions K O) := none
  noise : Option (UserOptions K O) := none
  sampler : Option (UserOptions K O) := none
  filter : Option (UserOptions K O) := none
  fitter : Option (UserOptions K O) := none
  subsolver : Option (UserOptions K O) := none
  decider : Option (UserOptions K O) := none
  variance : Option (UserOptions K O) := none

/-- The arguments of a call with options and option bundles. -/
def CallOptions.withBundles {R : Type} (o : CallOptions K) (u : Bundles K O) : Arguments K O R :=
  { (o.arguments : Arguments K O R) with
    radiusOptions := u.radius, stagnationOptions := u.stagnation, noiseAdaptationOptions := u.noise
    samplerOptions := u.sampler, sampleFilterOptions := u.filter, modelFitterOptions := u.fitter
    subsolverOptions := u.subsolver, acceptanceDeciderOptions := u.decider, varianceEstimatorOptions := u.variance }

/-- Options as in `CallOptions.Valid`, with any of the registered acceptance deciders. -/
structure CallOptions.Accepted (o : CallOptions K) : Prop where
  rest : CallOptions.Valid { o with acceptanceDecider := none }
  decider : ∀ s, o.acceptanceDecider = some s →
    s = "classic" ∨ s = "naive_noisy" ∨ s = "noisy" ∨ s = "classic_line_search"

/-- Bundles with known names and values of the right kind. -/
structure Bundles.Plain (env : PyEnv K O) (u : Bundles K O) : Prop where
  radius : PlainOptions radiusKinds u.radius
  stagnation : PlainOptions stagnationKinds u.stagnation
  noise : PlainOptions noiseKinds u.noise
  sampler : PlainOptions samplerKinds u.sampler
  filter : PlainOptions filterKinds u.filter
  fitter : PlainOptions fitterKinds u.fitter
  subsolver : PlainOptions subsolverKinds u.subsolver
  decider : PlainOptions acceptanceKinds u.decider
  variance : PlainOptions varianceKinds u.variance
  /-- names of distributions and criteria -/
  distribution : ∀ w, InForce env u.sampler "distribution" .none w →
    w = .none ∨ w = .str "normal" ∨ w = .str "uniform"
  criterion : ∀ w, InForce env u.sampler "criterion" .none w →
    w = .none ∨ w = .str "determinant" ∨ w = .str "distance"
  /-- points are evaluated at least once -/
  evals : ∀ i, InForce env u.noise "min_n_evals" (.int 1) (.int i) → 1 ≤ i

end Tranquilo
