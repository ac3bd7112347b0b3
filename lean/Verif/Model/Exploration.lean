import Verif.Model.Fallback

/-!
# Model of `exploration_sample.py` and of `get_rng` in `utilities.py`

The draws from the unit cube are a parameter (scipy's sequences and numpy's generators). Numbers are exact;
`root` is `np.sqrt`.
-/

namespace Tranquilo

variable {K : Type} [Field K] [LinearOrder K] {n : Nat}

/-- The kinds of the argument `seed` of `get_rng`. -/
inductive SeedArg where
  | none
  | int (i : Int)
  | generator (id : Nat)
  | other

/-- What `get_rng` returns: a generator that was passed, or a new one from a seed. -/
inductive RngSource where
  | given (id : Nat)
  | fresh (seed : Option Int)

/-- `get_rng`, utilities.py:36-53. `np.random.default_rng` raises a `ValueError` for negative seeds. -/
def getRng : SeedArg → Except Err RngSource
  | .generator id => .ok (.given id)
  | .none => .ok (.fresh none)
  | .int i => if i < 0 then .error .valueError else .ok (.fresh (some i))
  | .other => .error .typeError

/-- The value of a finite number; other numbers do not occur where this is used. -/
def finiteValue : XVal K → K
  | .fin a => a
  | _ => 0

/-- `qmc.scale(sample, lower, upper)`: the sample has to be in the unit cube, which is checked by its maximum and
minimum and raises for empty arrays, and the bounds have to be strictly ordered. -/
def qmcScale (lower upper : Vec K n) (sample : List (Vec K n)) : Except Err (List (Vec K n)) :=
  if sample = [] ∨ n = 0 then .error .valueError
  else if ¬ ∀ s ∈ sample, ∀ i, 0 ≤ s i ∧ s i ≤ 1 then .error .valueError
  else if ¬ ∀ i, lower i < upper i then .error .valueError
  else .ok (sample.map fun s i => s i * (upper i - lower i) + lower i)

/-- `triang.ppf(q, c, loc, scale)`, scipy's quantile function: NaN (`none`) for arguments that are not allowed, the
end points for `q = 0` and `q = 1`, else the formula of scipy. -/
def triangPpf (root : K → K) (q c loc scale : K) : Option K :=
  if 0 ≤ c ∧ c ≤ 1 ∧ 0 < scale ∧ 0 ≤ q ∧ q ≤ 1 then
    if q = 0 then some loc
    else if q = 1 then some (1 * scale + loc)
    else some ((if q < c then root (c * q) else 1 - root ((1 - c) * (1 - q))) * scale + loc)
  else none

/-- The second step of `draw_exploration_sample`, exploration_sample.py:77-85. Entries of the result are `none` for
NaN. For equal bounds `(x - lower) / (upper - lower)` is NaN or infinite, and the result is NaN since the
scale is zero. -/
def scaleDraws (root : K → K) (x lower upper : Vec K n) (distribution : String) (sample : List (Vec K n)) :
    Except Err (List (Fin n → Option K)) :=
  if distribution = "uniform" then (qmcScale lower upper sample).map fun r => r.map fun s i => some (s i)
  else
    .ok (sample.map fun s i =>
      triangPpf root (s i) ((x i - lower i) / (upper i - lower i)) (lower i) (upper i - lower i))

/-- The call of `get_rng` in `draw_exploration_sample`, exploration_sample.py:73-74. -/
def seedCheck (method : String) (seed : SeedArg) : Except Err Unit :=
  if method = "random" then (getRng seed).map fun _ => () else .ok ()

/-- `draw_exploration_sample`, exploration_sample.py:6-87. `draws method count` is the sample from the unit cube
(lines 54-75); "sobol" is the sequence without its first point. Only the method "random" uses `get_rng` (line 74);
scipy's own check of the seed is not modelled. -/
def explorationSample (root : K → K) (draws : String → Nat → List (Vec K n)) (x : Vec K n)
    (lower upper : Fin n → XVal K) (nSamples : Nat) (distribution method : String) (seed : SeedArg) :
    Except Err (List (Fin n → Option K)) :=
  if method ∉ ["sobol", "halton", "latin_hypercube", "random"] then .error .valueError
  else if distribution ∉ ["uniform", "triangular"] then .error .valueError
  else if ¬ ∀ i, (lower i).isFinite then .error .valueError
  else if ¬ ∀ i, (upper i).isFinite then .error .valueError
  else do
    let _ ← seedCheck method seed
    scaleDraws root x (fun i => finiteValue (lower i)) (fun i => finiteValue (upper i)) distribution
      (draws method nSamples)

/-- A row without NaN. -/
def fullRow (row : Fin n → Option K) : Option (Vec K n) :=
  if ∀ i, (row i).isSome then some fun i => (row i).getD 0 else none

/-- `robust_cube_solver_multistart`, fallback_subsolvers.py:41-72, with its start values. (Rows with NaN do
not occur, C99.) -/
def multistartSolver (root : K → K) (draws : String → Nat → List (Vec K n)) (scipy : ScipyMinimize K n)
    (model : ScalarModel K n) (x : Vec K n) : Except Err (Option (Vec K n × K)) := do
  let rows ← explorationSample root draws x (fun _ => .fin (-1)) (fun _ => .fin 1) 100 "uniform" "sobol" (.int 1234)
  multistart scipy (rows.filterMap fullRow) model

end Tranquilo
