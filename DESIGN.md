# tranquilo: formal model and proofs

The subject is the Python package in `/repo/src/tranquilo` at the pinned commit.
The model is written in Lean 4 (Lean 4.33.0 plus single Mathlib modules), in `lean/Verif`.
Theorems are about the model; the tie to the code is the reading of the code, which every
definition documents with a `file:lines` citation.

## Layout

* `lean/Verif/Model/*.lean` mirrors the Python modules, function by function.
* `lean/Verif/Spec/*.lean` contains small specifications that do not use model helpers.
* `lean/Verif/Lemmas/*.lean` contains helper lemmas.
* `lean/Verif/Props/*.lean` contains the property theorems, with `example`s beside them that show
  that a concrete case meets the hypotheses. Theorem names start with the property number.
* `properties.jsonl` is the list of properties; `MANIFEST.json` maps them to theorems.
* `COVERAGE.md` (written by `tools/coverage.py`) lists every function of the package with the definitions
  that model it, or says that it is not modelled.
* `seeded/LOG.jsonl` is the log of mutation tests; `seeded/round*.py` are the edits.

## How code is turned into a model

* Numbers: Python floats are elements of an arbitrary linearly ordered field `K` (theorems hold for
  all such fields, examples run over `Rat`) or of `Real` when roots, exponentials or the Gamma
  function occur. Rounding, overflow and denormals are **not** modelled. Where the code
  can meet infinities and NaN and the behaviour matters, values are of type `XVal K`
  (`fin`, `pinf`, `ninf`, `nan`) with IEEE comparisons.
* Exceptions are values: `Except Err α`, with `Err` naming the Python exception class. When the code
  mutates state before it raises, the model function returns the mutated state beside the
  error.
* Mutation becomes returned values. Loops become structural recursion or a fuel argument; when the
  Python loop has no bound the termination is itself a theorem.
* Calls into scipy/numba/joblib/user code (criterion, batch evaluator, optimizers, random draws,
  `lstsq`, Cholesky, eigenvalues) are parameters. Theorems quantify over every possible result, or
  over every result that satisfies a contract that is written in the theorem as a hypothesis.
* Vectors are functions `Fin n → K`; collections of points are lists.

## Trusted base

* Lean's kernel and the axioms `propext`, `Classical.choice`, `Quot.sound` (checked by
  `#print axioms`, see the gate). No further axioms, no `sorry`, no `native_decide`, no `bv_decide`.
* The reading of the Python code, i.e. the faithfulness of the definitions in `lean/Verif/Model`.
* The contracts of external code that appear as hypotheses:
  * `SqrtSpec root`: `root a` is a nonnegative number whose square is `a`, for `a >= 0`
    (instance: `Real.sqrt`, `sqrtSpec_real`). `RootSpec`: the same for the numbers that occur.
  * `LstsqSpec`: the result of `np.linalg.lstsq` has minimal residual, and minimal norm among these
    (existence: `exists_lstsq`). `QrSpec`: the columns returned for the QR decomposition are a basis of the
    orthogonal complement.
  * `GqSpec`: a successful Cholesky factorization is a factor of the matrix; triangular solves solve;
    a failed factorization means that the matrix is not positive definite.
  * `ScipySpec`: the point that `scipy.optimize.minimize` returns obeys the bounds that it was given.
  * `DrawsSpec`: the random number generator returns as many draws as asked for.
  * the batch evaluator returns the results in the order of its arguments, exceptions as strings.
  Criterion, user components, optimizers and random draws have no contract unless a theorem says so.
* Exact arithmetic in place of floating point arithmetic.

## Plan per property

* **C01** Stored parameter vectors are never lost or overwritten. History as a state machine with explicit over-allocated buffers (`Model/History`), refinement to a plain list of vectors; induction over operation lists.
* **C02** Every evaluation can be read back at the point it belongs to. Same refinement; the abstract state is a list of (index, fvec) submissions; get_fvecs(i) is the filter of this log.
* **C03** Scalar function values agree with the stored vectors. Same refinement; parallel buffers related entrywise by the aggregator.
* **C04** Evaluation counters are exact. Invariant by induction over operations.
* **C05** Region queries are exact. Membership characterisation and sortedness of the returned list. The norm is modelled through its square (comparison `|x-c|^2 <= r^2`, valid for r >= 0).
* **C06** A rejected add_evals leaves the history unchanged. False of the code for negative indices: witness; proved for index lists of non-negative indices (`_partial`).
* **C07** Model data lines up row by row. Averages: pairing proved for duplicate-free lists; witness for lists with duplicates.
* **C08** Evaluation requests are carried out exactly. `Model/WrapCriterion`, criterion as an oracle on call number and point; the call log is compared with the request.
* **C09** A failing criterion never stops the optimization. Same model, results are `XVal`; ragged mixtures of exceptions and vector results raise (witness).
* **C10** Parallel evaluation does not change what is recorded. The batch evaluator is modelled as an arbitrary completion order that is put back in task order; only the order contract of the batch evaluator is assumed. Worker count by arithmetic.
* **C11** Accepted means improved (deterministic criteria). `Model/Acceptance` with `XVal`; iff statement by cases.
* **C12** A rejected step changes nothing. All deciders; by cases.
* **C13** Points with non-finite values are never accepted. All deciders; by cases.
* **C14** Sign and thresholds of rho. `Model/Acceptance.calculate_rho` over an ordered field.
* **C15** The line search takes the best point it has paid for. Line search decider with arbitrary samplers/criteria; exact counts and minimum.
* **C16** Line search points respect the parameter bounds. False of the code: witness. Partial: holds for candidates on spheres when bounds are far, etc.
* **C17** Noisy acceptance never makes the reported value worse than the refreshed value. Partly false (stale value on rejection): witness and `_partial`.
* **C18** Noisy acceptance test has the requested power. `Model/SampleSize` over an ordered field, quantile values as parameters; sqrt as a parameter with its defining property.
* **C19** Acceptance sample sizes respect the limits. Same model.
* **C20** The trust region radius stays within its limits. `Model/Adjust`; false with finite max_radius_to_step_ratio (witness), proved otherwise, by induction over iterations.
* **C21** Radius moves in the right direction. Same model; induction for the shrink sequence.
* **C22** Number of evaluations per point stays within its limits. `Model/Adjust`; induction; witness for start values outside of the limits.
* **C23** Filtering drops exactly what it should. `Model/Filter`; lists with the argmax selection loop.
* **C24** The current point survives filtering. Same; false if n_to_drop >= number of points (witness) and for clustering (witness).
* **C25** drop_excess bounds the model size. Same.
* **C26** Clustering covers all points with separated centers. `Model/Filter`; invariant of the loop.
* **C27** A spherical trust region never touches the bounds. `Model/Region`; infinite bounds as `WithBot/WithTop`-like options; missing bounds as `None`.
* **C28** A cubic trust region lies inside the bounds. Same.
* **C29** Unit space mapping is a bijection. Same; degenerate cube is a witness.
* **C30** Cube and ball have the same volume. `Model/Volume` over `Real` with Mathlib's Gamma and the Lebesgue volume of balls and boxes.
* **C31** Moving a surrogate model to another region does not change its predictions. `Model/Models` with Mathlib matrices; uniform scaling proved, cube with unequal edges: witness.
* **C32** Adding models adds predictions. Same.
* **C33** The fitted coefficients are used consistently. `Model/FitModels` features over `Fin n`; triangular index arithmetic.
* **C34** Least squares fits minimize the stated objective. Same, lstsq through its contract (minimizer of the residual norm / minimum norm).
* **C35** Models interpolate when they can. Same.
* **C36** Number of parameters is the number of features. Counting of the feature lists.
* **C37** Aggregated models predict the aggregated criterion. `Model/Aggregate`, Mathlib matrices.
* **C38** Infinite values are replaced by bad but finite values. `Model/Infinity` on `XVal`; witness where all finite entries are equal.
* **C39** Expected improvement is never negative and always honest. `Model/Subproblem`, solver is an arbitrary function.
* **C40** The candidate stays inside the trust region and the bounds. Cube: proved (clip). Sphere: depends on the solver; false for the default solver (witness on the acceptance test of gqtpar), contract based partial theorem.
* **C41** Exceptions in a subsolver are recovered. Same model; exceptions as values.
* **C42** Truncated conjugate gradient stays in the region and never increases the model. `Model/ConjugateGradient` over `Real`, fuel = max_iter; invariant.
* **C43** Steihaug-Toint stays in the region. `Model/ConjugateGradient`: false (witness).
* **C44** gqtpar brackets the Lagrange multiplier. `Model/Gqtpar`: Gershgorin bounds and damping factor update.
* **C45** gqtpar solutions are global minimizers. Optimality lemma over `Real`; boundary roots.
* **C46** bntr iterates stay within the bounds. `Model/Bntr` with arbitrary inner results; invariant.
* **C47** bntr terminates. Same; termination measure of the inner loop.
* **C48** bntr never accepts a worse point. Same; false (witness), partial under a threshold.
* **C49** bntr's convergence measure vanishes exactly at stationary points. Fischer-Burmeister function over `Real`.
* **C50** Active set classification is a partition. Case analysis.
* **C51** The linear trsbox solver respects region and bounds and does not crash. `Model/LinearTrsbox`; false (witness of StopIteration); partial.
* **C52** Fallback solvers are feasible. `Model/Fallback`; norms.
* **C53** Sampled points lie in the feasible region. `Model/Samplers`.
* **C54** Optimal sampling is never worse than its starting sample. `Model/Samplers`.
* **C55** Lagrange polynomials are evaluated with the right coefficients. `Model/Poisedness`; witness for n = 3, proof for n <= 2.
* **C56** Component lookup. `Model/Components`.
* **C57** Components receive exactly the arguments they declare. `Model/Components`; Python calls by keyword as association lists.
* **C58** Option bundles are updated, not replaced. `Model/Components`.
* **C59** Argument validation and defaults are consistent. `Model/ProcessArgs`.
* **C60** Batches are full. Integer arithmetic, and an invariant for the number of points of a run (`Spec/Batches.lean`). False for
  rounds against stagnation, which ask for `sample_increment` points (default 1) whatever the batch size is.
* **C61** The returned solution is the best accepted point and never worse than the start. `Model/MainLoop`: state machine with arbitrary components; induction over iterations.
* **C62** The returned solution is consistent with the history. Same.
* **C63** Iteration and evaluation limits. Same.
* **C64** The evaluation budget is a hard limit. False (witness on the main loop).
* **C65** Termination messages are truthful. Same.
* **C66** Stagnation handling terminates and is bounded. Same; measure on the model set.
* **C67** Model points are accounted for. Same.
* **C68** All evaluated points respect the parameter bounds. Main loop plus region/sampler/subproblem; false because of the line search and because of gqtpar's slack (witnesses; `Props/DefaultLeavesBounds` is a default call that returns infeasible parameters); partial for the classic decider.
* **C69** Residualizing uses the previous model. False of the code: main loop shows that the model in the state is the initial one (theorem states the violation).
* **C70** Default start radius is usable. False at x = 0 (witness); every default call from there raises (`Props/ZeroStart`).
* **C71** Variance estimate is a weighted average of sample variances. `Model/NoiseVariance`.
* **C72** Simulated rhos are consistent. `Model/NoiseVariance`.
* **C73** Fast and slow subsolvers agree. Models of both versions (`Model/SlowSolvers`, `Model/BntrNp`), equality or, for bntr, a simulation of whole runs. False for Steihaug-Toint and for ties in gqtpar (witnesses).
* **C74** trsbox stays in the region and makes progress. `Model/Trsbox`: main loop and alternative steps; invariant `TrsInv`, Cauchy decrease of the first pass.
* **C75** One sided bounds are accepted. False of the code (UnboundLocalError), witnesses in `Props/Region`.
* **C76** History reads follow numpy indexing. `Model/History` reading functions; false for a single negative index (witness).
* **C77** Distance criterion of optimal sampling. `Model/Samplers`; the set of pairs that enter, and the soft minimum over the reals.
* **C78** Information of the optimal sampler. `Model/Samplers`; false when the start sample is kept (witness).
* **C79** Lagrange matrix. `Model/Poisedness`; uses only `G pinv(G) G = G`.
* **C80**, **C81** Poisedness constant and improvement of the poisedness. `Model/Poisedness`, optimizer by contract; up to two parameters because of C55, with a witness for three parameters (`Props/PoisednessThree`).
* **C82** Evaluations of the noisy acceptance step. `Model/Acceptance` and `Model/SampleSize`.
* **C83** When a line search happens. `Model/Acceptance`; false for boxes (witness).
* **C84** Clusters are chosen greedily. `Model/Filter`; invariant of the loop.
* **C85** Numeric options keep their value. `Model/Components`; `hardness` is truncated (witness).
* **C86** Registered names. `Model/BuiltinComponents`; two cube solvers cannot be selected (witness).
* **C87** Parameter order of user components. `Model/Components`, positional call in the speculative sample (witness).
* **C88**, **C89**, **C95** Sizes, defaults and user arguments. `Model/ProcessArgs`.
* **C90** Powell's fit. `Model/FitModels` with QR and lstsq by contract; minimizes another norm (witness).
* **C91** The optimal sampler maximizes its criterion. `Model/Samplers`.
* **C92** Random samples have no preferred direction. `Model/Samplers`; distribution of Gaussian draws over Mathlib's measures.
* **C93**, **C94** Values reported by bntr, and that it returns. `Model/Bntr`; both false with the initial gradient descent (witnesses; C94 also from the center of the box, `Props/BntrCenter`), proved without.
* **C96** Geometry improving step. `Model/LinearTrsbox`.
* **C97** Radius of the descent phase. `Model/Bntr`; false (a typo in a comparison), exceptional set stated exactly.
* **C98** Runs return. `Model/MainLoopRaise` is the main loop with components that may raise, `Model/BuiltinRun` fills it
  with the built in components. `Lemmas/MainLoopRaise`: a run that returns is a run of `Model/MainLoop`, so that the
  theorems about whole runs hold for it. `Lemmas/NoRaise`: with safe components nothing raises. `Props/BuiltinRun`: the built
  in components are safe. False for fixed parameters.
  `Props/BuiltinFit` restates C34, C35, C38, C39 and C69 for the components as a run calls them (data from the history,
  equal weights), so that the data flow of `builtinFit`, `builtinSolve` and `builtinInit` is fixed by theorems.
* **C99** Exploration samples. `Model/Exploration`, `Spec/Exploration`; false for fixed parameters and start values outside of
  the bounds (witnesses). The multistart fallback solver is connected to C52.
* **C100** D-optimality. `Model/Visualize`; Gram determinant, positive semidefiniteness, matrix determinant lemma.
* **C101** Plotted data. `Model/Visualize`, `Model/Plots`; an invariant (evaluations in the order of the points,
  `Lemmas/InOrder`) connects the record of the evaluations with the positions of the run; the labels follow from the accounting of C67. False for repeated and for missing
  points (witnesses); the search ends if and only if a row is nearer than one.
* **C102** The conjugate gradient method ends by itself. `Props/CgTermination`; orthogonality of all residuals, dimension
  count.
* **C103** Exact models. `Props/ExactModels`; joins C35, C37, C53, C62 and C98: for criteria in the model class the model is
  the criterion and `rho` is one.
* **C104** History refinement. `Props/HistoryRefinement`; connects `Model/Log` (over which the main loop is modelled) with
  `Model/History` and `Model/WrapCriterion`: forward simulation for single calls, then for all iterations of a run via
  `Grows` (`Lemmas/MainLoop`: every iteration only adds points and evaluates stored points, each key once).
* **C105** Failing evaluations. `Props/FailingEvaluations`; joins C08, C13, C71, C98 and C104. The noise estimate of a run is
  that of `Model/NoiseVariance` (`builtinNoiseSigma`, `builtinRhoNoise`). False with noise.
* **C106** A call returns. `Model/TranquiloCall` composes `processArguments` (C59, C88, C89, C95) with the main loop: options
  and components (closures over their options, `Model/BuiltinComponents`) are read back into `Config` and
  `BuiltinSettings`; `Spec/CallOptions`, `Props/TranquiloCall`. Partial: see the exclusions in the note.
* **C107** The gradient tolerance. False: `model.linear_terms` are derivatives with respect to the unit coordinates of the
  trust region. `Spec/Gradient` says what the gradient with respect to the parameters is; the message is proved to bound
  `radius * |gradient|`, and a whole default call that stops on a slope is the counterexample.
* **C108** Singular value estimate. `Props/SingularEstimate`: loop invariant of `_estimate_condition` (`ConditionInv`).
* **C109** Order and weights. `Spec/Samples` says when two weighted samples contain the same data. Proof: the shortest
  least squares solution is a function of the residuals (`lstsq_determined`). False for Powell's fit.
* **C110** Linear convergence. `Spec/Convergence` defines convex functions and the contract of the subsolvers. Proof: the
  model is the criterion (C103), so the solver's decrease is a share of the decrease on the way to the minimizer, which by
  convexity is a share of the distance to the minimum; `rho` is one, so the radius is not reduced (`Lemmas/Regions` relates
  the trust regions of consecutive states of a run; C20 and C21 for runs follow from it as well).
* **C111** Half of the possible progress. The iterates of conjugate gradients have orthogonal residuals (C102), so that a
  nonnegative combination of them has the gradient `-lambda * step`; this dual point bounds the model from below on the
  ball (`CgDual` is the loop invariant). A family of models in two dimensions shows that one half is sharp.
* **C112** gqtpar on convex models. `1 / |p(lambda)|` is concave, so Newton's method from the left stays on the left and
  grows geometrically (`GqLeft`, `left_terminates`), and from the right crosses over in one step (`newton_from_inside`).
  Passes that reuse a factorization repeat their point and subtract the same number (`GqStale`, `stale_terminates`); their
  point is bounded by `inside_error`.
* **C113** Units of the criterion. `Spec/Rescale` says when two runs are the same up to units (`SameCourse`, `SameOutcome`
  relates exceptions as well) and when components respect units. `Lemmas/RescaleRun` goes through the loop part by part;
  `Lemmas/RescaleFit` shows that fits, moves, sums and aggregations of models are homogeneous (the shortest least squares
  solution is unique).
* **C114** Origin and unit of the parameters. The same method: `Spec/Relocate`, `Spec/RelocateBuiltin`,
  `Lemmas/RelocateRun`, `Lemmas/RelocateFit`. Unit coordinates of a moved point in a moved region are the same, so all
  components that work there do the same; old models are moved to the new region exactly.
* **C115** Rules for stopping. `Spec/RunsLonger` (`EndsLater`, `BeginsWith`, and the same for arguments of a call). Only
  the end of an iteration reads limits and tolerances, so two runs are equal up to the flags until one of them stops
  (`Lemmas/RunsLonger`); from then on the log and the states only grow.
* **C116** Order of the residuals. `Spec/Reorder` permutes data and stored vector models; `Lemmas/Reorder` shows that
  fits, moves and sums of vector models commute with the permutation and aggregations do not see it. The runs are then
  compared with the simulation of C113 for equal units. Noise is excluded (draws go by position).
* **C117** Progress. `Spec/Stationary` says what a state records about its step (`JudgedStep`) and what a promising step
  is; `Lemmas/Steps` shows that all states of a run are judged steps. A step below the trusted radius succeeds, so the
  radius stays above `leastRadius`, and each iteration either gains a fixed amount or reduces the radius; counting gives
  the bound. For the built in components the promise follows from the reduction along the direction of steepest descent.
* **C118, C119** Calls. `Spec/CallUses` repeats names and defaults of all options; `Lemmas/CallUses` follows one option
  through `updateOptionBundle` and `getComponent` to the function that is called. `Spec/SaneCall` are conditions on the
  values in force, `Spec/OptionBundles` the kinds of values of each option; `Lemmas/OptionBundles` shows that values of
  the right kind pass through all of `processArguments`.
* **C120** Accuracy. `Spec/Poised` defines poised points with Lagrange polynomials. The fit is the interpolation
  polynomial (C103), so its distance to any polynomial is at most the constant times the distance at the points;
  with the linear approximation at the center this gives the error that C117 assumes. `Lemmas/LagrangeBasis` connects
  the Lagrange polynomials of poisedness.py with the specification.
* **C121** Order of the parameters. The method of C114: `Spec/Permute`, `Spec/PermuteBuiltin`, `Lemmas/PermuteRun`; calls with `Spec/PermuteCall`.
  `Lemmas/PermuteFeatures` finds the permutation of the columns of the feature matrix (pairs of indices are exchanged with
  their mirror image if necessary); the shortest least squares solution is unique and therefore permuted as well.
  `Lemmas/PermuteSolvers` relates the masks of free parameters of bntr by a bijection of their positions.
* **C122** Only the evaluations in the history matter. `Spec/OnlyEvaluated` (criterion, `EvaluatedAt`, `withCriterion`), `Lemmas/OnlyEvaluated`: two sets of components that agree on the evaluations of a run give the same run, by induction over the loops with the histories of C115.
* **C123** gqtpar ends on all models with a gradient. `Lemmas/SingularSmall` (the LINPACK estimate of the smallest singular value is at most a multiple of the smallest pivot), `Lemmas/GqtparAll` (the limit `m` of the factors whose point is inside the ball; near `m` the stopping rules hold), `Lemmas/GqtparEnds` (the lower end of the bracket stays at most `m`, and every cycle of passes halves the distance of the factor to `m`).
* **C124** gqtpar without a gradient: false on every Hessian that is not positive definite. The loop returns the start vector without success or a point of norm two (the interior check returns the singular vector times the constant two).
* **C125** Legend of the diagnostic plot. `Model/Small`, by induction over the traces.
* **C126** Second order terms. `Model/Small`; whole runs with `tranquiloR_invariant` and `buildPhaseR_solved`.
* **C127** Mirrored parameters. The method of C121 with signs instead of a permutation: `Spec/Mirror`,
  `Spec/MirrorBuiltin`, `Spec/MirrorCall`, `Lemmas/MirrorRun`, `Lemmas/MirrorFeatures`. `np.clip` with a lower bound above
  the upper bound is not symmetric, so the simulation carries an invariant: cubes have sides of positive
  length. Without bounds there are no cubes; with bounds the invariant is that of C98.
* **C128** Combined residuals. The simulation of C113 with two different types of vector models (`m` and `p`
  residuals). Every fitter is linear in the values, given the contract of `np.linalg.lstsq`
  (`builtinFitter_linear`); moving, adding and evaluating models commute with the combination. The criterion
  value is kept by `C128_criterion_value`. Infinite or NaN residuals are excluded: `clip_relative` is not
  symmetric (`C128_violated_undefined`).
* **C129** Rotated parameters. The simulation of C127 with an orthogonal matrix instead of signs, without bounds.
  Trust regions stay spheres, so scales are constant (`RotatedModel`). Linear features are rotated by an orthogonal
  matrix, and the shortest least squares solution with them (`lstsq_rotate_unknowns`). Witnesses show that
  the default radius, the relative tolerance for parameters and underdetermined quadratic models depend on the axes.
* **C130** Runs that start at a minimum. Values never rise (C61), so they stay; the step of C117 with no gain gives the
  radii. Recognition of convergence is false, because rejected steps are not checked (tranquilo.py:375-378): theorem
  for required improvements, witness for the defaults.
* **C131** The number of cores. The processed arguments of two calls with the same batch size are equal up to the
  number of cores, which only the wrapper of the criterion reads. Without a batch size false: witness with one and
  three cores.
* **C132** Far bounds. Regions that end before two sets of bounds are the same ball for both; the loop is followed step by
  step, with the points of the line search taken from the history of the run.
* **C133** One evaluation per point. Invariant: the log of evaluations lists the stored points in order. False for vectors:
  the code does not look up whether the candidate of the subsolver was evaluated before.
* **C134** Documentation of `State`. Specification `Spec/StateDocs.lean`, one field per sentence of the docstrings. Invariant:
  point, index, value and center of the run are those of the last state. The sentence about the candidate is false with
  the line search and for candidates without finite value.
* **C135** Evaluations stay near. Specification `Spec/Nearby.lean`. Invariant over iterations: every stored point is at most
  `reach * q` times the sum of the radii so far away from the start; triangle inequality only. The Euclidean norm is shown
  to be a norm over any ordered field with square roots (Cauchy-Schwarz).
* **C136** rho and the decision. Specification `Spec/StepReport.lean`, which defines the ratio without the function of the
  model. Invariant over iterations, from the exactness of decisions on criteria without noise; the noisy decider
  must evaluate the proposal.
* **C137** Best evaluated point. Specification `Spec/BestPoint.lean`. Invariant over iterations: every stored point is not
  better than the current one by more than `min_improvement`, or was returned by the sampler for a trust region of the run.
  Sampled points can be better than the result (`C137_violated_by_samples`).
* **C138** No criterion is overlooked. Specification `Spec/StopsInTime.lean` (order of the criteria) and `MessageHolds`. The
  states of a run are those of its iterations, so a pair of consecutive states is the pair that the check of an iteration saw.
* **C139** Accepted steps. From C138 and C61: a step that is accepted and not the last one improves by more than the
  tolerance; summing up over the states bounds the number of such steps.

## Findings

Behaviour of the code that contradicts what a user would expect. Entries with a property number have a witness
theorem (`Cxx_violated…`) or are part of the statement of its theorems; the others come from reading the code.

History and evaluation
* A failing vector criterion: two exceptions in one batch, or a mixture with proper results of other width, raise
  ValueError; if the first evaluation fails the buffer has width one for ever (C09).
* `add_evals` with negative indices changes the history before it raises (C06); repeated indices break averaged
  model data (C07); `get_fvecs(-1)` and `get_fvals(-1)` raise KeyError (C76).
* `{i: 0}` requests call the batch evaluator with zero cores; vectors of width one are broadcast by `add_xs`.

Acceptance and radius
* Points that were sampled for a model are never taken over, also if they are better than the result (C137). The
  candidate that a state stores is not the solution of its subproblem after a line search or a failed evaluation (C134).
* Rounds against stagnation ask for `sample_increment` points, so their batches are not full (C60).
* Line search points are not clipped to the bounds (C16, C68); nearness to the border is relative to the
  coordinates of boxes (C83); a value of -inf among the line points rejects the step (C11).
* A noisy rejection keeps the stale value (C17). A failed candidate together with a good line point is accepted with
  rho = -inf; rho is -inf if expected and actual improvement are zero.
* A finite `max_radius_to_step_ratio` and a rejected step make the radius zero (C20); start values of `n_evals` outside
  of the limits stay outside (C22); a zero start vector gives radius zero, and the call raises LinAlgError (C70, C106).

* Units matter in four places: tolerances called relative are relative to `max(1, .)`; the penalty for infinite values
  contains the constant 1; the power calculation uses at least `1e-8` as effect; the condition estimate of gqtpar adds
  numbers in different units (C113).
* Origin and unit of the parameters matter in three places: `xtol_rel` is relative to `max(1, |x|)`, so that a problem far
  from the origin converges early; the default radius is a tenth of the largest coordinate of the start vector; the test
  for the border compares coordinates (boxes) or has the absolute tolerance `1e-8` (spheres) (C114).
* The order of the parameters matters through the random numbers: with a fixed seed they are assigned by position (C121).
* The direction of the parameters matters: the convergence test of bntr combines the distance to the upper bound with the
  gradient first, so that it can accept a point at an upper bound and not its mirror image at a lower
  bound (C127).

Regions, models, fits
* Bounds on one side only raise UnboundLocalError (C75); fixed parameters divide by zero in `map_to_unit` (C29); an
  infeasible center breaks the mapping (C28).
* `move_model` scales only the columns of the Hessian in boxes and raises for scalar models without square terms
  (C31); `add_models` drops the second model's square terms if the first has none (C32).
* `clip_relative` with equal finite values gives penalties of +-1 (C38); the stored model for residualizing is never
  updated (C69); Powell's fit minimizes the norm of the coefficients and determines the linear part from the
  first n+1 points only (C90), so that it depends on the order of the points and can miss linear data (C109); `aggregator_sum` raises AttributeError for linear models; the information equality
  aggregator gives a concave model.

Subsolvers
* gqtpar accepts steps of norm up to 1 + k_easy. If the region is a ball that touches no bound but nearly does, the default
  call evaluates and returns parameters outside of the bounds (C68, C106).
* For a zero gradient and an indefinite Hessian gqtpar returns norm 2
  (C40); interior minimizers can be moved to the boundary (C45); `maxiter=0` is unbound. After a point inside of the ball
  the loop tests whether the Hessian with the next factor can be factorized, but keeps the old factorization: the next pass
  computes the same point again and subtracts the same Newton step once more, until the factor is too small (C112).
* Steihaug-Toint leaves the region for concave models and divides by zero for zero Hessians (C43). Its numba version
  raises where the numpy version returns; bntr_fast returns numbers as messages and bntr texts; ties in gqtpar's step
  to the sphere are resolved by the order of `np.roots` (C73).
* bntr accepts worse points if predicted and actual reduction are small (C48), reports values of other points (C93),
  divides by zero (C94), tests `tau_2` where `tau_1` is meant (C97), mis-scales the predicted reduction of
  the descent, and reports success when it stalls.
* Linear trsbox: uncaught StopIteration, bounds that become active later are violated, bounds at zero are exceeded by
  the threshold (C51). trsbox: `n_fixed_variables` does not count parameters that are fixed at the start; the
  gradient is changed in place; bntr passes parameter bounds where step bounds are meant.
* Fallback solvers raise TypeError for models without square terms.

Sampling and poisedness
* Zero rows give NaN points (C53); the information about the Fekete criterion is that of the rejected sample (C78);
  coefficients are read in another order than features are written from three parameters on (C55);
  `return_info` is ignored for `n_points <= 0`; negative `n_points` raise in two samplers; the user's
  `algo_options` is changed.

Components and arguments
* The warning about redundant arguments raises AttributeError (C57); callables without `__name__` are refused (C56);
  `hardness` is truncated to an integer (C85); `fallback_cube` and `fallback_multistart` cannot be selected (C86);
  with `fallback_norm_constraint` the candidate can be outside of the trust region if SLSQP gives up (C52);
  the parameter order of user samplers matters (C87); zero and negative sizes are accepted (C88); NaN is
  accepted as search radius factor (C59); surplus positional arguments of components are dropped silently.

Main loop
* With a fixed parameter (equal bounds) every run raises LinAlgError; `accept_noisy` without noise raises TypeError; a
  line search whose additional values are all NaN raises KeyError (C98).
* The gradient tolerances are applied to derivatives in unit coordinates, i.e. to `radius * |gradient|`, so that runs
  with a small radius stop on slopes (C107).
* The evaluation budget can be exceeded (C64), the first iteration runs even if the budget is used up (C63), the
  time limit and the radius criterion are never read, and the message is None if the iteration limit ends the run.
* In noisy runs one failing evaluation (exception, NaN, infinite) at a point that counts for the noise estimate makes
  `accept_noisy` raise ValueError, with `accept_naive_noisy` LinAlgError (C105).
* The variance estimate is NaN if `min_n_evals = 1` admits points with one evaluation (C71).

Exploration and plots
* Triangular exploration samples are NaN for fixed parameters and for start values outside of the bounds (C99).
* A point that is twice in the history breaks the plots, and the search for a point that is not in it can run forever (both for results of the nag algorithms)
  (C101). They look up positions of points in the record of evaluations, which is wrong as soon as a point is evaluated twice;
  they raise for one parameter; dictionaries of results with dictionaries of iterations are not processed (C101). `_process_results` creates a NotImplementedError without raising it.

## Not expressible

Nothing about speed, memory, rounding errors or the drawing of plots (`visualize.py`) is modelled. The functions that no
definition models are marked in `COVERAGE.md`; besides plots these are mainly wrappers of one line. Statistical
quality of random draws is not modelled (draws are arbitrary inputs).
