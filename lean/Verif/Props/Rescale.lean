import Verif.Lemmas.RescaleFit
import Verif.Lemmas.Lstsq
import Verif.Props.MainLoopRaise
import Verif.Model.Gqtpar
import Verif.Props.Convergence

/-!
# C113: the units of the criterion do not matter
-/

namespace Tranquilo

variable {K : Type} [Field K] [LinearOrder K] [IsStrictOrderedRing K] {n m : Nat} {VM VM' SM : Type}

/-- C113, for arbitrary components: if the criterion is `c * f + d` instead of `f` (`0 < c`), the options
that have units are converted, and the components respect the change of units, then the run does the
same. It raises the same exception or none; it stores the same points in the same order and evaluates
them equally often; all decisions, radii and messages are the same; the recorded values are those of
the first run in the new units. -/
theorem C113_units_of_the_criterion [FloorRing K] {c d : K} (hc : 0 < c) {RV : VM → VM' → Prop}
    {RS : SM → SM → Prop} {comp : ComponentsR K n VM SM} {comp' : ComponentsR K n VM' SM} (g : Config K) (hf : UnitFree c d g comp)
    (hu : UnitsRespected c d g.noisy RV RS comp comp') (x : Vec K n) (radius : K) (bounds : Bounds K n) :
    SameOutcome (SameCourse c d RV RS) (tranquiloR g comp x radius bounds)
      (tranquiloR (g.rescale c) comp' x radius bounds) := by
  simp only [tranquiloR]
  refine SameOutcome.bind (start_rescale g hu x radius bounds) fun r r' _ hr => ?_
  exact runLoop_rescale hc g hf hu g.maxIter 0 hr

/-- The settings `b'` are the settings `b` for the criterion in the new units `c * f + d`; residual `k` is
in the new units `r * f_k + e_k`. The random numbers do not depend on values. -/
structure SettingsInUnits (c d r : K) (e : Vec K m) (b b' : BuiltinSettings K n m) : Prop where
  oracle : ∀ k x, b'.oracle k x = (b.oracle k x).rescale c d
  data : ∀ h i k, b'.data (h.rescale c d) i k = (b.data h i k).rescale r (e k)
  start : ∀ h, b'.start (h.rescale c d) = fun k => r * b.start h k + e k
  rng : ∀ it round h, b'.rng it round (h.rescale c d) = b.rng it round h
  rest : b' = { b with oracle := b'.oracle, data := b'.data, start := b'.start, rng := b'.rng }

/-- What C113 needs from the settings: the averaged evaluations are finite, `np.linalg.lstsq` and
`np.linalg.norm` do what they should, the subsolvers do not depend on the units, and an additive
constant is only allowed if models are fitted as corrections of the previous model. -/
structure UnitFreeSettings (c d r : K) (e : Vec K m) (b : BuiltinSettings K n m) : Prop where
  finite : ∀ h i k, (b.data h i k).isFinite = true
  lstsq : LstsqSpec b.lstsq
  nrm : ∀ v : Vec K n, b.nrm (fun i => c * v i) = c * b.nrm v
  aggregator : UnitsAgree r e b.aggregator c d
  constant : b.residualize = true ∨ e = fun _ => 0
  sphere : SolverUnitFree c d b.sphere
  cube : SolverUnitFree c d b.cube
  fallbackSphere : SolverUnitFree c d b.fallbackSphere
  fallbackCube : SolverUnitFree c d b.fallbackCube

/-- The built in components respect a change of units. -/
theorem builtin_unitsRespected [FloorRing K] {c d r : K} (hc : 0 < c) (hr : 0 < r) {e : Vec K m}
    {b b' : BuiltinSettings K n m} (hb : SettingsInUnits c d r e b b') (hs : UnitFreeSettings c d r e b) :
    UnitsRespected c d false (fun v v' => v' = v.rescale r e) (fun s s' => s' = s.rescale c d)
      (builtinComponents b) (builtinComponents b') := by
  obtain ⟨horacle, hdata, hstart, hrng, hrest⟩ := hb
  generalize b'.oracle = o at *
  generalize b'.data = dt at *
  generalize b'.start = st at *
  generalize b'.rng = rg at *
  subst hrest
  refine
    { nrm := rfl
      cubeRadius := rfl
      oracle := horacle
      filter := ?_
      sample := ?_
      fit := ?_
      aggregate := ?_
      solve := ?_
      initModel := ?_
      gradNorm := ?_
      noiseSigma := fun h => by cases h
      rhoNoise := fun h => by cases h }
  · intro s s' h t k xs is hss
    simp only [builtinComponents, builtinFilter, hss.x, hss.index, hss.trustregion]
  · intro it round h reg k xs
    simp only [builtinComponents, builtinSampleR, hrng]
  · rintro h is reg vm vm' rfl
    have := fitTemplate_rescale b hs.lstsq hr e hs.constant reg vm
      (fun s : Fin is.length => (h.xs[is[s]]?).getD reg.center) (fun s => b.data h is[s])
      fun s k => hs.finite _ _ _
    have hrow : ∀ i, dt (h.rescale c d) i = fun k => (b.data h i k).rescale r (e k) :=
      fun i => funext fun k => hdata h i k
    simp only [builtinComponents, builtinFit, hrow, Log.rescale_xs]
    exact this
  · rintro vm vm' rfl
    exact aggregate_rescale hs.aggregator vm
  · rintro sm sm' reg rfl
    exact builtinSolve_rescale hc b hs.sphere hs.cube hs.fallbackSphere hs.fallbackCube sm reg
  · intro h reg
    simp only [builtinComponents, builtinInit, VectorModel.rescale, hstart, mul_zero, Option.map_some]
  · rintro sm sm' rfl
    exact hs.nrm _

/-- C113, for the built in components: scalar criteria and sums of contributions may be multiplied by a
positive number, least squares residuals likewise (the criterion is multiplied by its square); if models
are fitted as corrections of the previous model, a constant may be added to scalar criteria and
contributions. Without noise, for all filters, samplers, fitters, deciders and options. -/
theorem C113_builtin_components [FloorRing K] {c d r : K} (hc : 0 < c) (hr : 0 < r) {e : Vec K m}
    {b b' : BuiltinSettings K n m} (hb : SettingsInUnits c d r e b b') (hs : UnitFreeSettings c d r e b)
    (g : Config K) (hn : g.noisy = false)
    (hconv : g.conv.disable = true ∨ (g.conv.gtolRel = 0 ∧ g.conv.ftolRel = 0)) (x : Vec K n) (radius : K)
    (bounds : Bounds K n) :
    SameOutcome (SameCourse c d (fun v v' => v' = v.rescale r e) (fun s s' => s' = s.rescale c d))
      (tranquiloR g (builtinComponents b) x radius bounds)
      (tranquiloR (g.rescale c) (builtinComponents b') x radius bounds) := by
  refine C113_units_of_the_criterion hc g ⟨Or.inr hconv, ?_⟩ ?_ x radius bounds
  · rw [hn]
    intro h
    cases h
  · rw [hn]
    exact builtin_unitsRespected hc hr hb hs

/-- The points at which the model is smallest on the feasible set of the subproblem. -/
def Minimizers (feasible : Set (Vec K n)) (s : ScalarModel K n) : Set (Vec K n) :=
  {y | y ∈ feasible ∧ ∀ z ∈ feasible, s.predict y ≤ s.predict z}

/-- A subsolver that finds a minimizer, by any rule to choose one of several, does not depend on the
units. -/
theorem C113_exact_solvers {c d : K} (hc : 0 < c) (feasible : Set (Vec K n))
    (choose : Set (Vec K n) → Vec K n) (k : Nat) :
    SolverUnitFree c d fun model _ => .ok ⟨choose (Minimizers feasible model), k, true⟩ := by
  intro model x
  have : Minimizers feasible (model.rescale c d) = Minimizers feasible model := by
    ext y
    simp only [Minimizers, Set.mem_ofPred_eq, ScalarModel.rescale_predict, add_le_add_iff_right,
      mul_le_mul_iff_right₀ hc]
  simp only [this]

/-- C113, the claim in terms of the criterion alone: a residual function `f` without noise that is
multiplied by `r` and shifted by `e`. What a user sees is the same: the points of the history in
the same order, the number of evaluations, whether and why the run converged, the final point; the final
value is in the new units. -/
theorem C113_same_answer [FloorRing K] {c d r : K} (hc : 0 < c) (hr : 0 < r) {e : Vec K m}
    (b : BuiltinSettings K n m) (f : Vec K n → Vec K m) (agg : Vec K m → K)
    (hagg : ∀ x, agg (fun k => r * f x k + e k) = c * agg (f x) + d)
    (horacle : ∀ k x, b.oracle k x = .fin (agg (f x)))
    (hdata : ∀ h i k, b.data h i k = .fin (f ((h.xs[i]?).getD fun _ => 0) k))
    (hstart : ∀ h, b.start h = f ((h.xs[0]?).getD fun _ => 0))
    (hrng : ∀ it round h, b.rng it round (h.rescale c d) = b.rng it round h)
    (hs : UnitFreeSettings c d r e b) (g : Config K) (hn : g.noisy = false)
    (hconv : g.conv.disable = true ∨ (g.conv.gtolRel = 0 ∧ g.conv.ftolRel = 0)) (x : Vec K n) (radius : K)
    (bounds : Bounds K n) (run : Run K n (VectorModel K n m) (ScalarModel K n))
    (hrun : tranquiloR g (builtinComponents b) x radius bounds = .ok run) :
    ∃ run', tranquiloR (g.rescale c) (builtinComponents
        { b with
          oracle := fun _ x => .fin (agg fun k => r * f x k + e k)
          data := fun h i k => .fin (r * f ((h.xs[i]?).getD fun _ => 0) k + e k)
          start := fun h k => r * f ((h.xs[0]?).getD fun _ => 0) k + e k }) x radius bounds = .ok run' ∧
      run'.log.xs = run.log.xs ∧ run'.log.evals.map Prod.fst = run.log.evals.map Prod.fst ∧
      run'.converged = run.converged ∧ run'.msg = run.msg ∧ run'.states.length = run.states.length ∧
      run'.state.x = run.state.x ∧ run'.state.fval = run.state.fval.rescale c d := by
  have hb : SettingsInUnits c d r e b
      { b with
        oracle := fun _ x => .fin (agg fun k => r * f x k + e k)
        data := fun h i k => .fin (r * f ((h.xs[i]?).getD fun _ => 0) k + e k)
        start := fun h k => r * f ((h.xs[0]?).getD fun _ => 0) k + e k } :=
    { oracle := fun k x => by
        rw [horacle]
        exact congrArg XVal.fin (hagg x)
      data := fun h i k => by rw [hdata]; rfl
      start := fun h => by rw [hstart]; rfl
      rng := hrng
      rest := rfl }
  have := C113_builtin_components hc hr hb hs g hn hconv x radius bounds
  rw [hrun] at this
  revert this
  cases tranquiloR (g.rescale c) _ x radius bounds with
  | error e => exact fun h => h.elim
  | ok run' =>
    intro h
    refine ⟨run', rfl, ?_, ?_, h.converged, h.msg, h.states.length_eq.symm, h.state.x, h.state.fval⟩
    · rw [h.log]; rfl
    · rw [h.log]
      simp [Log.rescale, List.map_map, Function.comp_def]

/-! ## Examples -/

/-- Components for a criterion in units of size `u`: the models are the unit. -/
def unitComponents (u : ℚ) : ComponentsR ℚ 1 ℚ ℚ :=
  { toyComponentsR (fun _ v => .fin (u * v 0 ^ 2)) with
    fit := fun _ _ _ old => .ok old
    solve := fun m region => .ok { x := fun i => region.center i / 2, expectedImprovement := m }
    initModel := fun _ _ => u }

/-- The hypotheses of `C113_units_of_the_criterion` can be met. -/
theorem unitComponents_respected {c : ℚ} (hc : 0 < c) (u : ℚ) :
    UnitsRespected c 0 false (fun v v' => v' = c * v) (fun s s' => s' = c * s)
      (unitComponents u) (unitComponents (c * u)) := by
  refine
    { nrm := rfl
      cubeRadius := rfl
      oracle := fun k x => by simp [unitComponents, XVal.rescale, toyComponentsR, mul_assoc]
      filter := fun s s' h t k xs is hs => rfl
      sample := fun _ _ _ _ _ _ => rfl
      fit := fun h is r vm vm' hv => hv
      aggregate := fun vm vm' hv => hv
      solve := fun sm sm' r h => ⟨rfl, h⟩
      initModel := fun _ _ => rfl
      gradNorm := fun sm sm' h => by subst h; simp only [unitComponents, toyComponentsR, abs_mul, abs_of_pos hc]
      noiseSigma := fun h => by cases h
      rhoNoise := fun h => by cases h }

example : UnitFree 7 3 (toyConfig 3 100 2 (.lineSearch 0 1)) (unitComponents 2) :=
  ⟨Or.inr (Or.inr ⟨rfl, rfl⟩), fun h => by cases h⟩

/-- C113, example: settings that meet all hypotheses. The least squares problem with the residual
`x - 3` in one variable, residuals in other units. -/
example (r : ℝ) (hr : 0 < r) : ∃ b : BuiltinSettings ℝ 1 1,
    UnitFreeSettings (r ^ 2) 0 r (fun _ => 0) b ∧ (∀ k x, b.oracle k x = .fin ((x 0 - 3) ^ 2)) ∧
    (∀ h i k, b.data h i k = .fin (((h.xs[i]?).getD fun _ => 0) 0 - 3)) ∧
    (∀ h, b.start h = fun _ => ((h.xs[0]?).getD fun _ => 0) 0 - 3) ∧
    ∀ it round h, b.rng it round (h.rescale (r ^ 2) 0) = b.rng it round h := by
  obtain ⟨l, hl⟩ := exists_lstsq
  let pick : Set (Vec ℝ 1) → Vec ℝ 1 := fun s => Classical.epsilon fun y => y ∈ s
  let ball : Set (Vec ℝ 1) := {y | |y 0| ≤ 1}
  let b : BuiltinSettings ℝ 1 1 :=
    { nrm := fun v => |v 0|
      root := Real.sqrt
      radial := fun _ => 1
      cubeRadius := id
      dimRoot := Real.sqrt
      lstsq := l
      qr := fun _ _ _ _ => 0
      oracle := fun _ y => .fin ((y 0 - 3) ^ 2)
      data := fun h i _ => .fin (((h.xs[i]?).getD fun _ => 0) 0 - 3)
      start := fun h _ => ((h.xs[0]?).getD fun _ => 0) 0 - 3
      filter := .discardAll
      sampler := .randomHull none
      rng := fun _ _ _ => oneRng
      fitter := .ols
      modelType := .linear
      residualize := true
      aggregator := "least_squares_linear"
      sphere := fun model _ => .ok ⟨pick (Minimizers ball model), 0, true⟩
      cube := fun model _ => .ok ⟨pick (Minimizers ball model), 0, true⟩
      fallbackSphere := fun _ x => .ok ⟨x, 0, true⟩
      fallbackCube := fun _ x => .ok ⟨x, 0, true⟩
      retry := false
      fvecs := fun log i => (log.fvals i).map fun v _ => v
      noiseDistance := 3
      noiseMinEvals := 3
      covOfOne := fun _ _ _ => .nan
      draws := fun _ _ _ _ k => List.replicate k fun _ _ => 0
      nDraws := 100
      ignoreCorrelation := true }
  have hc : 0 < r ^ 2 := pow_pos hr 2
  refine ⟨b, ?_, fun _ _ => rfl, fun _ _ _ => rfl, fun _ => rfl, fun _ _ _ => rfl⟩
  exact
    { finite := fun _ _ _ => rfl
      lstsq := hl
      nrm := fun v => by simp only [b, abs_mul, abs_of_pos hc]
      aggregator := .leastSquares rfl
      constant := Or.inr rfl
      sphere := C113_exact_solvers hc ball pick 0
      cube := C113_exact_solvers hc ball pick 0
      fallbackSphere := fun _ _ => rfl
      fallbackCube := fun _ _ => rfl }

/-! ## The conditions are needed -/

/-- C113 fails for tolerances that are relative in name: "relative" means relative to `max(1, .)`. With a
gradient tolerance of `1e-8` the criterion `1e-9 * x ^ 2` is declared converged after the first step, the
criterion `x ^ 2` is not. -/
theorem C113_violated_relative_tolerances :
    let g : Config ℚ := { toyConfig 3 100 2 (.classic 0) with
      conv := { disable := false, ftolAbs := 0, gtolAbs := 0, xtolAbs := 0, ftolRel := 0
                gtolRel := 1 / 10 ^ 8, xtolRel := 0 } }
    okAnd (fun r => r.msg = some .gtolRel ∧ r.states.length = 2)
      (tranquiloR g (unitComponents (1 / 10 ^ 9)) (fun _ => 2) 1 noBounds) = true ∧
    okAnd (fun r => r.msg = none ∧ r.states.length = 4)
      (tranquiloR g (unitComponents 1) (fun _ => 2) 1 noBounds) = true := by
  decide +kernel

/-- C113 fails for infinite values: the number that replaces an infinite value contains an absolute
constant, so it does not follow the units. -/
theorem C113_violated_infinite_values :
    clipRelative [XVal.fin (0 : ℚ), .fin 1, .pinf] = [0, 1, 4] ∧
    clipRelative ([XVal.fin (0 : ℚ), .fin 1, .pinf].map (XVal.rescale 2 0)) = [0, 2, 7] := by
  decide +kernel

/-- C113 fails for the sample size of the decider "noisy" below an absolute limit: noise and expected
improvement of `1e-9`, and the same in units that are `1e9` times smaller. -/
theorem C113_violated_small_improvements :
    getAcceptanceSampleSizes (1 / 10 ^ 9 : ℚ) 0 (1 / 10 ^ 9) 2 2 1 100 ≠
      getAcceptanceSampleSizes (10 ^ 9 * (1 / 10 ^ 9) : ℚ) 0 (10 ^ 9 * (1 / 10 ^ 9)) 2 2 1 100 := by
  decide +kernel

/-- A triangular matrix for which the estimate of the smallest singular value depends on units. -/
def unitFactor (t : ℚ) : Mat ℚ 3 3 := fun i j =>
  t * (if j < i then 0 else if i.val = 0 ∧ j.val = 1 then 1 / 2 else 1)

/-- C113 fails inside of gqtpar: the vector from which the smallest singular value of the factor is
estimated mixes terms in different units, so it is not the same direction after a change of units. -/
theorem C113_violated_singular_value_estimate :
    List.ofFn (estimateCondition (unitFactor 1)) = [1, 1 / 2, -5 / 2] ∧
    List.ofFn (estimateCondition (unitFactor (1 / 2))) = [2, -3, 3] := by
  decide +kernel

end Tranquilo
