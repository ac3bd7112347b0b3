import Verif.Lemmas.RelocateFit
import Verif.Props.Rescale
import Verif.Model.Fallback
import Verif.Model.SlowSolvers

/-!
# C114: origin and unit of the parameters do not matter
-/

namespace Tranquilo

variable {K : Type} [Field K] [LinearOrder K] [IsStrictOrderedRing K] {n m : Nat} {VM SM : Type}

/-- C114, for arbitrary components: if every parameter vector `x` is written as `s * x + a` (`0 < s`), the
start vector, the bounds, the radius and the options that are lengths are converted, and the components
do not depend on the place, then the run does the same. It raises the same exception or none; it stores
the same points (in the new coordinates) in the same order and evaluates them equally often; all values,
decisions and messages are the same. -/
theorem C114_origin_and_unit_of_parameters [FloorRing K] {s : K} (hs : 0 < s) {a : Vec K n}
    {RV : VM → VM → Prop} {RS : SM → SM → Prop} {comp comp' : ComponentsR K n VM SM} (g : Config K)
    (bounds : Bounds K n) (hf : PlaceFree s a g comp comp' bounds)
    (hu : PlaceRespected s a g.noisy RV RS comp comp') (x : Vec K n) (radius : K) (hr : radius ≠ 0) :
    SameOutcome (MovedCourse s a RV RS) (tranquiloR g comp x radius bounds)
      (tranquiloR (g.relocate s) comp' (relocate s a x) (s * radius) (bounds.relocate s a)) := by
  simp only [tranquiloR]
  refine SameOutcome.bind (start_relocate g hu x radius hr bounds) fun r r' _ h => ?_
  exact runLoop_relocate hs g hf hu g.maxIter 0 h.1 h.2

/-- What C114 needs from the settings of the built in components: `np.linalg.norm` and the radius of the cube are
homogeneous, and the subsolvers only look at the model on the unit region. -/
structure PlaceFreeSettings (s : K) (b : BuiltinSettings K n m) : Prop where
  nrm : ∀ v : Vec K n, b.nrm (fun i => s * v i) = s * b.nrm v
  cubeRadius : ∀ r, b.cubeRadius (s * r) = s * b.cubeRadius r
  sphere : SolverPlaceFree b.sphere
  cube : SolverPlaceFree b.cube
  fallbackSphere : SolverPlaceFree b.fallbackSphere
  fallbackCube : SolverPlaceFree b.fallbackCube

/-- C114, for the built in components, with and without noise: all filters, samplers, fitters, aggregators
and deciders. -/
theorem C114_builtin_components [FloorRing K] {s : K} (hs : 0 < s) {a : Vec K n}
    (b : BuiltinSettings K n m) (hb : PlaceFreeSettings s b) (g : Config K) (bounds : Bounds K n)
    (hconv : g.conv.disable = true ∨ (g.conv.xtolRel = 0 ∧ ∀ v, b.nrm v ≤ 0 ↔ ∀ i, v i = 0))
    (hborder : ∀ m rf, g.decider = .lineSearch m rf → g.batchSize = 1 ∨
      ∀ r x, r.bounds = bounds → isOnBorder b.nrm b.cubeRadius (r.relocate s a) (relocate s a x)
        (1 / 10) = isOnBorder b.nrm b.cubeRadius r x (1 / 10))
    (x : Vec K n) (radius : K) (hr : radius ≠ 0) :
    SameOutcome (MovedCourse s a (MovedModel s a) fun u u' => u' = u.relocate s a)
      (tranquiloR g (builtinComponents b) x radius bounds)
      (tranquiloR (g.relocate s) (builtinComponents (b.relocate s a)) (relocate s a x) (s * radius)
        (bounds.relocate s a)) := by
  refine C114_origin_and_unit_of_parameters hs g bounds ⟨?_, hborder⟩
    (builtin_place hs b hb.nrm hb.cubeRadius hb.sphere hb.cube hb.fallbackSphere hb.fallbackCube g.noisy)
    x radius hr
  exact hconv.imp id fun h => ⟨h.1, h.2, h.2⟩

/-- C114, what a user sees. The criterion converts its argument to the old coordinates and does what it did
before (`BuiltinSettings.relocate`). If the call in the old coordinates returns, the call in the new
coordinates returns; the points of the history are the same points in the same order, the evaluations
and their values are the same, whether and why the run converged is the same, the final point is the
same point and has the same value. -/
theorem C114_same_answer [FloorRing K] {s : K} (hs : 0 < s) {a : Vec K n}
    (b : BuiltinSettings K n m) (hb : PlaceFreeSettings s b) (g : Config K) (bounds : Bounds K n)
    (hconv : g.conv.disable = true ∨ (g.conv.xtolRel = 0 ∧ ∀ v, b.nrm v ≤ 0 ↔ ∀ i, v i = 0))
    (hborder : ∀ m rf, g.decider = .lineSearch m rf → g.batchSize = 1)
    (x : Vec K n) (radius : K) (hr : radius ≠ 0) (run : Run K n (VectorModel K n m) (ScalarModel K n))
    (hrun : tranquiloR g (builtinComponents b) x radius bounds = .ok run) :
    ∃ run', tranquiloR (g.relocate s) (builtinComponents (b.relocate s a)) (fun i => s * x i + a i)
        (s * radius) (bounds.relocate s a) = .ok run' ∧
      run'.log.xs = run.log.xs.map (fun x i => s * x i + a i) ∧ run'.log.evals = run.log.evals ∧
      run'.converged = run.converged ∧ run'.msg = run.msg ∧ run'.states.length = run.states.length ∧
      (run'.state.x = fun i => s * run.state.x i + a i) ∧ run'.state.fval = run.state.fval := by
  have := C114_builtin_components hs (a := a) b hb g bounds hconv
    (fun m rf h => .inl (hborder m rf h)) x radius hr
  rw [hrun] at this
  revert this
  change SameOutcome _ _ (tranquiloR (g.relocate s) (builtinComponents (b.relocate s a))
    (fun i => s * x i + a i) (s * radius) (bounds.relocate s a)) → _
  cases tranquiloR (g.relocate s) (builtinComponents (b.relocate s a)) (fun i => s * x i + a i)
    (s * radius) (bounds.relocate s a) with
  | error e => exact fun h => h.elim
  | ok run' =>
    intro h
    refine ⟨run', rfl, ?_, ?_, h.converged, h.msg, h.states.length_eq.symm, h.state.x, h.state.fval⟩
    · rw [h.log]; rfl
    · rw [h.log]; rfl

/-- Without bounds every region is a sphere. -/
theorem shape_without_bounds (r : Region K n) (h : r.bounds = ⟨fun _ => none, fun _ => none⟩) :
    r.shape = .sphere := by
  simp [Region.shape, lowerBinding, upperBinding, h]

/-- C114, a shift of the origin without bounds: all deciders, including the line search with a batch. -/
theorem C114_origin_without_bounds [FloorRing K] {a : Vec K n}
    (b : BuiltinSettings K n m) (hb : PlaceFreeSettings 1 b) (g : Config K)
    (hconv : g.conv.disable = true ∨ (g.conv.xtolRel = 0 ∧ ∀ v, b.nrm v ≤ 0 ↔ ∀ i, v i = 0))
    (x : Vec K n) (radius : K) (hr : radius ≠ 0) :
    SameOutcome (MovedCourse 1 a (MovedModel 1 a) fun u u' => u' = u.relocate 1 a)
      (tranquiloR g (builtinComponents b) x radius ⟨fun _ => none, fun _ => none⟩)
      (tranquiloR g (builtinComponents (b.relocate 1 a)) (fun i => x i + a i) radius
        ⟨fun _ => none, fun _ => none⟩) := by
  have := C114_builtin_components one_pos (a := a) b hb g ⟨fun _ => none, fun _ => none⟩ hconv
    (fun m rf _ => .inr fun r y hbd => ?_) x radius hr
  · have hg : g.relocate 1 = g := by simp [Config.relocate]
    have hx : relocate 1 a x = fun i => x i + a i := funext fun i => by simp [relocate]
    rwa [hg, hx, one_mul] at this
  · have h1 := shape_without_bounds r hbd
    have h2 := Region.relocate_shape one_pos (a := a) r
    rw [h1] at h2
    simp only [isOnBorder, h2, h1]
    simp only [Region.relocate]
    rw [relocate_sub (s := (1 : K)) (a := a) y r.center]
    simp only [one_mul]

/-- The built in subsolvers for which the model has an adapter only look at the model on the unit region:
both versions of gqtpar, and the fallback solvers. -/
theorem C114_subsolvers (root : K → K) (ext : GqExternal K n) (singular : Mat K n n → K × Vec K n)
    (eps kEasy kHard : K) (maxiter : Nat) (scipy : ScipyMinimize K n) :
    SolverPlaceFree (gqtpar root ext eps kEasy kHard maxiter) ∧
    SolverPlaceFree (gqtparNp root ext singular eps kEasy kHard maxiter) ∧
    SolverPlaceFree (fallbackCubeSolver scipy) ∧ SolverPlaceFree (inscribedCubeSolver root scipy) ∧
    SolverPlaceFree (reparametrizedSolver root scipy) :=
  ⟨fun _ _ _ _ => rfl, fun _ _ _ _ => rfl, fun _ _ _ _ => rfl, fun _ _ _ _ => rfl,
    fun _ _ _ _ => rfl⟩

/-! ## Examples -/

/-- Components for the criterion `((x - a) / s) ^ 2`. -/
def placeComponents (s a : ℚ) : ComponentsR ℚ 1 ℚ ℚ :=
  { toyComponentsR (fun _ v => .fin (((v 0 - a) / s) ^ 2)) with
    solve := fun _ region =>
      .ok { x := fun i => region.center i + (a - region.center i) / 2, expectedImprovement := 1 } }

/-- The hypotheses of `C114_origin_and_unit_of_parameters` can be met. -/
theorem placeComponents_respected {s : ℚ} (hs : 0 < s) (a : ℚ) :
    PlaceRespected s (fun _ => a) false (fun v v' => v' = v) (fun u u' => u' = u)
      (placeComponents 1 0) (placeComponents s a) where
  nrm v := by simp only [placeComponents, toyComponentsR, abs_mul, abs_of_pos hs]
  cubeRadius r := rfl
  oracle k x := by
    simp only [placeComponents, toyComponentsR, relocate, add_sub_cancel_right, sub_zero, div_one]
    rw [mul_div_cancel_left₀ _ hs.ne']
  filter t t' h size k xs is ht := rfl
  sample it round h r k xs := by
    simp [placeComponents, toyComponentsR, centerSample, SameOutcome, Region.relocate]
  fit h is r vm vm' hv := by subst hv; exact rfl
  aggregate vm vm' hv := hv
  solve sm sm' r h := by
    refine ⟨?_, rfl⟩
    funext i
    simp only [relocate, Region.relocate]
    ring
  initModel h r hr := rfl
  gradNorm sm sm' h := by subst h; rfl
  noiseSigma h := by cases h
  rhoNoise h := by cases h

example {s : ℚ} (a : ℚ) : PlaceFree s (fun _ => a) (toyConfig 3 100 1 (.lineSearch 0 1))
    (placeComponents 1 0) (placeComponents s a) twoBounds :=
  ⟨.inr ⟨rfl, fun v => by simp [placeComponents, toyComponentsR],
    fun v => by simp [placeComponents, toyComponentsR]⟩, fun _ _ _ => .inl rfl⟩

/-- C114, example: a problem in one variable and the same problem with the origin at 1000 and a unit that
is 60 times smaller (hours and minutes). -/
example :
    okAnd (fun r => r.log.xs.map (fun v => v 0) = [2, 2, 2, 1, 1 / 2, 1 / 4])
      (tranquiloR (toyConfig 3 100 2 (.classic 0)) (placeComponents 1 0) (fun _ => 2) 1 noBounds) = true ∧
    okAnd (fun r => r.log.xs.map (fun v => v 0) =
        [1120, 1120, 1120, 1060, 1030, 1015])
      (tranquiloR ((toyConfig 3 100 2 (.classic 0)).relocate 60) (placeComponents 60 1000) (fun _ => 1120)
        60 noBounds) = true := by
  decide +kernel

/-- C114, example: settings with the Euclidean norm, two variables, gqtpar and the fallback solvers meet the
hypotheses. -/
example (s : ℝ) (hs : 0 < s) (ext : GqExternal ℝ 2) (scipy : ScipyMinimize ℝ 2) :
    ∃ b : BuiltinSettings ℝ 2 1, PlaceFreeSettings s b ∧ (∀ v, b.nrm v ≤ 0 ↔ ∀ i, v i = 0) ∧
      b.sphere = gqtpar Real.sqrt ext (1 / 2 ^ 52) (1 / 10) (1 / 5) 200 := by
  obtain ⟨l, -⟩ := exists_lstsq
  let b : BuiltinSettings ℝ 2 1 :=
    { nrm := fun v => Real.sqrt (v 0 ^ 2 + v 1 ^ 2)
      root := Real.sqrt
      radial := fun u => u
      cubeRadius := fun r => Real.sqrt 3 * r
      dimRoot := Real.sqrt
      lstsq := l
      qr := fun _ _ _ _ => 0
      oracle := fun _ y => .fin (y 0 ^ 2 + y 1 ^ 2)
      data := fun h i _ => .fin (((h.xs[i]?).getD fun _ => 0) 0 ^ 2)
      start := fun h _ => ((h.xs[0]?).getD fun _ => 0) 0 ^ 2
      filter := .clustering 1 "sphere"
      sampler := .randomHull none
      rng := fun _ _ _ => ⟨fun k => List.replicate k fun _ => 1, fun k => List.replicate k fun _ => 0,
        fun m k => List.replicate m (List.replicate k fun _ => 1),
        fun m k => List.replicate m (List.replicate k fun _ => 0)⟩
      fitter := .ols
      modelType := .quadratic
      residualize := true
      aggregator := "identity"
      sphere := gqtpar Real.sqrt ext (1 / 2 ^ 52) (1 / 10) (1 / 5) 200
      cube := fallbackCubeSolver scipy
      fallbackSphere := inscribedCubeSolver Real.sqrt scipy
      fallbackCube := fallbackCubeSolver scipy
      retry := true
      fvecs := fun log i => (log.fvals i).map fun v _ => v
      noiseDistance := 3
      noiseMinEvals := 3
      covOfOne := fun _ _ _ => .nan
      draws := fun _ _ _ _ k => List.replicate k fun _ _ => 0
      nDraws := 100
      ignoreCorrelation := true }
  refine ⟨b, ⟨fun v => ?_, fun r => ?_, fun _ _ _ _ => rfl, fun _ _ _ _ => rfl, fun _ _ _ _ => rfl,
    fun _ _ _ _ => rfl⟩, fun v => ?_, rfl⟩
  · simp only [b]
    rw [show (s * v 0) ^ 2 + (s * v 1) ^ 2 = s ^ 2 * (v 0 ^ 2 + v 1 ^ 2) by ring,
      Real.sqrt_mul (sq_nonneg s), Real.sqrt_sq hs.le]
  · simp only [b]
    ring
  · simp only [b]
    rw [Real.sqrt_le_left le_rfl]
    simp only [Fin.forall_fin_two]
    constructor
    · intro h
      have h0 := sq_nonneg (v 0)
      have h1 := sq_nonneg (v 1)
      norm_num at h
      exact ⟨pow_eq_zero_iff two_ne_zero |>.1 (by linarith), pow_eq_zero_iff two_ne_zero |>.1 (by linarith)⟩
    · rintro ⟨h0, h1⟩
      simp [h0, h1]

/-! ## The conditions are needed -/

/-- C114 fails for the relative tolerance of the parameters: far away from the origin the first step counts
as convergence. -/
theorem C114_violated_relative_tolerance :
    let g : Config ℚ := { toyConfig 3 100 2 (.classic 0) with
      conv := { disable := false, ftolAbs := 0, gtolAbs := 0, xtolAbs := 0, ftolRel := 0
                gtolRel := 0, xtolRel := 1 / 100 } }
    okAnd (fun r => r.msg = none ∧ r.states.length = 4)
      (tranquiloR g (placeComponents 1 0) (fun _ => 2) 1 noBounds) = true ∧
    okAnd (fun r => r.msg = some .xtolRel ∧ r.states.length = 2)
      (tranquiloR g (placeComponents 1 1000) (fun _ => 1002) 1 noBounds) = true := by
  decide +kernel

/-- C114 fails for the default radius: it is a tenth of the largest coordinate of the start vector, which
depends on the origin. -/
theorem C114_violated_default_radius :
    defaultRadius [(2 : ℚ), -1] = .ok (1 / 5) ∧ defaultRadius [(1002 : ℚ), 999] = .ok (501 / 5) := by
  decide +kernel

/-- C114 fails for the test whether a candidate is on the border of a box: the tolerance is relative to the
coordinates. Far away from the origin the center of the region is on its border. -/
theorem C114_violated_border :
    isOnBorder (fun v : Vec ℚ 1 => |v 0|) id ⟨fun _ => 0, 1, ⟨fun _ => some (-1 / 2), fun _ => none⟩⟩
      (fun _ => 0) (1 / 10) = false ∧
    isOnBorder (fun v : Vec ℚ 1 => |v 0|) id
      ⟨fun _ => 1000, 1, ⟨fun _ => some (1000 - 1 / 2), fun _ => none⟩⟩ (fun _ => 1000) (1 / 10) = true := by
  decide +kernel

/-- C114 fails for very small units: the border of a sphere has an absolute tolerance. -/
theorem C114_violated_small_unit :
    isOnBorder (fun v : Vec ℚ 1 => |v 0|) id ⟨fun _ => 0, 1, noBounds⟩ (fun _ => 0) (1 / 10) = false ∧
    isOnBorder (fun v : Vec ℚ 1 => |v 0|) id ⟨fun _ => 0, 1 / 10 ^ 9, noBounds⟩ (fun _ => 0) (1 / 10) =
      true := by
  decide +kernel

end Tranquilo
