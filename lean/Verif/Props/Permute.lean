import Verif.Lemmas.PermuteSolvers
import Verif.Props.Relocate
import Verif.Props.CallUses
import Verif.Props.Reorder
import Verif.Spec.PermuteCall

/-!
# C121: the order of the parameters does not matter
-/

namespace Tranquilo

variable {K : Type} [Field K] [LinearOrder K] [IsStrictOrderedRing K] {n m : Nat} {VM SM : Type}

/-- C121, for arbitrary components: if the parameters are put into another order (parameter `i` of the new
problem is parameter `σ i` of the old one), the start vector and the bounds are put into the new order, and
the components treat all parameters alike, then the run does the same. It raises the same exception or none;
it stores the same points (in the new order) one after the other and evaluates them equally often; all
values, decisions and messages are the same. All options stay as they are. -/
theorem C121_order_of_parameters [FloorRing K] {σ : Equiv.Perm (Fin n)}
    {RV : VM → VM → Prop} {RS : SM → SM → Prop} {comp comp' : ComponentsR K n VM SM} (g : Config K)
    (bounds : Bounds K n) (hu : OrderRespected σ g.noisy RV RS comp comp') (x : Vec K n) (radius : K) :
    SameOutcome (PermutedCourse σ RV RS) (tranquiloR g comp x radius bounds)
      (tranquiloR g comp' (permute σ x) radius (bounds.permute σ)) := by
  simp only [tranquiloR]
  exact SameOutcome.bind (start_permute g hu x radius bounds) fun r r' _ h =>
    runLoop_permute g hu g.maxIter 0 h

/-- C121, for the built in components, with and without noise: all filters, samplers, aggregators and
deciders, all fitters except for "powell". -/
theorem C121_builtin_components [FloorRing K] {σ : Equiv.Perm (Fin n)} (b : BuiltinSettings K n m)
    (hb : OrderFreeSettings σ b) (g : Config K) (bounds : Bounds K n) (x : Vec K n) (radius : K) :
    SameOutcome (PermutedCourse σ (fun v v' => v' = v.permute σ) fun u u' => u' = u.permute σ)
      (tranquiloR g (builtinComponents b) x radius bounds)
      (tranquiloR g (builtinComponents (b.permute σ)) (permute σ x) radius (bounds.permute σ)) :=
  C121_order_of_parameters g bounds (builtin_order b hb g.noisy) x radius

/-- C121, what a user sees. The criterion puts its argument into the old order and does what it did before
(`BuiltinSettings.permute`). If the call in the old order returns, the call in the new order returns; the
points of the history are the same points one after the other, the evaluations and their values are the
same, whether and why the run converged is the same, the final point is the same point and has the same
value. -/
theorem C121_same_answer [FloorRing K] {σ : Equiv.Perm (Fin n)} (b : BuiltinSettings K n m)
    (hb : OrderFreeSettings σ b) (g : Config K) (bounds : Bounds K n) (x : Vec K n) (radius : K)
    (run : Run K n (VectorModel K n m) (ScalarModel K n))
    (hrun : tranquiloR g (builtinComponents b) x radius bounds = .ok run) :
    ∃ run', tranquiloR g (builtinComponents (b.permute σ)) (fun i => x (σ i)) radius
        ⟨fun i => bounds.lower (σ i), fun i => bounds.upper (σ i)⟩ = .ok run' ∧
      run'.log.xs = run.log.xs.map (fun x i => x (σ i)) ∧ run'.log.evals = run.log.evals ∧
      run'.converged = run.converged ∧ run'.msg = run.msg ∧ run'.states.length = run.states.length ∧
      (run'.state.x = fun i => run.state.x (σ i)) ∧ run'.state.fval = run.state.fval := by
  have := C121_builtin_components b hb g bounds x radius
  rw [hrun] at this
  revert this
  change SameOutcome _ _ (tranquiloR g (builtinComponents (b.permute σ)) (fun i => x (σ i)) radius
    ⟨fun i => bounds.lower (σ i), fun i => bounds.upper (σ i)⟩) → _
  cases tranquiloR g (builtinComponents (b.permute σ)) (fun i => x (σ i)) radius
    ⟨fun i => bounds.lower (σ i), fun i => bounds.upper (σ i)⟩ with
  | error e => exact fun h => h.elim
  | ok run' =>
    intro h
    refine ⟨run', rfl, ?_, ?_, h.converged, h.msg, h.states.length_eq.symm, h.state.x, h.state.fval⟩
    · rw [h.log]; rfl
    · rw [h.log]; rfl

/-! ## The parts that are needed -/

/-- C121, default radius: a tenth of the largest coordinate does not depend on the order. -/
theorem C121_default_radius {l l' : List K} (h : l.Perm l') : defaultRadius l' = defaultRadius l := by
  have hkey : ∀ l : List K, l ≠ [] → defaultRadius l =
      .ok (1 / 10 * l.foldl (fun m y => max m |y|) 0) := by
    intro l hl
    cases l with
    | nil => exact absurd rfl hl
    | cons x xs => simp only [defaultRadius, List.foldl_cons, max_eq_right (abs_nonneg x)]
  by_cases h0 : l = []
  · subst h0
    rw [h.nil_eq]
  · have h0' : l' ≠ [] := fun h1 => h0 (by subst h1; exact h.eq_nil)
    rw [hkey l h0, hkey l' h0', (h.symm.foldl_eq' (fun x _ y _ z => max_right_comm z |x| |y|) 0)]

/-- C121, the solver for boxes with the default inner solver (conjugate gradients) or any other inner solver
that treats the parameters alike: the solution of the problem in the new order is the solution in the new
order; criterion value, number of iterations, success and message are the same. -/
theorem C121_bntr {σ : Equiv.Perm (Fin n)} (root : K → K) (eps : K) (broadcast : Bool)
    {inner : InnerSolver K} (hi : InnerOrderFree inner) (o : BntrOptions K) (fuel : Nat) (g : Vec K n)
    (h : Mat K n n) (l u x : Vec K n) :
    bntrFast root eps broadcast inner o fuel (permute σ g) (fun i j => h (σ i) (σ j)) (permute σ l)
      (permute σ u) (permute σ x) =
      (bntrFast root eps broadcast inner o fuel g h l u x).map fun r =>
        r.map fun s => { s with x := permute σ s.x } := by
  simp only [bntrFast, bntrPreliminary_permute]
  cases bntrPreliminary root eps o g h l u x with
  | error e => rfl
  | ok s =>
    simp only [Except.map, bind, Except.bind, bntrOuter_permute root eps broadcast hi]
    cases bntrOuter root eps broadcast inner o g h l u fuel (o.maxiter + 1) 0 s with
    | error e => rfl
    | ok r =>
      cases r with
      | none => rfl
      | some t => rfl

/-- C121, conjugate gradients (both versions). -/
theorem C121_conjugate_gradients {σ : Equiv.Perm (Fin n)} (root : K → K) (g : Vec K n) (h : Mat K n n)
    (radius gtolAbs gtolRel : K) :
    minimizeCg root (permute σ g) (fun i j => h (σ i) (σ j)) radius gtolAbs gtolRel =
      permute σ (minimizeCg root g h radius gtolAbs gtolRel) ∧
    minimizeCgFast root (permute σ g) (fun i j => h (σ i) (σ j)) radius gtolAbs gtolRel =
      permute σ (minimizeCgFast root g h radius gtolAbs gtolRel) ∧
    InnerOrderFree (innerCg root gtolAbs gtolRel) := by
  refine ⟨minimizeCg_along root σ g h radius gtolAbs gtolRel, ?_, innerCg_orderFree root gtolAbs gtolRel⟩
  rw [C73_conjugate_gradient, C73_conjugate_gradient]
  exact minimizeCg_along root σ g h radius gtolAbs gtolRel

/-- `bntr_fast` as a solver for cubes: the bounds of the unit cube, get_component and
solve_subproblem.py:185-197. The result for the limit of the loop is not reached (C47). -/
def bntrCubeSolver (root : K → K) (eps : K) (broadcast : Bool) (inner : InnerSolver K)
    (o : BntrOptions K) (fuel : Nat) : SubSolver K n := fun model x0 =>
  match model.squareTerms with
  | none => .error .typeError
  | some h => do
    match ← bntrFast root eps broadcast inner o fuel model.linearTerms h (fun _ => -1) (fun _ => 1) x0 with
    | none => .error .valueError
    | some r => .ok ⟨r.x, r.nIterations, r.success⟩

/-- C121: `bntr_fast` meets the condition for subsolvers. -/
theorem C121_bntr_subsolver (σ : Equiv.Perm (Fin n)) (root : K → K) (eps : K) (broadcast : Bool)
    {inner : InnerSolver K} (hi : InnerOrderFree inner) (o : BntrOptions K) (fuel : Nat) :
    SolverOrderFree σ (bntrCubeSolver root eps broadcast inner o fuel) := by
  intro model x
  simp only [bntrCubeSolver, ScalarModel.permute]
  cases model.squareTerms with
  | none => exact rfl
  | some h =>
    have := C121_bntr (σ := σ) root eps broadcast hi o fuel model.linearTerms h (fun _ => -1)
      (fun _ => 1) x
    simp only [Option.map_some]
    change SameOutcome _ _ (bntrFast root eps broadcast inner o fuel (permute σ model.linearTerms)
      (fun i j => h (σ i) (σ j)) (permute σ fun _ => -1) (permute σ fun _ => 1) (permute σ x) >>= _)
    rw [this]
    cases bntrFast root eps broadcast inner o fuel model.linearTerms h (fun _ => -1) (fun _ => 1) x with
    | error e => exact rfl
    | ok r =>
      cases r with
      | none => exact rfl
      | some r => exact rfl

/-- C121: the fallback solvers meet the condition for subsolvers if scipy's optimizer does. -/
theorem C121_fallback_subsolvers {σ : Equiv.Perm (Fin n)} (root : K → K) {scipy : ScipyMinimize K n}
    (hs : ScipyOrderFree σ scipy) :
    SolverOrderFree σ (fallbackCubeSolver scipy) ∧ SolverOrderFree σ (inscribedCubeSolver root scipy) ∧
    SolverOrderFree σ (reparametrizedSolver root scipy) := by
  have hcube : ∀ (radius : K) (model : ScalarModel K n) (x : Vec K n),
      SameOutcome (fun r r' => r'.x = permute σ r.x) (robustCube scipy radius model x)
        (robustCube scipy radius (model.permute σ) (permute σ x)) := by
    intro radius model x
    simp only [robustCube, fallbackCrit, ScalarModel.permute]
    cases model.squareTerms with
    | none => exact rfl
    | some h =>
      refine hs _ _ (fun y => ?_) x (fun _ => -radius) fun _ => radius
      simp only [dot_permute, halfQuad_permute]
  have hmap : ∀ (u u' : Except Err (CubeSolution K n)),
      SameOutcome (fun r r' => r'.x = permute σ r.x) u u' →
      SameOutcome (fun r r' => r'.x = permute σ r.x)
        (u.map fun r => (⟨r.x, r.nIterations, true⟩ : RawResult K n))
        (u'.map fun r => (⟨r.x, r.nIterations, true⟩ : RawResult K n)) := by
    intro u u'
    cases u <;> cases u' <;> exact fun h => h
  refine ⟨fun model x => hmap _ _ (hcube 1 model x), fun model x => hmap _ _ (hcube _ model x),
    fun model x => ?_⟩
  have hproj : ∀ y : Vec K n, projectToBall root (permute σ y) = permute σ (projectToBall root y) := by
    intro y
    simp only [projectToBall, norm2_permute]
    split_ifs <;> rfl
  simp only [reparametrizedSolver, SameOutcome]
  rw [← hproj]
  refine congrArg (projectToBall root) (hs _ _ (fun y => ?_) x (fun _ => -1) fun _ => 1)
  rw [hproj, ScalarModel.permute_predict]

/-! ## Calls -/

theorem defaultInitialRadius_perm {l l' : List K} (h : l.Perm l') :
    defaultInitialRadius l' = defaultInitialRadius l := by
  have : ∀ l : List K, defaultInitialRadius l = defaultRadius l := fun l => by cases l <;> rfl
  rw [this, this, C121_default_radius h]

/-- The arguments are processed in the same way. -/
theorem processArguments_perm [FloorRing K] {O R : Type} (env : PyEnv K O)
    (beh : String → String → Dict (PyVal K O) → Except Err R) (a : Arguments K O R) {l l' : List K}
    (h : l.Perm l') (hsize : ∀ g, a.sampleSize = .callable g → g l' = g l) :
    processArguments env beh { a with x := l' } = processArguments env beh { a with x := l } := by
  have h1 : ∀ mt noisy batch, processSampleSize env a.sampleSize mt l' noisy batch =
      processSampleSize env a.sampleSize mt l noisy batch := by
    intro mt noisy batch
    have hlen := h.length_eq
    revert hsize
    cases a.sampleSize with
    | value v =>
      intro _
      cases v <;> simp only [processSampleSize, hlen]
    | callable g =>
      intro hg
      simp only [processSampleSize, hg g rfl]
  have h2 : ∀ mt size, processModelFitter a.modelFitter mt size l' =
      processModelFitter a.modelFitter mt size l := by
    intro mt size
    simp only [processModelFitter, defaultModelFitter, h.length_eq]
  simp only [processArguments, h1, h2, defaultInitialRadius_perm h]

/-- C121 for calls, including the processing of the arguments: with start vector, bounds and criterion in the new
order the call raises the same exception, or both calls return and their runs visit the same points. (`none`: options
outside of what is modelled.) -/
theorem C121_call [FloorRing K] {O : Type} {σ : Equiv.Perm (Fin n)} (env : PyEnv K O) (ext : Externals K O n m)
    (a : Arguments K O (Option (Piece K n))) {sphere cube : String} (hext : ext.OrderFree σ sphere cube)
    (ha : OrderFreeArguments a sphere cube) (x : Vec K n) (bounds : Bounds K n) :
    SameOutcome (Option.Rel (PermutedCourse σ (fun v v' => v' = v.permute σ) fun u u' => u' = u.permute σ))
      (tranquiloCall env ext a x bounds)
      (tranquiloCall env (ext.permute σ) a (fun i => x (σ i)) ⟨fun i => bounds.lower (σ i), fun i => bounds.upper (σ i)⟩) := by
  have hperm : (List.ofFn x).Perm (List.ofFn fun i => x (σ i)) := by
    exact (Equiv.Perm.ofFn_comp_perm σ x).symm
  have hpieces : pieces (ext.permute σ) = pieces ext := rfl
  simp only [tranquiloCall, hpieces,
    processArguments_perm env (pieces ext) a hperm fun g hg => ha.sampleSize g hg _ _ hperm]
  cases hp : processArguments env (pieces ext) { a with x := List.ofFn x } with
  | error e => exact rfl
  | ok p =>
    rw [except_ok_bind, except_ok_bind]
    have hset : callSettings (ext.permute σ) p = (callSettings ext p).map (BuiltinSettings.permute σ) := by
      unfold callSettings
      simp only [Option.bind_eq_bind, Option.map_bind, Option.pure_def, Function.comp_def, Option.map_some]
      rfl
    rw [hset]
    cases hc : callConfig p with
    | none => exact .none
    | some c =>
    cases hb : callSettings ext p with
    | none => exact .none
    | some b =>
    cases hr : numOf p.radiusOptions "initial_radius" with
    | none => exact .none
    | some radius =>
      have hu := call_uses env ext a x p hp c hc b hb radius hr
      have hfree : OrderFreeSettings σ b :=
        { nrm := by rw [hu.numpy.1]; exact hext.nrm
          lstsq := by rw [hu.numpy.2.2.2.2.2.1]; exact hext.lstsq
          sampler := by
            obtain ⟨s, hs⟩ := ha.sampler
            have := hu.sampler s hs
            generalize b.sampler = q at this
            cases this with
            | interior => trivial
            | hull => trivial
            | optimal => exact hext.minimize _ _
          fitter := by
            have hname : ∃ s, requestedName a.modelFitter (if b.modelType = .linear ∨
                1 + n + n * (n + 1) / 2 ≤ c.targetSize then "ols" else "tranquilo") = some s ∧
                s ≠ "powell" := by
              rcases ha.fitter with h | ⟨s, h, hs⟩
              · rw [h]
                refine ⟨_, rfl, ?_⟩
                split_ifs <;> decide
              · rw [h]
                exact ⟨s, rfl, hs⟩
            obtain ⟨s, h1, h2⟩ := hname
            have := (hu.fitter s h1).1
            intro h3
            rw [h3] at this
            cases this
            exact h2 rfl
          sphere := by
            obtain ⟨d, hd, -⟩ := hu.sphere _ ha.sphere
            rw [hd]
            exact hext.sphere d
          cube := by
            obtain ⟨d, hd, -⟩ := hu.cube _ ha.cube
            rw [hd]
            exact hext.cube d
          fallbackSphere := by
            rw [hu.fallbacks.1]
            exact (C121_fallback_subsolvers ext.root hext.scipy).2.1
          fallbackCube := by
            rw [hu.fallbacks.2]
            exact (C121_fallback_subsolvers ext.root hext.scipy).1 }
      have := C121_builtin_components b hfree c bounds x radius
      simp only [Option.map_some]
      revert this
      change SameOutcome _ _ (tranquiloR c (builtinComponents (b.permute σ)) (fun i => x (σ i)) radius
        ⟨fun i => bounds.lower (σ i), fun i => bounds.upper (σ i)⟩) → _
      cases tranquiloR c (builtinComponents b) x radius bounds <;>
        cases tranquiloR c (builtinComponents (b.permute σ)) (fun i => x (σ i)) radius
          ⟨fun i => bounds.lower (σ i), fun i => bounds.upper (σ i)⟩
      · exact fun h => h
      · exact fun h => h
      · exact fun h => h
      · exact fun h => .some h

/-! ## Examples -/

/-- Components in two dimensions for the criterion `a * x ** 2 + b * y ** 2`. -/
def weightedComponents (a b : ℚ) : ComponentsR ℚ 2 ℚ ℚ where
  nrm v := max |v 0| |v 1|
  cubeRadius := id
  oracle _ v := .fin (a * v 0 ^ 2 + b * v 1 ^ 2)
  filter _ _ _ _ xs ids := .ok (keepAll xs ids)
  sample _ _ _ region k _ := .ok (List.replicate k fun i => region.center i + region.radius / 2)
  fit _ _ _ old := .ok (old + 1)
  aggregate v := .ok v
  solve _ region := .ok { x := fun i => max (region.center i / 2) ((region.bounds.lower i).getD 0)
                          expectedImprovement := 1 }
  initModel _ _ := 0
  gradNorm m := |m|
  noiseSigma _ _ := .error .valueError
  rhoNoise _ _ _ _ _ _ := .error .valueError

/-- The hypotheses of `C121_order_of_parameters` can be met. -/
theorem weightedComponents_order (a b : ℚ) :
    OrderRespected (Equiv.swap 0 1) false (fun v v' => v' = v) (fun u u' => u' = u)
      (weightedComponents a b) (weightedComponents b a) where
  nrm v := by simp [weightedComponents, permute, max_comm]
  cubeRadius r := rfl
  oracle k x := by simp [weightedComponents, permute, add_comm]
  filter t t' h size k xs is ht := rfl
  sample it round h r k xs := by
    simp only [weightedComponents, SameOutcome, List.map_replicate]
    rfl
  fit h is r vm vm' hv := by subst hv; exact rfl
  aggregate vm vm' hv := hv
  solve sm sm' r h := ⟨rfl, rfl⟩
  initModel h r := rfl
  gradNorm sm sm' h := by subst h; rfl
  noiseSigma h := by cases h
  rhoNoise h := by cases h

/-- C121, example: `x ** 2 + 3 * y ** 2` with `x >= 1` and `3 * x ** 2 + y ** 2` with `y >= 1`. -/
example :
    okAnd (fun r => r.log.xs.map (fun v => (v 0, v 1)) =
        [(4, 2), (9 / 2, 5 / 2), (9 / 2, 5 / 2), (2, 1), (1, 1 / 2), (1, 1 / 4)] ∧
      r.state.fval = .fin (19 / 16))
      (tranquiloR (toyConfig 3 100 2 (.classic 0)) (weightedComponents 1 3) ![4, 2] 1
        ⟨![some 1, none], ![none, none]⟩) = true ∧
    okAnd (fun r => r.log.xs.map (fun v => (v 0, v 1)) =
        [(2, 4), (5 / 2, 9 / 2), (5 / 2, 9 / 2), (1, 2), (1 / 2, 1), (1 / 4, 1)] ∧
      r.state.fval = .fin (19 / 16))
      (tranquiloR (toyConfig 3 100 2 (.classic 0)) (weightedComponents 3 1) ![2, 4] 1
        ⟨![none, some 1], ![none, none]⟩) = true := by
  decide +kernel

/-- C121, example: settings with the Euclidean norm, two variables, `bntr_fast` for cubes and conjugate
gradients for spheres meet the hypotheses for the exchange of the two variables. -/
example : ∃ b : BuiltinSettings ℝ 2 1, OrderFreeSettings (Equiv.swap 0 1) b ∧ b.modelType = .quadratic ∧
    b.cube = bntrCubeSolver Real.sqrt (1 / 2 ^ 52) true (innerCg Real.sqrt (1 / 10 ^ 8) (1 / 10 ^ 6))
      ⟨20, 5, 1 / 10 ^ 8, 1 / 10 ^ 8, 0⟩ 100 := by
  obtain ⟨l, hl⟩ := exists_lstsq
  let b : BuiltinSettings ℝ 2 1 :=
    { nrm := fun v => Real.sqrt (v 0 ^ 2 + v 1 ^ 2)
      root := Real.sqrt
      radial := fun u => u
      cubeRadius := fun r => Real.sqrt 3 * r
      dimRoot := Real.sqrt
      lstsq := l
      qr := fun _ _ _ _ => 0
      oracle := fun _ y => .fin (y 0 ^ 2 + 2 * y 1 ^ 2)
      data := fun h i _ => .fin (((h.xs[i]?).getD fun _ => 0) 0 ^ 2)
      start := fun h _ => ((h.xs[0]?).getD fun _ => 0) 0 ^ 2
      filter := .clustering 1 "sphere"
      sampler := .randomHull none
      rng := fun _ _ _ => ⟨fun k => List.replicate k fun i => i.val, fun k => List.replicate k fun _ => 0,
        fun m k => List.replicate m (List.replicate k fun i => 1 + i.val),
        fun m k => List.replicate m (List.replicate k fun _ => 0)⟩
      fitter := .ols
      modelType := .quadratic
      residualize := true
      aggregator := "identity"
      sphere := fun model _ => match model.squareTerms with
        | none => .error .typeError
        | some h => .ok ⟨minimizeCg Real.sqrt model.linearTerms h 1 (1 / 10 ^ 8) (1 / 10 ^ 6), 1, true⟩
      cube := bntrCubeSolver Real.sqrt (1 / 2 ^ 52) true (innerCg Real.sqrt (1 / 10 ^ 8) (1 / 10 ^ 6))
        ⟨20, 5, 1 / 10 ^ 8, 1 / 10 ^ 8, 0⟩ 100
      fallbackSphere := fallbackCubeSolver fun f x0 _ _ => ⟨x0, f x0, 0⟩
      fallbackCube := fallbackCubeSolver fun f x0 _ _ => ⟨x0, f x0, 0⟩
      retry := true
      fvecs := fun log i => (log.fvals i).map fun v _ => v
      noiseDistance := 3
      noiseMinEvals := 3
      covOfOne := fun _ _ _ => .nan
      draws := fun _ _ _ _ k => List.replicate k fun _ _ => 0
      nDraws := 100
      ignoreCorrelation := true }
  have hfall : SolverOrderFree (Equiv.swap 0 1) (fallbackCubeSolver fun (f : Vec ℝ 2 → ℝ) x0 _ _ =>
      ⟨x0, f x0, 0⟩) := (C121_fallback_subsolvers Real.sqrt fun f f' _ x0 l u => rfl).1
  refine ⟨b, ⟨fun v => ?_, hl, trivial, by simp [b], fun model x => ?_,
    C121_bntr_subsolver _ _ _ _ (innerCg_orderFree _ _ _) _ _, hfall, hfall⟩, rfl, rfl⟩
  · simp only [b, permute, Equiv.swap_apply_left, Equiv.swap_apply_right, add_comm]
  · simp only [b, ScalarModel.permute]
    cases model.squareTerms with
    | none => exact rfl
    | some h => exact (C121_conjugate_gradients Real.sqrt model.linearTerms h 1 _ _).1

/-- The residuals `x 0 - 1` and `x 1 + 2`; `np.linalg.lstsq` as documented, `bntr_fast` with conjugate gradients for
cubes. -/
noncomputable def orderedExternals : Externals ℝ Unit 2 2 :=
  { twoResiduals with
    lstsq := (exists_lstsq).choose
    solver := fun name _ =>
      if name = "bntr_fast" then bntrCubeSolver Real.sqrt (1 / 2 ^ 52) true
        (innerCg Real.sqrt (1 / 10 ^ 8) (1 / 10 ^ 6)) ⟨20, 5, 1 / 10 ^ 8, 1 / 10 ^ 8, 0⟩ 100
      else fun _ _ => .error .linAlgError }

/-- C121, example: the call with default options for the residuals `x 0 - 1` and `x 1 + 2` returns, also with the two
parameters exchanged; the points are the same. -/
example (env : PyEnv ℝ Unit) : ∃ r r',
    tranquiloCall env orderedExternals ({ functype := "least_squares" } : CallOptions ℝ).arguments ![1 / 2, 1 / 4]
      ⟨![some (-1), some 0], fun _ => some 1⟩ = .ok (some r) ∧
    tranquiloCall env (orderedExternals.permute (Equiv.swap 0 1))
      ({ functype := "least_squares" } : CallOptions ℝ).arguments ![1 / 4, 1 / 2]
      ⟨![some 0, some (-1)], fun _ => some 1⟩ = .ok (some r') ∧
    r'.log.xs = r.log.xs.map (fun v => ![v 1, v 0]) ∧ r'.state.x = ![r.state.x 1, r.state.x 0] := by
  have h := plainExternals_spec
  obtain ⟨r, h1, -⟩ := C106_call_returns_partial env orderedExternals
    ⟨h.1, h.2, h.3, h.4, h.5, h.6, h.7, h.8⟩
    { functype := "least_squares" }
    { functype := Or.inr (Or.inr rfl), cores := by norm_num, batch := fun _ h => (by cases h)
      factor := fun _ h => (by cases h)
      perPoint := fun _ h => (by cases h), atStart := fun k h => (by cases h)
      sampler := Or.inr (Or.inr rfl), filter := fun _ h => (by cases h)
      fitter := fun _ h => (by cases h), cube := Or.inr rfl
      sphere := Or.inr (Or.inl rfl), decider := fun _ h => (by cases h) } (fun h => by simp at h)
    (fun h => by cases h) ![1 / 2, 1 / 4] ⟨0, by norm_num⟩
    ⟨![some (-1), some 0], fun _ => some 1⟩ (Or.inr fun _ _ _ _ h => by simp [orderedExternals] at h)
    (fun i => ⟨fun l h => (by fin_cases i <;> cases h <;> norm_num),
      fun u h => (by cases h; fin_cases i <;> norm_num)⟩)
    (fun i l u hl hu => by cases hu; fin_cases i <;> cases hl <;> norm_num)
  have hs : ∀ {α : Type} (v : Fin 2 → α), (fun i => v (Equiv.swap 0 1 i)) = ![v 1, v 0] := by
    intro α v
    funext i
    fin_cases i <;> simp
  have hfree : orderedExternals.OrderFree (Equiv.swap 0 1) "gqtpar_fast" "bntr_fast" :=
    { nrm := fun v => by
        simp only [orderedExternals, twoResiduals, plainExternals, permute, Fin.sum_univ_two, Equiv.swap_apply_left,
          Equiv.swap_apply_right, add_comm]
      lstsq := (exists_lstsq).choose_spec
      minimize := fun _ _ _ _ _ _ => rfl
      scipy := fun f f' _ x0 l u => rfl
      sphere := fun _ model x => by
        simp only [orderedExternals]
        exact rfl
      cube := fun _ => by
        simp only [orderedExternals, if_true]
        exact C121_bntr_subsolver _ _ _ _ (innerCg_orderFree _ _ _) _ _ }
  have := C121_call (σ := Equiv.swap 0 1) env orderedExternals
    ({ functype := "least_squares" } : CallOptions ℝ).arguments hfree
    ⟨⟨_, rfl⟩, Or.inl rfl, rfl, rfl, fun g h => by cases h⟩ ![1 / 2, 1 / 4] ⟨![some (-1), some 0], fun _ => some 1⟩
  rw [h1] at this
  simp only [hs] at this
  revert this
  simp only [Matrix.cons_val_zero, Matrix.cons_val_one]
  cases tranquiloCall env (orderedExternals.permute (Equiv.swap 0 1))
      ({ functype := "least_squares" } : CallOptions ℝ).arguments ![1 / 4, 1 / 2]
      ⟨![some 0, some (-1)], fun _ => some 1⟩ with
  | error e => exact fun h => h.elim
  | ok o =>
    intro h
    cases h with
    | some h =>
      refine ⟨r, _, h1, rfl, ?_, ?_⟩
      · rw [h.log]
        exact List.map_congr_left fun v _ => hs v
      · rw [h.state.x]
        exact hs _

/-! ## The conditions are needed -/

/-- C121 fails if the random numbers are the same as before instead of being put into the new order too, as
they are for a fixed seed: other points are sampled. The unit square, with the first coordinate bounded by 0, is
sampled with the random numbers 1/4 and 3/4. -/
theorem C121_violated_same_seed :
    let rng : SampleRng ℚ 2 := ⟨fun _ => [], fun k => List.replicate k ![1 / 4, 3 / 4], fun _ _ => [], fun _ _ => []⟩
    let region : Region ℚ 2 := ⟨![0, 0], 1, ⟨![some 0, none], ![none, none]⟩⟩
    okAnd (fun l => l.map (fun p => p.map fun v => (v 0, v 1)) = [some (1 / 4, 1 / 2)])
      (interiorSampler id id id region 1 rng) = true ∧
    okAnd (fun l => l.map (fun p => p.map fun v => (v 0, v 1)) = [some (-1 / 2, 3 / 4)])
      (interiorSampler id id id (region.permute (Equiv.swap 0 1)) 1 rng) = true := by
  decide +kernel

end Tranquilo
