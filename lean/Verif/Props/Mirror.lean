import Verif.Lemmas.MirrorBuiltin
import Verif.Lemmas.PermuteSolvers
import Verif.Props.Relocate
import Verif.Props.CallUses
import Verif.Props.BuiltinRun
import Verif.Lemmas.RunsLonger
import Verif.Props.Reorder
import Verif.Spec.MirrorCall

/-!
# C127: the direction in which parameters are measured does not matter
-/

namespace Tranquilo

variable {K : Type} [Field K] [LinearOrder K] [IsStrictOrderedRing K] {n m : Nat} {VM SM : Type}

/-! ## Runs -/

theorem tranquiloR_mirror [FloorRing K] {σ : Fin n → Bool} {RV : VM → VM → Prop} {RS : SM → SM → Prop}
    {comp comp' : ComponentsR K n VM SM} (g : Config K) (bounds : Bounds K n)
    (hu : MirrorRespected σ g.noisy RV RS comp comp') (Inv : Run K n VM SM → Prop)
    (hproper : ∀ r, Inv r → r.state.trustregion.Proper comp.cubeRadius)
    (hline : (∃ m rf, g.decider = .lineSearch m rf) → ∀ r, Inv r → ∀ c f,
      ({ r.state.trustregion with center := c, radius := f } : Region K n).Proper comp.cubeRadius)
    (hstep : ∀ it r r', Inv r → iterationR g comp it r = .ok r' → Inv r') (x : Vec K n) (radius : K)
    (hreg : (⟨x, radius, bounds⟩ : Region K n).Proper comp.cubeRadius)
    (hstart : ∀ r, startRunR g comp x radius bounds = .ok r → Inv r) :
    SameOutcome (MirroredCourse σ RV RS) (tranquiloR g comp x radius bounds)
      (tranquiloR g comp' (mirror σ x) radius (bounds.mirror σ)) := by
  simp only [tranquiloR]
  exact SameOutcome.bind (start_mirror g hu x radius bounds hreg) fun r r' h0 h =>
    runLoop_mirror g hu Inv hproper hline hstep g.maxIter 0 (hstart r h0) h

theorem iterationR_bounds [FloorRing K] (g : Config K) (comp : ComponentsR K n VM SM) (it : Nat)
    (r r' : Run K n VM SM) (h : iterationR g comp it r = .ok r') :
    r'.state.trustregion.bounds = r.state.trustregion.bounds := by
  unfold iterationR at h
  obtain ⟨p, -, h⟩ := except_bind_ok.1 h
  obtain ⟨s, -, h⟩ := except_bind_ok.1 h
  obtain ⟨d, -, h⟩ := except_bind_ok.1 h
  obtain ⟨q, -, h⟩ := except_bind_ok.1 h
  cases h
  rw [endIteration_bounds]
  rfl

omit [IsStrictOrderedRing K] in
theorem startRunR_bounds [FloorRing K] (g : Config K) (comp : ComponentsR K n VM SM) (x : Vec K n)
    (radius : K) (bounds : Bounds K n) (r : Run K n VM SM)
    (h : startRunR g comp x radius bounds = .ok r) : r.state.trustregion.bounds = bounds := by
  unfold startRunR at h
  obtain ⟨p, -, h⟩ := except_bind_ok.1 h
  cases h
  rfl

/-- C127 without bounds, for arbitrary components: if some parameters are measured in the opposite direction
(`x i` becomes `-x i` where `σ i`), the start vector is mirrored, and the components do not depend on the directions,
then the run does the same. It raises the same exception or none; it stores the mirrored points one after the
other and evaluates them equally often; all values, decisions and messages are the same. All options stay as
they are. -/
theorem C127_without_bounds [FloorRing K] {σ : Fin n → Bool}
    {RV : VM → VM → Prop} {RS : SM → SM → Prop} {comp comp' : ComponentsR K n VM SM} (g : Config K)
    (hu : MirrorRespected σ g.noisy RV RS comp comp') (x : Vec K n) (radius : K) :
    SameOutcome (MirroredCourse σ RV RS) (tranquiloR g comp x radius ⟨fun _ => none, fun _ => none⟩)
      (tranquiloR g comp' (fun i => if σ i then -x i else x i) radius ⟨fun _ => none, fun _ => none⟩) := by
  have hfree : ∀ r : Region K n, r.bounds = ⟨fun _ => none, fun _ => none⟩ → r.Proper comp.cubeRadius := by
    intro r hr hs
    rw [shape_eq_cube_iff, hr] at hs
    rcases hs with ⟨i, l, h, -⟩ | ⟨i, l, h, -⟩ <;> cases h
  have h := tranquiloR_mirror g ⟨fun _ => none, fun _ => none⟩ hu
    (fun r => r.state.trustregion.bounds = ⟨fun _ => none, fun _ => none⟩)
    (fun r hr => hfree _ hr) (fun _ r hr c f => hfree _ hr)
    (fun it r r' hr h => (iterationR_bounds g comp it r r' h).trans hr) x radius (hfree _ rfl)
    (fun r h => startRunR_bounds g comp x radius _ r h)
  have hb : (⟨fun _ => none, fun _ => none⟩ : Bounds K n).mirror σ = ⟨fun _ => none, fun _ => none⟩ := by
    simp [Bounds.mirror]
  rw [hb] at h
  exact h

/-- C127 with bounds, for components that do not raise (C98): the bounds of a mirrored parameter are exchanged
and change their sign. The box must not be flat, and there must be no line search: it samples around candidates that
may be outside of the bounds. -/
theorem C127_with_bounds [FloorRing K] {σ : Fin n → Bool}
    {RV : VM → VM → Prop} {RS : SM → SM → Prop} {comp comp' : ComponentsR K n VM SM} {Good : VM → Prop}
    (g : Config K) (bounds : Bounds K n) (hu : MirrorRespected σ g.noisy RV RS comp comp')
    (hsafe : SafeComponents g comp bounds Good) (hcfg : SafeConfig g bounds)
    (hline : ∀ m rf, g.decider ≠ .lineSearch m rf) (hcr : ∀ a, 0 < a → 0 < comp.cubeRadius a)
    (hsides : ∀ i l u, bounds.lower i = some l → bounds.upper i = some u → l < u)
    (x : Vec K n) (hx : InBounds bounds x) (radius : K) (hrad : 0 < radius) :
    SameOutcome (MirroredCourse σ RV RS) (tranquiloR g comp x radius bounds)
      (tranquiloR g comp' (mirror σ x) radius
        ⟨fun i => if σ i then (bounds.upper i).map (fun v => -v) else bounds.lower i,
          fun i => if σ i then (bounds.lower i).map (fun v => -v) else bounds.upper i⟩) := by
  have hp : ∀ r : Region K n, FeasibleRegion bounds r → r.Proper comp.cubeRadius := by
    intro r hr hs
    exact C29_cube_nondegenerate comp.cubeRadius r hs (by rw [hr.box]; exact hr.center) (hcr _ hr.radius)
      (by rw [hr.box]; exact hsides)
  obtain ⟨r0, sm, h0, hr0⟩ := startRunR_safe hsafe hcfg x hx radius hrad
  exact tranquiloR_mirror g bounds hu
    (fun r => RunSafe g (comp.total (fallbackComponents comp sm)) bounds Good r)
    (fun r hr => hp _ (by
      refine ⟨hr.ok.bounds, hr.radius, ?_⟩
      rw [hr.ok.center]
      obtain ⟨hi, he⟩ := List.getElem?_eq_some_iff.1 hr.ok.point
      rw [← he]
      exact hr.points _ (List.getElem_mem hi)))
    (fun ⟨m, rf, h⟩ => absurd h (hline m rf))
    (fun it r r' hr h => by
      obtain ⟨q, hq, hs⟩ := iterationR_safe hsafe hcfg sm it r hr
      rw [hq] at h
      cases h
      exact hs) x radius (hp _ ⟨rfl, hrad, hx⟩)
    (fun r h => by
      rw [h0] at h
      cases h
      exact hr0)

/-- C127, for the built in components without bounds, with and without noise: all filters, samplers, aggregators
and deciders, all fitters except for "powell". -/
theorem C127_builtin_without_bounds [FloorRing K] {σ : Fin n → Bool} (b : BuiltinSettings K n m)
    (hb : MirrorFreeSettings σ b) (g : Config K) (x : Vec K n) (radius : K) :
    SameOutcome (MirroredCourse σ (fun v v' => v' = v.mirror σ) fun u u' => u' = u.mirror σ)
      (tranquiloR g (builtinComponents b) x radius ⟨fun _ => none, fun _ => none⟩)
      (tranquiloR g (builtinComponents (b.mirror σ)) (fun i => if σ i then -x i else x i) radius
        ⟨fun _ => none, fun _ => none⟩) :=
  C127_without_bounds g (builtin_mirror b hb g.noisy) x radius

/-- C127, for the built in components with bounds, what a user sees. The criterion mirrors its argument back and
does what it did before (`BuiltinSettings.mirror`). Both calls return; the points of the history are the
mirrored points one after the other, the evaluations and their values are the same, whether and why the run
converged is the same, the final point is the mirrored point and has the same value. -/
theorem C127_same_answer_with_bounds [FloorRing K] {σ : Fin n → Bool} (b : BuiltinSettings K n m)
    (hb : MirrorFreeSettings σ b) (g : Config K) (bounds : Bounds K n) (hsafe : SafeSettings g b bounds)
    (hcfg : SafeConfig g bounds) (hline : ∀ m rf, g.decider ≠ .lineSearch m rf) (x : Vec K n)
    (hx : InBounds bounds x) (radius : K) (hrad : 0 < radius) :
    ∃ run run', tranquiloR g (builtinComponents b) x radius bounds = .ok run ∧
      tranquiloR g (builtinComponents (b.mirror σ)) (fun i => if σ i then -x i else x i) radius
        ⟨fun i => if σ i then (bounds.upper i).map (fun v => -v) else bounds.lower i,
          fun i => if σ i then (bounds.lower i).map (fun v => -v) else bounds.upper i⟩ = .ok run' ∧
      run'.log.xs = run.log.xs.map (fun x i => if σ i then -x i else x i) ∧
      run'.log.evals = run.log.evals ∧
      run'.converged = run.converged ∧ run'.msg = run.msg ∧ run'.states.length = run.states.length ∧
      (run'.state.x = fun i => if σ i then -run.state.x i else run.state.x i) ∧
      run'.state.fval = run.state.fval := by
  obtain ⟨run, hrun, -⟩ := C98_builtin_run_partial hsafe hcfg x hx radius hrad
  have := C127_with_bounds g bounds (builtin_mirror b hb g.noisy) (C98_builtin_components_are_safe hsafe)
    hcfg hline hsafe.cubeRadius hsafe.sides x hx radius hrad
  rw [hrun] at this
  revert this
  change SameOutcome _ _ (tranquiloR g (builtinComponents (b.mirror σ)) (fun i => if σ i then -x i else x i)
    radius ⟨fun i => if σ i then (bounds.upper i).map (fun v => -v) else bounds.lower i,
      fun i => if σ i then (bounds.lower i).map (fun v => -v) else bounds.upper i⟩) → _
  cases tranquiloR g (builtinComponents (b.mirror σ)) (fun i => if σ i then -x i else x i)
    radius ⟨fun i => if σ i then (bounds.upper i).map (fun v => -v) else bounds.lower i,
      fun i => if σ i then (bounds.lower i).map (fun v => -v) else bounds.upper i⟩ with
  | error e => exact fun h => h.elim
  | ok run' =>
    intro h
    refine ⟨run, run', hrun, rfl, ?_, ?_, h.converged, h.msg, h.states.length_eq.symm, h.state.x, h.state.fval⟩
    · rw [h.log]; rfl
    · rw [h.log]; rfl

/-! ## The parts that are needed -/

/-- C127, default radius: a tenth of the largest coordinate does not depend on signs. -/
theorem C127_default_radius (l : List K) (s : List Bool) (h : s.length = l.length) :
    defaultRadius (List.zipWith (fun b x => if b then -x else x) s l) = defaultRadius l := by
  have hkey : ∀ (l : List K) (s : List Bool), s.length = l.length → ∀ a : K,
      (List.zipWith (fun b x => if b then -x else x) s l).foldl (fun m y => max m |y|) a =
        l.foldl (fun m y => max m |y|) a := by
    intro l
    induction l with
    | nil => intro s _ a; simp
    | cons y l ih =>
      intro s hs a
      cases s with
      | nil => simp at hs
      | cons b s =>
        simp only [List.zipWith_cons_cons, List.foldl_cons]
        rw [show |if b = true then -y else y| = |y| by cases b <;> simp]
        exact ih s (by simpa using hs) _
  cases l with
  | nil => simp [defaultRadius]
  | cons y l =>
    cases s with
    | nil => simp at h
    | cons b s =>
      simp only [List.zipWith_cons_cons, defaultRadius]
      rw [show |if b = true then -y else y| = |y| by cases b <;> simp, hkey l s (by simpa using h)]

theorem matVec_mirror (σ : Fin n → Bool) (h : Mat K n n) (d : Vec K n) :
    matVec (fun i j => if σ i = σ j then h i j else -h i j) (mirror σ d) = mirror σ (matVec h d) := by
  funext i
  simp only [matVec, mirror_hess, mirror_apply, Finset.mul_sum]
  refine Finset.sum_congr rfl fun j _ => ?_
  linear_combination (sgn σ i * h i j * d j) * sgn_mul_self (K := K) (σ := σ) j

theorem quadForm_mirror (σ : Fin n → Bool) (h : Mat K n n) (d : Vec K n) :
    quadForm (fun i j => if σ i = σ j then h i j else -h i j) (mirror σ d) = quadForm h d := by
  simp only [quadForm, mirror_hess]
  refine Finset.sum_congr rfl fun j _ => ?_
  rw [Finset.sum_mul, Finset.sum_mul]
  refine Finset.sum_congr rfl fun i _ => ?_
  rw [mirror_apply, mirror_apply]
  linear_combination (d i * h i j * d j) * (sgn_mul_self (K := K) (σ := σ) i) +
    (sgn σ i * sgn σ i * d i * h i j * d j) * (sgn_mul_self (K := K) (σ := σ) j)

theorem cgLoop_mirror (root : K → K) (σ : Fin n → Bool) (h : Mat K n n) (radius tol : K) (k : Nat) :
    ∀ s : CgState K n, cgLoop root (cgDistance root) cgUpdate
        (fun i j => if σ i = σ j then h i j else -h i j) radius tol k
        ⟨mirror σ s.x, mirror σ s.residual, mirror σ s.direction⟩ =
      mirror σ (cgLoop root (cgDistance root) cgUpdate h radius tol k s) := by
  have hr : ∀ (alpha : K) (v w : Vec K n), (fun i => mirror σ v i + alpha * mirror σ w i) =
      mirror σ fun i => v i + alpha * w i := fun alpha v w => funext fun i => by
    simp only [mirror_apply]
    ring
  induction k with
  | zero => exact fun s => rfl
  | succ k ih =>
    intro s
    have hd : cgDistance root (mirror σ s.x) (mirror σ s.direction) radius =
        cgDistance root s.x s.direction radius := by
      simp only [cgDistance, dot_mirror]
    have hn : (fun i => -mirror σ s.residual i) = mirror σ fun i => -s.residual i := by
      funext i
      simp only [mirror_apply]
      ring
    have hu : ∀ alpha, cgUpdate (fun i j => if σ i = σ j then h i j else -h i j)
        ⟨mirror σ s.x, mirror σ s.residual, mirror σ s.direction⟩
        alpha = ⟨mirror σ (cgUpdate h s alpha).x, mirror σ (cgUpdate h s alpha).residual,
          mirror σ (cgUpdate h s alpha).direction⟩ := by
      intro alpha
      simp only [cgUpdate, matVec_mirror, hr, dot_mirror, CgState.mk.injEq, true_and]
      funext i
      simp only [mirror_apply]
      ring
    simp only [cgLoop, norm2_mirror, quadForm_mirror, dot_mirror, hd, hu, hr]
    by_cases h1 : norm2 root s.residual ≤ tol
    · rw [if_pos h1, if_pos h1]
    · rw [if_neg h1, if_neg h1]
      by_cases h2 : quadForm h s.direction ≤ 0 ∨ cgDistance root s.x s.direction radius <
          dot s.residual s.residual / quadForm h s.direction
      · rw [if_pos h2, if_pos h2]
      · rw [if_neg h2, if_neg h2]
        exact ih _

/-- C127, conjugate gradients (both versions). -/
theorem C127_conjugate_gradients {σ : Fin n → Bool} (root : K → K) (g : Vec K n) (h : Mat K n n)
    (radius gtolAbs gtolRel : K) :
    minimizeCg root (mirror σ g) (fun i j => if σ i = σ j then h i j else -h i j) radius gtolAbs gtolRel =
      mirror σ (minimizeCg root g h radius gtolAbs gtolRel) ∧
    minimizeCgFast root (mirror σ g) (fun i j => if σ i = σ j then h i j else -h i j) radius gtolAbs
      gtolRel = mirror σ (minimizeCgFast root g h radius gtolAbs gtolRel) := by
  have hs : cgStart (mirror σ g) = ⟨mirror σ (cgStart g).x, mirror σ (cgStart g).residual,
      mirror σ (cgStart g).direction⟩ := by
    simp only [cgStart, CgState.mk.injEq]
    refine ⟨?_, trivial, ?_⟩
    · funext i
      simp [mirror]
    · funext i
      simp only [mirror_apply]
      ring
  have h1 : minimizeCg root (mirror σ g) (fun i j => if σ i = σ j then h i j else -h i j) radius gtolAbs
      gtolRel = mirror σ (minimizeCg root g h radius gtolAbs gtolRel) := by
    simp only [minimizeCg, norm2_mirror, hs, cgLoop_mirror]
  refine ⟨h1, ?_⟩
  rw [C73_conjugate_gradient, C73_conjugate_gradient]
  exact h1

/-- C127: the fallback solvers meet the condition for subsolvers if scipy's optimizer does. -/
theorem C127_fallback_subsolvers {σ : Fin n → Bool} (root : K → K) {scipy : ScipyMinimize K n}
    (hs : ScipyMirrorFree σ scipy) :
    SolverMirrorFree σ (fallbackCubeSolver scipy) ∧ SolverMirrorFree σ (inscribedCubeSolver root scipy) ∧
    SolverMirrorFree σ (reparametrizedSolver root scipy) := by
  have hcube : ∀ (radius : K) (model : ScalarModel K n) (x : Vec K n),
      SameOutcome (fun r r' => r'.x = mirror σ r.x) (robustCube scipy radius model x)
        (robustCube scipy radius (model.mirror σ) (mirror σ x)) := by
    intro radius model x
    simp only [robustCube, fallbackCrit, ScalarModel.mirror]
    cases model.squareTerms with
    | none => exact rfl
    | some h =>
      have hb := hs (fun y => model.intercept + dot y model.linearTerms + halfQuad h y)
        (fun y => model.intercept + dot y (mirror σ model.linearTerms) +
          halfQuad (fun i j => if σ i = σ j then h i j else -h i j) y)
        (fun y => by simp only [dot_mirror, halfQuad_mirror]) x (fun _ => -radius) fun _ => radius
      simp only [neg_neg, ite_self] at hb
      exact hb
  have hmap : ∀ (u u' : Except Err (CubeSolution K n)),
      SameOutcome (fun r r' => r'.x = mirror σ r.x) u u' →
      SameOutcome (fun r r' => r'.x = mirror σ r.x)
        (u.map fun r => (⟨r.x, r.nIterations, true⟩ : RawResult K n))
        (u'.map fun r => (⟨r.x, r.nIterations, true⟩ : RawResult K n)) := by
    intro u u'
    cases u <;> cases u' <;> exact fun h => h
  refine ⟨fun model x => hmap _ _ (hcube 1 model x), fun model x => hmap _ _ (hcube _ model x),
    fun model x => ?_⟩
  have hproj : ∀ y : Vec K n, projectToBall root (mirror σ y) = mirror σ (projectToBall root y) := by
    intro y
    simp only [projectToBall, norm2_mirror]
    split_ifs
    · rfl
    · funext i
      simp only [mirror_apply]
      ring
  simp only [reparametrizedSolver, SameOutcome]
  rw [← hproj]
  have hb := hs (fun y => model.predict (projectToBall root y))
    (fun y => (model.mirror σ).predict (projectToBall root y))
    (fun y => by rw [hproj, ScalarModel.mirror_predict]) x (fun _ => -1) fun _ => 1
  simp only [neg_neg, ite_self] at hb
  exact congrArg (projectToBall root) hb

/-! ## Calls -/

theorem defaultInitialRadius_mirror (σ : Fin n → Bool) (x : Vec K n) :
    defaultInitialRadius (List.ofFn (mirror σ x)) = defaultInitialRadius (List.ofFn x) := by
  have h1 : ∀ l : List K, defaultInitialRadius l = defaultRadius l := fun l => by cases l <;> rfl
  have h2 : List.ofFn (mirror σ x) =
      List.zipWith (fun b x => if b then -x else x) (List.ofFn σ) (List.ofFn x) := by
    refine List.ext_getElem (by simp) fun i hi _ => ?_
    simp [mirror]
  rw [h1, h1, h2, C127_default_radius _ _ (by simp)]

/-- The arguments are processed in the same way. -/
theorem processArguments_mirror [FloorRing K] {O R : Type} (env : PyEnv K O)
    (beh : String → String → Dict (PyVal K O) → Except Err R) (a : Arguments K O R) (σ : Fin n → Bool)
    (x : Vec K n)
    (hsize : ∀ g, a.sampleSize = .callable g → g (List.ofFn (mirror σ x)) = g (List.ofFn x)) :
    processArguments env beh { a with x := List.ofFn (mirror σ x) } =
      processArguments env beh { a with x := List.ofFn x } := by
  have hlen : (List.ofFn (mirror σ x)).length = (List.ofFn x).length := by simp
  have h1 : ∀ mt noisy batch, processSampleSize env a.sampleSize mt (List.ofFn (mirror σ x)) noisy batch =
      processSampleSize env a.sampleSize mt (List.ofFn x) noisy batch := by
    intro mt noisy batch
    revert hsize
    cases a.sampleSize with
    | value v =>
      intro _
      cases v <;> simp only [processSampleSize, hlen]
    | callable g =>
      intro hg
      simp only [processSampleSize, hg g rfl]
  have h2 : ∀ mt size, processModelFitter a.modelFitter mt size (List.ofFn (mirror σ x)) =
      processModelFitter a.modelFitter mt size (List.ofFn x) := by
    intro mt size
    simp only [processModelFitter, defaultModelFitter, hlen]
  simp only [processArguments, h1, h2, defaultInitialRadius_mirror]

/-- C127 for calls, including the processing of the arguments: with mirrored start
vector and criterion, and without bounds, the call raises the same exception, or both calls return and their runs visit
the mirrored points. (`none`: options outside of what is modelled.) -/
theorem C127_call [FloorRing K] {O : Type} {σ : Fin n → Bool} (env : PyEnv K O) (ext : Externals K O n m)
    (a : Arguments K O (Option (Piece K n))) {sphere cube : String} (hext : ext.MirrorFree σ sphere cube)
    (ha : MirrorFreeArguments σ a sphere cube) (x : Vec K n) :
    SameOutcome (Option.Rel (MirroredCourse σ (fun v v' => v' = v.mirror σ) fun u u' => u' = u.mirror σ))
      (tranquiloCall env ext a x ⟨fun _ => none, fun _ => none⟩)
      (tranquiloCall env (ext.mirror σ) a (fun i => if σ i then -x i else x i) ⟨fun _ => none, fun _ => none⟩) := by
  change SameOutcome _ _ (tranquiloCall env (ext.mirror σ) a (mirror σ x) ⟨fun _ => none, fun _ => none⟩)
  have hpieces : pieces (ext.mirror σ) = pieces ext := rfl
  simp only [tranquiloCall, hpieces,
    processArguments_mirror env (pieces ext) a σ x fun g hg => ha.sampleSize g hg x]
  cases hp : processArguments env (pieces ext) { a with x := List.ofFn x } with
  | error e => exact rfl
  | ok p =>
    rw [except_ok_bind, except_ok_bind]
    have hset : callSettings (ext.mirror σ) p = (callSettings ext p).map (BuiltinSettings.mirror σ) := by
      unfold callSettings
      simp only [Option.bind_eq_bind, Option.map_bind, Option.pure_def, Function.comp_def, Option.map_some]
      rfl
    rw [hset]
    cases hc : callConfig p with
    | none => exact .none
    | some c =>
    cases hb : callSettings ext p with
    | none => exact .none
    | some b =>
    cases hr : numOf p.radiusOptions "initial_radius" with
    | none => exact .none
    | some radius =>
      have hu := call_uses env ext a x p hp c hc b hb radius hr
      have hfree : MirrorFreeSettings σ b :=
        { nrm := by rw [hu.numpy.1]; exact hext.nrm
          lstsq := by rw [hu.numpy.2.2.2.2.2.1]; exact hext.lstsq
          sampler := by
            obtain ⟨s, hs⟩ := ha.sampler
            have := hu.sampler s hs
            generalize b.sampler = q at this
            cases this with
            | interior => trivial
            | hull => trivial
            | optimal => exact hext.minimize _ _
          fitter := by
            have hname : ∃ s, requestedName a.modelFitter (if b.modelType = .linear ∨
                1 + n + n * (n + 1) / 2 ≤ c.targetSize then "ols" else "tranquilo") = some s ∧
                s ≠ "powell" := by
              rcases ha.fitter with h | ⟨s, h, hs⟩
              · rw [h]
                refine ⟨_, rfl, ?_⟩
                split_ifs <;> decide
              · rw [h]
                exact ⟨s, rfl, hs⟩
            obtain ⟨s, h1, h2⟩ := hname
            have := (hu.fitter s h1).1
            intro h3
            rw [h3] at this
            cases this
            exact h2 rfl
          sphere := by
            obtain ⟨d, hd, -⟩ := hu.sphere _ ha.sphere
            rw [hd]
            exact hext.sphere d
          cube := by
            obtain ⟨d, hd, -⟩ := hu.cube _ ha.cube
            rw [hd]
            exact hext.cube d
          fallbackSphere := by
            rw [hu.fallbacks.1]
            exact (C127_fallback_subsolvers ext.root hext.scipy).2.1
          fallbackCube := by
            rw [hu.fallbacks.2]
            exact (C127_fallback_subsolvers ext.root hext.scipy).1 }
      have := C127_builtin_without_bounds b hfree c x radius
      simp only [Option.map_some]
      revert this
      change SameOutcome _ _ (tranquiloR c (builtinComponents (b.mirror σ)) (mirror σ x) radius
        ⟨fun _ => none, fun _ => none⟩) → _
      cases tranquiloR c (builtinComponents b) x radius ⟨fun _ => none, fun _ => none⟩ <;>
        cases tranquiloR c (builtinComponents (b.mirror σ)) (mirror σ x) radius ⟨fun _ => none, fun _ => none⟩
      · exact fun h => h
      · exact fun h => h
      · exact fun h => h
      · exact fun h => .some h

/-! ## The conditions are needed -/

/-- C127 fails for `bntr_fast`, the default solver for boxes. Its convergence test combines the distance to the
upper bound with the gradient first and the distance to the lower bound afterwards, and this is not
symmetric. For every absolute tolerance between 0 and 4 (the default is 1e-8) there is a gradient for which the test
accepts the upper end of the interval `[-1, 1]` and does not accept the lower end in the mirrored
problem. -/
theorem C127_violated_bntr (root : K → K) (hroot : SqrtSpec root) (o : BntrOptions K) (h0 : 0 < o.gtolAbs)
    (h4 : o.gtolAbs < 4) (hs : o.gtolScaled = 0) : ∃ g : Vec K 1, g 0 ≠ 0 ∧
      (bntrConverged root o (fun _ => 1) 0 g g (fun _ => -1) (fun _ => 1) false 0 none).1 = true ∧
      (bntrConverged root o (mirror (fun _ => true) fun _ => 1) 0 (mirror (fun _ => true) g)
        (mirror (fun _ => true) g) (mirror (fun _ => true) fun _ => 1) (mirror (fun _ => true) fun _ => -1) false 0
        none).1 = false := by
  obtain ⟨s, hs'⟩ : ∃ s : K, s = 2 - o.gtolAbs / 2 := ⟨_, rfl⟩
  have hs0 : 0 < s := by rw [hs']; linarith
  have hs2 : s < 2 := by rw [hs']; linarith
  obtain ⟨a, ha⟩ : ∃ a : K, a = (4 - s ^ 2) / (2 * s) := ⟨_, rfl⟩
  have hsa : 2 * s * a = 4 - s ^ 2 := by
    rw [ha]
    field_simp
  have hlt : 2 - s < a := by
    have : 2 * s * (2 - s) < 2 * s * a := by rw [hsa]; nlinarith
    exact lt_of_mul_lt_mul_left this (by linarith)
  have ha0 : 0 < a := by linarith
  have hnorm : ∀ v : Vec K 1, norm2 root v = |v 0| := by
    intro v
    simp only [norm2, dot, Fin.sum_univ_one]
    obtain ⟨h1, h2⟩ := hroot (v 0 * v 0) (mul_self_nonneg _)
    rw [← abs_of_nonneg h1]
    exact (sq_eq_sq_iff_abs_eq_abs _ _).1 (by rw [sq, sq, h2])
  have hroot_eq : ∀ c d : K, 0 ≤ d → d * d = c → root c = d := by
    intro c d hd hc
    obtain ⟨h1, h2⟩ := hroot c (hc ▸ mul_nonneg hd hd)
    exact (mul_self_inj h1 hd).1 (h2.trans hc.symm)
  refine ⟨fun _ => a, ha0.ne', ?_, ?_⟩
  · have h1 : fbDirection root (fun _ : Fin 1 => (1 : K)) (fun _ => a) (fun _ => -1) (fun _ => 1) 0 =
        root ((2 * a) ^ 2 + 2 ^ 2) - (2 * a + 2) := by
      simp only [fbDirection]
      rw [if_neg (by norm_num), fbScalar_eq hroot (1 - 1), show root ((1 - 1) ^ 2 + (-a) ^ 2) = a from
        hroot_eq _ _ ha0.le (by ring), fbScalar_eq hroot,
        show (a - (1 - 1 + -a) : K) = 2 * a by ring, show (1 - -1 : K) = 2 by ring]
    obtain ⟨h2, h3⟩ := hroot ((2 * a) ^ 2 + 2 ^ 2) (by positivity)
    simp only [bntrConverged]
    rw [hnorm, h1, if_pos]
    rw [abs_lt]
    constructor
    · by_contra hcon
      have : root ((2 * a) ^ 2 + 2 ^ 2) ≤ 2 * a + 2 * s - 2 := by linarith
      nlinarith [mul_self_le_mul_self h2 this]
    · have : root ((2 * a) ^ 2 + 2 ^ 2) ≤ 2 * a + 2 := by
        by_contra hcon
        nlinarith [mul_self_lt_mul_self (by linarith : (0 : K) ≤ 2 * a + 2) (not_le.1 hcon)]
      linarith
  · have h1 : fbDirection root (mirror (fun _ : Fin 1 => true) fun _ => (1 : K))
        (mirror (fun _ => true) fun _ => a) (mirror (fun _ => true) fun _ => 1)
        (mirror (fun _ => true) fun _ => -1) 0 = o.gtolAbs := by
      simp only [fbDirection, mirror, if_true, neg_neg]
      rw [if_neg (by norm_num), fbScalar_eq hroot (1 - -1), show root ((1 - -1) ^ 2 + a ^ 2) = a + s from
        hroot_eq _ _ (by linarith) (by linear_combination hsa), fbScalar_eq hroot,
        show root ((a + s - (1 - -1 + a)) ^ 2 + (-1 - -1) ^ 2) = 2 - s from hroot_eq _ _ (by linarith) (by ring)]
      rw [hs']
      ring
    simp only [bntrConverged]
    rw [hnorm, h1, abs_of_pos h0, if_neg (lt_irrefl _), if_neg (by simp), if_neg, if_neg, if_neg (by simp)]
    · rintro ⟨-, h, -⟩
      exact h0.ne' h
    · rintro ⟨-, h⟩
      rw [hs, hnorm] at h
      exact absurd h (not_lt.2 (div_nonneg h0.le (abs_nonneg _)))

/-- C127 fails where the center of the region is a stationary point of the model: there the model is
its own mirror image. A solver that leaves such a point (as it must if the curvature is negative)
can not be free of a preferred direction. -/
theorem C127_violated_stationary (solver : SubSolver K n) (model : ScalarModel K n)
    (hl : model.linearTerms = fun _ => 0) (hc : model.shift = fun _ => 0) (raw : RawResult K n)
    (h : solver model (fun _ => 0) = .ok raw) (hmove : raw.x ≠ fun _ => 0) :
    ¬ SolverMirrorFree (fun _ => true) solver := by
  intro hfree
  have h1 := hfree model fun _ => 0
  have hz : mirror (fun _ : Fin n => true) (fun _ => (0 : K)) = fun _ => 0 := by
    funext i
    simp [mirror]
  have hm : model.mirror (fun _ => true) = model := by
    cases model with
    | mk intercept linearTerms squareTerms scale shift =>
      simp only at hl hc
      subst hl hc
      simp [ScalarModel.mirror, hz]
  rw [hz, hm, h] at h1
  refine hmove (funext fun i => ?_)
  have h2 := congrFun (show raw.x = mirror (fun _ => true) raw.x from h1) i
  simp only [mirror, if_true] at h2
  linarith

/-- C127 fails if the random numbers are the same as before, as they are for a fixed seed: other
points are sampled. The interval from 0 to 1 and its mirror image are sampled with the random number 1/4. -/
theorem C127_violated_same_seed :
    let rng : SampleRng ℚ 1 := ⟨fun _ => [], fun k => List.replicate k ![1 / 4], fun _ _ => [], fun _ _ => []⟩
    let region : Region ℚ 1 := ⟨![0], 1, ⟨![some 0], ![none]⟩⟩
    okAnd (fun l => l.map (fun p => p.map fun v => v 0) = [some (1 / 4)])
      (interiorSampler id id id region 1 rng) = true ∧
    okAnd (fun l => l.map (fun p => p.map fun v => v 0) = [some (-3 / 4)])
      (interiorSampler id id id (region.mirror fun _ => true) 1 rng) = true := by
  decide +kernel

/-! ## Examples -/

/-- Components in two dimensions for the criterion `(x - 1) ** 2 + 3 * (s * y + 1) ** 2`, `s = 1` or
`s = -1`. -/
def signedComponents (s : ℚ) : ComponentsR ℚ 2 ℚ ℚ where
  nrm v := max |v 0| |v 1|
  cubeRadius := id
  oracle _ v := .fin ((v 0 - 1) ^ 2 + 3 * (s * v 1 + 1) ^ 2)
  filter _ _ _ _ xs ids := .ok (keepAll xs ids)
  sample _ _ _ region k _ := .ok (List.replicate k fun i =>
    region.center i + (if i = 1 then s else 1) * (region.radius / 2))
  fit _ _ _ old := .ok (old + 1)
  aggregate v := .ok v
  solve _ region := .ok { x := fun i => region.center i / 2, expectedImprovement := 1 }
  initModel _ _ := 0
  gradNorm m := |m|
  noiseSigma _ _ := .error .valueError
  rhoNoise _ _ _ _ _ _ := .error .valueError

/-- The hypotheses of `C127_without_bounds` can be met. -/
theorem signedComponents_mirror :
    MirrorRespected ![false, true] false (fun v v' => v' = v) (fun u u' => u' = u)
      (signedComponents 1) (signedComponents (-1)) where
  nrm v := by simp [signedComponents, mirror]
  cubeRadius r := rfl
  oracle k x := by simp [signedComponents, mirror]
  filter t t' h size k xs is ht _ := rfl
  sample it round h r k xs _ := by
    simp only [signedComponents, SameOutcome, List.map_replicate]
    refine congrArg (List.replicate k) (funext fun i => ?_)
    fin_cases i <;> simp [mirror, Region.mirror]
    ring
  fit h is r vm vm' _ hv := by subst hv; exact rfl
  aggregate vm vm' hv := hv
  solve sm sm' r _ h := by
    refine ⟨funext fun i => ?_, rfl⟩
    fin_cases i <;> simp [mirror, Region.mirror, neg_div]
  initModel h r _ := rfl
  gradNorm sm sm' h := by subst h; rfl
  noiseSigma h := by cases h
  rhoNoise h := by cases h

/-- C127, example. -/
example :
    okAnd (fun r => r.log.xs.map (fun v => (v 0, v 1)) =
        [(4, 2), (9 / 2, 5 / 2), (9 / 2, 5 / 2), (2, 1), (1, 1 / 2), (1 / 2, 1 / 4)] ∧
      r.state.fval = .fin (79 / 16))
      (tranquiloR (toyConfig 3 100 2 (.classic 0)) (signedComponents 1) ![4, 2] 1
        ⟨fun _ => none, fun _ => none⟩) = true ∧
    okAnd (fun r => r.log.xs.map (fun v => (v 0, v 1)) =
        [(4, -2), (9 / 2, -5 / 2), (9 / 2, -5 / 2), (2, -1), (1, -1 / 2), (1 / 2, -1 / 4)] ∧
      r.state.fval = .fin (79 / 16))
      (tranquiloR (toyConfig 3 100 2 (.classic 0)) (signedComponents (-1)) ![4, -2] 1
        ⟨fun _ => none, fun _ => none⟩) = true := by
  decide +kernel

/-- Settings in two dimensions with two residuals: `np.linalg.lstsq` as documented, a solver for boxes that goes to
the corner against the gradient, and for balls the fallback solver with an optimizer that returns the
middle of the box. -/
noncomputable def cornerSettings : BuiltinSettings ℝ 2 2 :=
  { raisingSettings with
    lstsq := (exists_lstsq).choose
    fitter := .ols
    cube := fun model _ => .ok
      ⟨fun i => if 0 < model.linearTerms i then -1 else if model.linearTerms i < 0 then 1 else 0, 1, true⟩
    fallbackSphere := inscribedCubeSolver Real.sqrt fun crit _ l u =>
      ⟨fun i => (l i + u i) / 2, crit fun i => (l i + u i) / 2, 0⟩
    fallbackCube := fallbackCubeSolver fun crit _ l u =>
      ⟨fun i => (l i + u i) / 2, crit fun i => (l i + u i) / 2, 0⟩ }

theorem middle_mirror (σ : Fin n → Bool) : ScipyMirrorFree σ fun (crit : Vec K n → K) _ l u =>
    (⟨fun i => (l i + u i) / 2, crit fun i => (l i + u i) / 2, 0⟩ : ScipyResult K n) := by
  intro f f' _ x0 l u
  funext i
  simp only [mirror]
  split_ifs
  · ring
  · rfl

theorem middle_spec : ScipySpec fun (crit : Vec K n → K) _ l u =>
    (⟨fun i => (l i + u i) / 2, crit fun i => (l i + u i) / 2, 0⟩ : ScipyResult K n) :=
  fun _ _ _ _ h => ⟨fun i => ⟨by linarith [h i], by linarith [h i]⟩, rfl⟩

theorem cornerSettings_mirror (σ : Fin 2 → Bool) : MirrorFreeSettings σ cornerSettings where
  nrm v := by
    simp only [cornerSettings, raisingSettings]
    congr 1
    refine Finset.sum_congr rfl fun i _ => ?_
    simp only [mirror]
    split_ifs <;> ring
  lstsq := (exists_lstsq).choose_spec
  sampler := trivial
  fitter := by simp [cornerSettings]
  sphere model x := rfl
  cube model x := by
    simp only [cornerSettings, SameOutcome, ScalarModel.mirror]
    funext i
    simp only [mirror]
    by_cases hi : σ i = true
    swap
    · simp [hi]
    · simp only [hi, if_true, neg_pos, neg_lt_zero]
      rcases lt_trichotomy (model.linearTerms i) 0 with h | h | h
      · simp [h, h.not_gt]
      · simp [h]
      · simp [h, h.not_gt]
  fallbackSphere := (C127_fallback_subsolvers Real.sqrt (middle_mirror σ)).2.1
  fallbackCube := (C127_fallback_subsolvers Real.sqrt (middle_mirror σ)).1

theorem cornerSettings_safe (c : Config ℝ) (hn : c.noisy = false) (hd : ∀ m rf, c.decider ≠ .lineSearch m rf) :
    SafeSettings c cornerSettings ⟨![some (-1), some 0], fun _ => some 1⟩ where
  zero := by simp [cornerSettings, raisingSettings]
  root := sqrtSpec_realSqrt
  radial := fun _ => ⟨zero_le_one, le_rfl⟩
  cubeRadius := fun _ h => h
  dimRoot := fun a _ => Real.sqrt_nonneg a
  rng := fun _ _ _ => constantRng_spec
  filter := ⟨zero_le_one, rfl⟩
  sampler := Or.inl rfl
  aggregator := Or.inr (Or.inr (Or.inr rfl))
  sides := by
    intro i l u hl hu
    cases hu
    fin_cases i <;> cases hl <;> norm_num
  noise h := by rw [hn] at h; cases h
  values m rf h := absurd h (hd m rf)
  sphere := fun model hm => (C98_fallback_solvers_return _ _ _ model hm _).1
  cube := fun model hm x _ => (C98_fallback_solvers_return Real.sqrt _ _ model hm x).2
  ball := Or.inr fun model _ x raw => ⟨fun h => (by cases h), fun h =>
    C52_inscribed_cube Real.sqrt sqrtSpec_realSqrt _ middle_spec model x raw h⟩

/-- C127, example: `-1 <= x <= 1` and `0 <= y <= 1` from `(1/2, 1/4)`, and `-1 <= x <= 1` and `-1 <= y <= 0` from
`(1/2, -1/4)`. -/
example (c : Config ℝ) (hn : c.noisy = false) (hd : ∀ m rf, c.decider ≠ .lineSearch m rf)
    (hcfg : SafeConfig c (⟨![some (-1), some 0], fun _ => some 1⟩ : Bounds ℝ 2)) :
    ∃ run run', tranquiloR c (builtinComponents cornerSettings) ![1 / 2, 1 / 4] (1 / 10)
        ⟨![some (-1), some 0], fun _ => some 1⟩ = .ok run ∧
      tranquiloR c (builtinComponents (cornerSettings.mirror ![false, true])) ![1 / 2, -(1 / 4)] (1 / 10)
        ⟨![some (-1), some (-1)], ![some 1, some (-0)]⟩ = .ok run' ∧
      run'.log.xs = run.log.xs.map (fun v => ![v 0, -v 1]) ∧ run'.state.fval = run.state.fval := by
  obtain ⟨run, run', h1, h2, h3, -, -, -, -, -, h4⟩ := C127_same_answer_with_bounds cornerSettings
    (cornerSettings_mirror ![false, true]) c _ (cornerSettings_safe c hn hd) hcfg hd ![1 / 2, 1 / 4]
    (fun i => ⟨fun l h => (by fin_cases i <;> cases h <;> norm_num),
      fun u h => (by cases h; fin_cases i <;> norm_num)⟩) (1 / 10) (by norm_num)
  have hs : ∀ v : Vec ℝ 2, (fun i => if (![false, true] : Fin 2 → Bool) i = true then -v i else v i) =
      ![v 0, -v 1] := by
    intro v
    funext i
    fin_cases i <;> simp
  refine ⟨run, run', h1, ?_, ?_, h4⟩
  · rw [← h2]
    congr 1
    · rw [hs]
      simp
    · congr 1 <;> funext i <;> fin_cases i <;> simp
  · rw [h3]
    exact List.map_congr_left fun v _ => hs v

/-- The residuals `x 0 - 1` and `x 1 + 2`; `np.linalg.lstsq` as documented, conjugate gradients for balls. -/
noncomputable def mirroredExternals : Externals ℝ Unit 2 2 :=
  { twoResiduals with
    lstsq := (exists_lstsq).choose
    scipy := fun crit _ l u => ⟨fun i => (l i + u i) / 2, crit fun i => (l i + u i) / 2, 0⟩
    solver := fun name _ =>
      if name = "gqtpar_fast" then fun model _ => match model.squareTerms with
        | none => .error .typeError
        | some h => .ok ⟨minimizeCg Real.sqrt model.linearTerms h 1 (1 / 10 ^ 8) (1 / 10 ^ 6), 1, true⟩
      else fun _ _ => .error .linAlgError }

theorem mirroredExternals_free (σ : Fin 2 → Bool) :
    mirroredExternals.MirrorFree σ "gqtpar_fast" "bntr_fast" where
  nrm v := by
    simp only [mirroredExternals, twoResiduals, plainExternals]
    congr 1
    refine Finset.sum_congr rfl fun i _ => ?_
    simp only [mirror]
    split_ifs <;> ring
  lstsq := (exists_lstsq).choose_spec
  minimize := fun _ _ _ _ _ _ => rfl
  scipy := middle_mirror σ
  sphere _ model x := by
    simp only [mirroredExternals, if_true, ScalarModel.mirror]
    cases model.squareTerms with
    | none => exact rfl
    | some h => exact (C127_conjugate_gradients Real.sqrt model.linearTerms h 1 _ _).1
  cube _ model x := by
    simp only [mirroredExternals]
    exact rfl

/-- C127, example: the call with default options for the residuals `x 0 - 1` and `x 1 + 2` returns, also with the
second parameter mirrored; the points are the mirrored points. -/
example (env : PyEnv ℝ Unit) : ∃ r r',
    tranquiloCall env mirroredExternals ({ functype := "least_squares" } : CallOptions ℝ).arguments ![1 / 2, 1 / 4]
      ⟨fun _ => none, fun _ => none⟩ = .ok (some r) ∧
    tranquiloCall env (mirroredExternals.mirror ![false, true])
      ({ functype := "least_squares" } : CallOptions ℝ).arguments ![1 / 2, -(1 / 4)]
      ⟨fun _ => none, fun _ => none⟩ = .ok (some r') ∧
    r'.log.xs = r.log.xs.map (fun v => ![v 0, -v 1]) ∧ r'.state.x = ![r.state.x 0, -r.state.x 1] := by
  have h := plainExternals_spec
  obtain ⟨r, h1, -⟩ := C106_call_returns_partial env mirroredExternals
    ⟨h.1, h.2, h.3, h.4, h.5, h.6, h.7, middle_spec⟩
    { functype := "least_squares" }
    { functype := Or.inr (Or.inr rfl), cores := by norm_num, batch := fun _ h => (by cases h)
      factor := fun _ h => (by cases h)
      perPoint := fun _ h => (by cases h), atStart := fun k h => (by cases h)
      sampler := Or.inr (Or.inr rfl), filter := fun _ h => (by cases h)
      fitter := fun _ h => (by cases h), cube := Or.inr rfl
      sphere := Or.inr (Or.inl rfl), decider := fun _ h => (by cases h) } (fun h => by simp at h)
    (fun h => by cases h) ![1 / 2, 1 / 4] ⟨0, by norm_num⟩
    ⟨fun _ => none, fun _ => none⟩ (Or.inl fun _ _ => ⟨fun _ h => (by cases h), fun _ h => (by cases h)⟩)
    (fun i => ⟨fun l h => (by cases h), fun u h => (by cases h)⟩)
    (fun i l u hl hu => by cases hu)
  have hs : ∀ v : Vec ℝ 2, (fun i => if (![false, true] : Fin 2 → Bool) i = true then -v i else v i) =
      ![v 0, -v 1] := by
    intro v
    funext i
    fin_cases i <;> simp
  have := C127_call (σ := ![false, true]) env mirroredExternals
    ({ functype := "least_squares" } : CallOptions ℝ).arguments (mirroredExternals_free _)
    ⟨⟨_, rfl⟩, Or.inl rfl, rfl, rfl, fun g h => by cases h⟩ ![1 / 2, 1 / 4]
  rw [h1, hs] at this
  revert this
  simp only [Matrix.cons_val_zero, Matrix.cons_val_one]
  cases tranquiloCall env (mirroredExternals.mirror ![false, true])
      ({ functype := "least_squares" } : CallOptions ℝ).arguments ![1 / 2, -(1 / 4)]
      ⟨fun _ => none, fun _ => none⟩ with
  | error e => exact fun h => h.elim
  | ok o =>
    intro h
    cases h with
    | some h =>
      refine ⟨r, _, h1, rfl, ?_, ?_⟩
      · rw [h.log]
        exact List.map_congr_left fun v _ => hs v
      · rw [h.state.x]
        exact hs _

end Tranquilo
