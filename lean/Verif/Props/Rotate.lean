import Verif.Lemmas.RotateBuiltin
import Verif.Lemmas.RotateRun
import Verif.Props.Mirror

/-!
# C129: the choice of the coordinate axes does not matter
-/

namespace Tranquilo

variable {K : Type} [Field K] [LinearOrder K] [IsStrictOrderedRing K] {n m : Nat} {VM SM : Type}

/-! ## Runs -/

/-- C129 for arbitrary components. The parameters are measured along other axes (`R @ x` instead of `x`, the columns of
`R` are orthonormal), there are no bounds, and the components do not depend on the axes. Then the run does the
same. It raises the same exception or none; it stores the rotated points one after the
other and evaluates them equally often; all values, decisions and messages are the same. All options stay as
they are. Partial: the relative tolerance for parameters must be zero, and the initial radius is given. -/
theorem C129_without_bounds_partial [FloorRing K] {R : Mat K n n} (hR : OrthonormalColumns R)
    {RV : VM → VM → Prop} {RS : SM → SM → Prop} {comp comp' : ComponentsR K n VM SM} (g : Config K)
    (hx : NoRelativeXTol g) (hu : RotationRespected R g.noisy RV RS comp comp') (x : Vec K n) (radius : K) :
    SameOutcome (RotatedCourse R RV RS) (tranquiloR g comp x radius ⟨fun _ => none, fun _ => none⟩)
      (tranquiloR g comp' (fun i => ∑ j, R i j * x j) radius ⟨fun _ => none, fun _ => none⟩) := by
  change SameOutcome _ _ (tranquiloR g comp' (rotate R x) radius _)
  simp only [tranquiloR]
  exact SameOutcome.bind (start_rotate g hu x radius ⟨fun _ => none, fun _ => none⟩ rfl) fun r r' h0 h =>
    runLoop_rotate hR g hx hu g.maxIter 0 (startRunR_bounds g comp x radius _ r h0) h

/-- C129 for the built in components, with and without noise: all filters, fitters, aggregators and deciders, all
samplers that draw normally distributed vectors. Partial: the models of the residuals are linear, and
the subsolver does not depend on the axes (`RotationFreeSettings`). -/
theorem C129_builtin_partial [FloorRing K] {R : Mat K n n} (hR : OrthonormalColumns R)
    (b : BuiltinSettings K n m) (hb : RotationFreeSettings R b) (g : Config K) (hx : NoRelativeXTol g)
    (x : Vec K n) (radius : K) :
    SameOutcome (RotatedCourse R (RotatedModel R) fun u u' => u' = u.rotate R)
      (tranquiloR g (builtinComponents b) x radius ⟨fun _ => none, fun _ => none⟩)
      (tranquiloR g (builtinComponents (b.rotate R)) (fun i => ∑ j, R i j * x j) radius
        ⟨fun _ => none, fun _ => none⟩) :=
  C129_without_bounds_partial hR g hx (builtin_rotate hR b hb g.noisy) x radius

/-- C129, what a user sees. The criterion first computes the old coordinates and then does what it did before. If the
run returns, so does the run along the other axes; its points are the rotated points one after the other,
the evaluations and their values are the same, whether and why the run converged is the same, the final point is the
rotated point and has the same value. -/
theorem C129_same_answer_partial [FloorRing K] {R : Mat K n n} (hR : OrthonormalColumns R)
    (b : BuiltinSettings K n m) (hb : RotationFreeSettings R b) (g : Config K)
    (hx : g.conv.disable = true ∨ g.conv.xtolRel ≤ 0) (x : Vec K n) (radius : K)
    (run : Run K n (VectorModel K n m) (ScalarModel K n))
    (h : tranquiloR g (builtinComponents b) x radius ⟨fun _ => none, fun _ => none⟩ = .ok run) :
    ∃ run', tranquiloR g (builtinComponents (b.rotate R)) (fun i => ∑ j, R i j * x j) radius
        ⟨fun _ => none, fun _ => none⟩ = .ok run' ∧
      run'.log.xs = run.log.xs.map (fun x i => ∑ j, R i j * x j) ∧
      run'.log.evals = run.log.evals ∧
      run'.converged = run.converged ∧ run'.msg = run.msg ∧ run'.states.length = run.states.length ∧
      (run'.state.x = fun i => ∑ j, R i j * run.state.x j) ∧
      run'.state.fval = run.state.fval := by
  have := C129_builtin_partial hR b hb g hx x radius
  rw [h] at this
  revert this
  cases tranquiloR g (builtinComponents (b.rotate R)) (fun i => ∑ j, R i j * x j) radius
      ⟨fun _ => none, fun _ => none⟩ with
  | error e => exact fun h => h.elim
  | ok run' =>
    intro h
    refine ⟨run', rfl, ?_, ?_, h.converged, h.msg, h.states.length_eq.symm, h.state.x, h.state.fval⟩
    · rw [h.log]; rfl
    · rw [h.log]; rfl

/-! ## Subsolvers -/

theorem matVec_rotate' {R : Mat K n n} (hR : OrthonormalColumns R) (h : Mat K n n) (d : Vec K n) :
    matVec (rotateHess R h) (rotate R d) = rotate R (matVec h d) :=
  matVec_rotate hR h d

theorem cgLoop_rotate {R : Mat K n n} (hR : OrthonormalColumns R) (root : K → K) (h : Mat K n n)
    (radius tol : K) (k : Nat) :
    ∀ s : CgState K n, cgLoop root (cgDistance root) cgUpdate (rotateHess R h) radius tol k
        ⟨rotate R s.x, rotate R s.residual, rotate R s.direction⟩ =
      rotate R (cgLoop root (cgDistance root) cgUpdate h radius tol k s) := by
  have hr : ∀ (alpha : K) (v w : Vec K n), (fun i => rotate R v i + alpha * rotate R w i) =
      rotate R fun i => v i + alpha * w i := fun alpha v w => funext fun i => by
    simp only [rotate, mul_add, Finset.sum_add_distrib, Finset.mul_sum]
    congr 1
    exact Finset.sum_congr rfl fun j _ => by ring
  induction k with
  | zero => exact fun s => rfl
  | succ k ih =>
    intro s
    have hd : cgDistance root (rotate R s.x) (rotate R s.direction) radius =
        cgDistance root s.x s.direction radius := by
      simp only [cgDistance, dot_rotate hR]
    have hn : ∀ (beta : K) (v w : Vec K n), (fun i => -rotate R v i + beta * rotate R w i) =
        rotate R fun i => -v i + beta * w i := fun beta v w => funext fun i => by
      simp only [rotate, mul_add, Finset.sum_add_distrib, Finset.mul_sum, mul_neg, Finset.sum_neg_distrib]
      congr 1
      exact Finset.sum_congr rfl fun j _ => by ring
    have hu : ∀ alpha, cgUpdate (rotateHess R h) ⟨rotate R s.x, rotate R s.residual, rotate R s.direction⟩
        alpha = ⟨rotate R (cgUpdate h s alpha).x, rotate R (cgUpdate h s alpha).residual,
          rotate R (cgUpdate h s alpha).direction⟩ := by
      intro alpha
      simp only [cgUpdate, matVec_rotate' hR, hr, dot_rotate hR, CgState.mk.injEq, true_and]
      refine Eq.trans (funext fun i => ?_) (hn _ _ _)
      have := congrFun (hr alpha s.residual (matVec h s.direction)) i
      rw [this]
    simp only [cgLoop, norm2_rotate hR, quadForm_rotate hR, dot_rotate hR, hd, hu, hr]
    by_cases h1 : norm2 root s.residual ≤ tol
    · rw [if_pos h1, if_pos h1]
    · rw [if_neg h1, if_neg h1]
      by_cases h2 : quadForm h s.direction ≤ 0 ∨ cgDistance root s.x s.direction radius <
          dot s.residual s.residual / quadForm h s.direction
      · rw [if_pos h2, if_pos h2]
      · rw [if_neg h2, if_neg h2]
        exact ih _

/-- C129, conjugate gradients (both versions): for the rotated gradient and the rotated second derivatives the
result is the rotated result. -/
theorem C129_conjugate_gradients {R : Mat K n n} (hR : OrthonormalColumns R) (root : K → K) (g : Vec K n)
    (h : Mat K n n) (radius gtolAbs gtolRel : K) :
    minimizeCg root (rotate R g) (fun i j => ∑ a, ∑ b, R i a * h a b * R j b) radius gtolAbs gtolRel =
      rotate R (minimizeCg root g h radius gtolAbs gtolRel) ∧
    minimizeCgFast root (rotate R g) (fun i j => ∑ a, ∑ b, R i a * h a b * R j b) radius gtolAbs gtolRel =
      rotate R (minimizeCgFast root g h radius gtolAbs gtolRel) := by
  have hs : cgStart (rotate R g) = ⟨rotate R (cgStart g).x, rotate R (cgStart g).residual,
      rotate R (cgStart g).direction⟩ := by
    simp only [cgStart, CgState.mk.injEq]
    refine ⟨?_, trivial, ?_⟩
    · funext i
      simp [rotate]
    · funext i
      simp [rotate]
  have h1 : minimizeCg root (rotate R g) (rotateHess R h) radius gtolAbs gtolRel =
      rotate R (minimizeCg root g h radius gtolAbs gtolRel) := by
    simp only [minimizeCg, norm2_rotate hR, hs, cgLoop_rotate hR]
  refine ⟨h1, ?_⟩
  rw [C73_conjugate_gradient, C73_conjugate_gradient]
  exact h1

/-- C129, exact subsolvers: two solvers that return minimizers of the model in the unit ball return, for
a model and the model in the new coordinates, points that are the same up to the rotation if the minimizer is
unique. -/
theorem C129_exact_subsolver {R : Mat K n n} (hR : OrthonormalColumns R) (model : ScalarModel K n)
    (s s' : Vec K n) (hs : dot s s ≤ 1 ∧ ∀ y, dot y y ≤ 1 → model.predict s ≤ model.predict y)
    (huniq : ∀ y, dot y y ≤ 1 → model.predict y ≤ model.predict s → y = s)
    (hs' : dot s' s' ≤ 1 ∧ ∀ y, dot y y ≤ 1 → (model.rotate R).predict s' ≤ (model.rotate R).predict y) :
    s' = fun i => ∑ j, R i j * s j := by
  have h1 : s' = rotate R (rotateBack R s') := (rotate_rotateBack hR s').symm
  have h2 : dot (rotateBack R s') (rotateBack R s') ≤ 1 := by
    rw [← dot_rotate hR, ← h1]
    exact hs'.1
  have h3 : model.predict (rotateBack R s') ≤ model.predict s := by
    have := hs'.2 (rotate R s) (by rw [dot_rotate hR]; exact hs.1)
    rw [h1, ScalarModel.rotate_predict hR, ScalarModel.rotate_predict hR] at this
    exact this
  rw [h1, huniq _ h2 h3]
  rfl

/-! ## The conditions are needed -/

/-- C129 fails for the default of the initial radius, a tenth of the largest coordinate: the points `(5, 0)` and
`(3, 4)` are the same point along different axes. -/
theorem C129_violated_default_radius :
    rotate ![![(3 / 5 : ℚ), -4 / 5], ![4 / 5, 3 / 5]] ![5, 0] = ![3, 4] ∧
    okAnd (fun r => r = 1 / 2) (defaultInitialRadius (List.ofFn ![(5 : ℚ), 0])) = true ∧
    okAnd (fun r => r = 2 / 5) (defaultInitialRadius (List.ofFn ![(3 : ℚ), 4])) = true := by
  decide +kernel

/-- Components in two dimensions for the squared distance from `(0, 0)` plus the first coordinate, for parameters that
are measured along the columns of `R`; the norm is the squared norm. -/
def turnedComponents (R : Mat ℚ 2 2) : ComponentsR ℚ 2 ℚ ℚ where
  nrm v := v 0 ^ 2 + v 1 ^ 2
  cubeRadius := id
  oracle _ v := .fin (v 0 ^ 2 + v 1 ^ 2 + (R 0 0 * v 0 + R 1 0 * v 1))
  filter _ _ _ _ xs ids := .ok (keepAll xs ids)
  sample _ _ _ region k _ := .ok (List.replicate k fun i => region.center i + region.radius * R i 1)
  fit _ _ _ old := .ok (old + 1)
  aggregate v := .ok v
  solve _ region := .ok { x := fun i => region.center i / 2, expectedImprovement := 1 }
  initModel _ _ := 0
  gradNorm m := |m|
  noiseSigma _ _ := .error .valueError
  rhoNoise _ _ _ _ _ _ := .error .valueError

/-- C129 fails if the relative tolerance for the parameters (default 1e-8) is positive: changes are
divided by the coordinates, one by one. From `(5, 0)` the run stops after one step, along other axes it does
not stop there. -/
theorem C129_violated_relative_tolerance :
    let g := toyConfig 9 100 2 (.classic 0)
    let g : Config ℚ := { g with conv := { g.conv with xtolRel := 1 / 4 } }
    okAnd (fun r => r.msg = some .xtolRel ∧ (r.state.x 0, r.state.x 1) = (5 / 2, 0))
      (tranquiloR g (turnedComponents ![![1, 0], ![0, 1]]) ![5, 0] 1
        ⟨fun _ => none, fun _ => none⟩) = true ∧
    okAnd (fun r => r.msg = some .xtolRel ∧ (r.state.x 0, r.state.x 1) = (3 / 16, 1 / 4))
      (tranquiloR g (turnedComponents ![![3 / 5, -4 / 5], ![4 / 5, 3 / 5]]) ![3, 4] 1
        ⟨fun _ => none, fun _ => none⟩) = true := by
  decide +kernel

theorem lstsq_one_row {lstsq : Lstsq K} (hl : LstsqSpec lstsq) {p : Nat} (a : Mat K 1 p)
    (ha : ∑ j, a 0 j ^ 2 ≠ 0) (k : Fin p) :
    lstsq 1 p a (fun _ => 1) k = a 0 k / ∑ j, a 0 j ^ 2 := by
  have hz : residSq a (fun _ => 1) (fun k => a 0 k / ∑ j, a 0 j ^ 2) = 0 := by
    simp only [residSq, Fin.sum_univ_one]
    have : ∑ k, a 0 k * (a 0 k / ∑ j, a 0 j ^ 2) = 1 := by
      rw [← div_self ha, Finset.sum_div]
      refine Finset.sum_congr rfl fun k _ => ?_
      ring
    rw [this]
    ring
  have hnonneg : ∀ c, 0 ≤ residSq a (fun _ => 1) c := fun c => Finset.sum_nonneg fun _ _ => sq_nonneg _
  refine congrFun (lstsq_unique a (fun _ => 1) (lstsq 1 p a fun _ => 1) (fun k => a 0 k / ∑ j, a 0 j ^ 2)
    (hl.least 1 p a _) (hl.shortest 1 p a _) (fun z => by rw [hz]; exact hnonneg z) fun z h => ?_) k
  rw [hz] at h
  simp only [residSq, Fin.sum_univ_one] at h
  have h1 : ∑ k, a 0 k * z k = 1 := by
    have := pow_eq_zero_iff (two_ne_zero) |>.1 h
    linarith
  have h2 : 0 ≤ ∑ k, (z k - a 0 k / ∑ j, a 0 j ^ 2) ^ 2 := Finset.sum_nonneg fun _ _ => sq_nonneg _
  have h3 : ∑ k, (z k - a 0 k / ∑ j, a 0 j ^ 2) ^ 2 =
      ∑ k, z k ^ 2 - 2 * (∑ k, a 0 k * z k) / (∑ j, a 0 j ^ 2) + ∑ k, (a 0 k / ∑ j, a 0 j ^ 2) ^ 2 := by
    rw [Finset.mul_sum, Finset.sum_div, ← Finset.sum_sub_distrib, ← Finset.sum_add_distrib]
    exact Finset.sum_congr rfl fun k _ => by ring
  have h4 : ∑ k, (a 0 k / ∑ j, a 0 j ^ 2) ^ 2 = 1 / ∑ j, a 0 j ^ 2 := by
    simp only [div_pow]
    rw [← Finset.sum_div]
    field_simp
  rw [h3, h1, h4] at h2
  rw [h4]
  have : 2 * (1 : K) / (∑ j, a 0 j ^ 2) = 2 * (1 / ∑ j, a 0 j ^ 2) := by ring
  linarith

/-- C129 fails for quadratic models that have more coefficients than there are points: the shortest vector of
coefficients depends on the axes. One point with value 1 at `(1, 0)`, and along other axes at
`(3/5, 4/5)`: the fitted values at the center are 1/3 and 625/1731. -/
theorem C129_violated_quadratic {lstsq : Lstsq ℝ} (hl : LstsqSpec lstsq) (root : ℝ → ℝ) :
    fitOls lstsq root .quadratic (fun _ : Fin 1 => (![1, 0] : Vec ℝ 2)) (fun _ => 1) none
      (⟨0, by decide⟩ : Fin 6) = 1 / 3 ∧
    fitOls lstsq root .quadratic (fun _ : Fin 1 => (![3 / 5, 4 / 5] : Vec ℝ 2)) (fun _ => 1) none
      (⟨0, by decide⟩ : Fin 6) = 625 / 1731 := by
  have hsum : ∀ x : Vec ℝ 2, ∑ j : Fin (nCols 2 .quadratic),
      featureMatrix .quadratic (fun _ : Fin 1 => x) 0 j ^ 2 =
      1 + x 0 ^ 2 + x 1 ^ 2 + (x 0 * x 0) ^ 2 + (x 0 * x 1) ^ 2 + (x 1 * x 1) ^ 2 := by
    intro x
    change ∑ j : Fin 6, (([1, x 0, x 1, x 0 * x 0, x 0 * x 1, x 1 * x 1] : List ℝ).getD j 0) ^ 2 = _
    simp [Fin.sum_univ_succ]
    ring
  have hkey : ∀ x : Vec ℝ 2, fitOls lstsq root .quadratic (fun _ : Fin 1 => x) (fun _ => 1) none
      (⟨0, by decide⟩ : Fin 6) =
        1 / (1 + x 0 ^ 2 + x 1 ^ 2 + (x 0 * x 0) ^ 2 + (x 0 * x 1) ^ 2 + (x 1 * x 1) ^ 2) := by
    intro x
    have h := lstsq_one_row hl (featureMatrix .quadratic fun _ : Fin 1 => x)
      (by rw [hsum]; positivity) (⟨0, by decide⟩ : Fin 6)
    rw [hsum] at h
    exact h
  rw [hkey, hkey]
  constructor <;> norm_num

/-! ## Examples -/

/-- The rotation with cosine 3/5 and sine 4/5. -/
theorem turn_orthonormal {K : Type} [Field K] [CharZero K] :
    OrthonormalColumns (![![3 / 5, -4 / 5], ![4 / 5, 3 / 5]] : Mat K 2 2) := by
  intro i j
  fin_cases i <;> fin_cases j <;> simp [Fin.sum_univ_two] <;> norm_num

/-- The hypotheses of `C129_without_bounds_partial` can be met. -/
theorem turnedComponents_rotate :
    RotationRespected ![![3 / 5, -4 / 5], ![4 / 5, 3 / 5]] false (fun v v' => v' = v) (fun u u' => u' = u)
      (turnedComponents ![![1, 0], ![0, 1]]) (turnedComponents ![![3 / 5, -4 / 5], ![4 / 5, 3 / 5]]) where
  nrm v := by
    simp [turnedComponents, rotate, Fin.sum_univ_two]
    ring
  definite v := by
    simp only [turnedComponents]
    constructor
    · intro h
      have h0 : v 0 ^ 2 = 0 := by nlinarith [sq_nonneg (v 0), sq_nonneg (v 1)]
      have h1 : v 1 ^ 2 = 0 := by nlinarith [sq_nonneg (v 0), sq_nonneg (v 1)]
      funext i
      fin_cases i
      · simpa using h0
      · simpa using h1
    · rintro rfl
      norm_num
  normZero := by norm_num [turnedComponents]
  cubeRadius r := rfl
  oracle k x := by
    simp [turnedComponents, rotate, Fin.sum_univ_two]
    ring
  filter t t' h size k xs is ht _ := rfl
  sample it round h r k xs _ := by
    simp only [turnedComponents, SameOutcome, List.map_replicate]
    refine congrArg (List.replicate k) (funext fun i => ?_)
    fin_cases i <;> simp [rotate, Region.rotate, Fin.sum_univ_two] <;> ring
  fit h is r vm vm' _ hv := by subst hv; exact rfl
  aggregate vm vm' hv := hv
  solve sm sm' r _ h := by
    refine ⟨funext fun i => ?_, rfl⟩
    fin_cases i <;> simp [rotate, Region.rotate, Fin.sum_univ_two] <;> ring
  initModel h r _ := rfl
  gradNorm sm sm' h := by subst h; rfl
  noiseSigma h := by cases h
  rhoNoise h := by cases h

/-- C129, example. -/
example :
    okAnd (fun r => r.log.xs.map (fun v => (v 0, v 1)) =
        [(5, 0), (5, 1), (5, 1), (5 / 2, 0), (5 / 2, 2), (5 / 2, 2), (5 / 4, 0), (5 / 8, 0)] ∧
      r.state.fval = .fin (65 / 64))
      (tranquiloR (toyConfig 3 100 2 (.classic 0)) (turnedComponents ![![1, 0], ![0, 1]]) ![5, 0] 1
        ⟨fun _ => none, fun _ => none⟩) = true ∧
    okAnd (fun r => r.log.xs.map (fun v => (v 0, v 1)) =
        [(3, 4), (11 / 5, 23 / 5), (11 / 5, 23 / 5), (3 / 2, 2), (-1 / 10, 16 / 5), (-1 / 10, 16 / 5),
          (3 / 4, 1), (3 / 8, 1 / 2)] ∧
      r.state.fval = .fin (65 / 64))
      (tranquiloR (toyConfig 3 100 2 (.classic 0)) (turnedComponents ![![3 / 5, -4 / 5], ![4 / 5, 3 / 5]])
        ![3, 4] 1 ⟨fun _ => none, fun _ => none⟩) = true := by
  decide +kernel

/-- Settings in two dimensions with two residuals: `np.linalg.lstsq` as documented, conjugate gradients for balls. -/
noncomputable def turnedSettings : BuiltinSettings ℝ 2 2 :=
  let cg : SubSolver ℝ 2 := fun model _ => match model.squareTerms with
    | none => .error .typeError
    | some h => .ok ⟨minimizeCg Real.sqrt model.linearTerms h 1 (1 / 10 ^ 8) (1 / 10 ^ 6), 1, true⟩
  { raisingSettings with
    lstsq := (exists_lstsq).choose
    sphere := cg
    fallbackSphere := cg }

theorem turnedSettings_rotate (R : Mat ℝ 2 2) (hR : OrthonormalColumns R) :
    RotationFreeSettings R turnedSettings := by
  have hcg : SolverRotationFree R turnedSettings.sphere := by
    intro model x
    simp only [turnedSettings, ScalarModel.rotate]
    cases model.squareTerms with
    | none => exact rfl
    | some h => exact (C129_conjugate_gradients hR Real.sqrt model.linearTerms h 1 _ _).1
  have hn : ∀ v : Vec ℝ 2, turnedSettings.nrm v = Real.sqrt (dot v v) := by
    intro v
    simp only [turnedSettings, raisingSettings, dot, sq]
  refine ⟨fun v => ?_, fun v => ?_, ?_, (exists_lstsq).choose_spec, ?_, rfl, hcg, hcg⟩
  · rw [hn, hn, dot_rotate hR]
  · rw [hn]
    constructor
    · intro h
      have h0 : dot v v ≤ 0 := Real.sqrt_eq_zero'.1 (le_antisymm h (Real.sqrt_nonneg _))
      simp only [dot, Fin.sum_univ_two] at h0
      have h1 : v 0 = 0 := mul_self_eq_zero.1 (by nlinarith [mul_self_nonneg (v 0), mul_self_nonneg (v 1)])
      have h2 : v 1 = 0 := mul_self_eq_zero.1 (by nlinarith [mul_self_nonneg (v 0), mul_self_nonneg (v 1)])
      funext i
      fin_cases i
      · exact h1
      · exact h2
    · rintro rfl
      simp [dot]
  · rw [hn]
    simp [dot]
  · simp [SamplerRotationFree, turnedSettings, raisingSettings, theDistribution]

/-- C129, example: the hypotheses of `C129_builtin_partial` can be met. -/
example (g : Config ℝ) (hx : g.conv.xtolRel = 0) :
    SameOutcome (RotatedCourse ![![3 / 5, -4 / 5], ![4 / 5, 3 / 5]]
        (RotatedModel ![![3 / 5, -4 / 5], ![4 / 5, 3 / 5]])
        fun u u' => u' = u.rotate ![![3 / 5, -4 / 5], ![4 / 5, 3 / 5]])
      (tranquiloR g (builtinComponents turnedSettings) ![5, 0] 1 ⟨fun _ => none, fun _ => none⟩)
      (tranquiloR g (builtinComponents (turnedSettings.rotate ![![3 / 5, -4 / 5], ![4 / 5, 3 / 5]])) ![3, 4] 1
        ⟨fun _ => none, fun _ => none⟩) := by
  have h := C129_builtin_partial turn_orthonormal turnedSettings (turnedSettings_rotate _ turn_orthonormal) g
    (Or.inr hx.le) ![5, 0] 1
  have hs : (fun i => ∑ j, (![![3 / 5, -4 / 5], ![4 / 5, 3 / 5]] : Mat ℝ 2 2) i j * (![5, 0] : Vec ℝ 2) j) =
      ![3, 4] := by
    funext i
    fin_cases i <;> simp [Fin.sum_univ_two]
  rw [hs] at h
  exact h

/-- C129, example: `exact_subsolver` for the model `(y 0 - 2) ** 2 / 2 + y 1 ** 2 / 2` up to a constant. -/
example : dot (![1, 0] : Vec ℚ 2) ![1, 0] ≤ 1 ∧ (∀ y : Vec ℚ 2, dot y y ≤ 1 →
      (⟨0, ![-2, 0], some fun i j => if i = j then 1 else 0, 1, 0⟩ : ScalarModel ℚ 2).predict ![1, 0] ≤
        (⟨0, ![-2, 0], some fun i j => if i = j then 1 else 0, 1, 0⟩ : ScalarModel ℚ 2).predict y) ∧
    ∀ y : Vec ℚ 2, dot y y ≤ 1 → (⟨0, ![-2, 0], some fun i j => if i = j then 1 else 0, 1, 0⟩ : ScalarModel ℚ 2).predict y ≤
      (⟨0, ![-2, 0], some fun i j => if i = j then 1 else 0, 1, 0⟩ : ScalarModel ℚ 2).predict ![1, 0] → y = ![1, 0] := by
  have hp : ∀ y : Vec ℚ 2, (⟨0, ![-2, 0], some fun i j => if i = j then 1 else 0, 1, 0⟩ : ScalarModel ℚ 2).predict y =
      -2 * y 0 + (y 0 ^ 2 + y 1 ^ 2) / 2 := by
    intro y
    simp [ScalarModel.predict, dot, halfQuad, Fin.sum_univ_two]
    ring
  refine ⟨by decide +kernel, fun y hy => ?_, fun y hy h => ?_⟩
  · rw [hp, hp]
    simp only [dot, Fin.sum_univ_two] at hy
    simp
    nlinarith [sq_nonneg (y 0 - 1), sq_nonneg (y 1)]
  · rw [hp, hp] at h
    simp only [dot, Fin.sum_univ_two] at hy
    simp at h
    have h1 : y 0 ≤ 1 := by nlinarith [sq_nonneg (y 0 - 1), sq_nonneg (y 1)]
    have h0 : y 0 = 1 := le_antisymm h1 (by nlinarith [sq_nonneg (y 0 - 1), sq_nonneg (y 1)])
    have h2 : y 1 = 0 := by
      have : y 1 * y 1 ≤ 0 := by rw [h0] at hy; linarith
      exact mul_self_eq_zero.1 (le_antisymm this (mul_self_nonneg _))
    funext i
    fin_cases i
    · exact h0
    · exact h2

end Tranquilo
