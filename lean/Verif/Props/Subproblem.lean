import Verif.Model.Subproblem
import Verif.Lemmas.Models
import Verif.Props.Region

/-!
# C39, C40, C41: solving the subproblem
-/

namespace Tranquilo

variable {K : Type} [Field K] [LinearOrder K] [IsStrictOrderedRing K] {n : Nat}

/-- The trust region is usable: positive radius, feasible center and, for boxes, sides of positive
length. -/
structure Usable (cr : K → K) (r : Region K n) : Prop where
  radius : 0 < r.radius
  cubeRadius : 0 < cr r.radius
  center : InBounds r.bounds r.center
  sides : ∀ i l u, r.bounds.lower i = some l → r.bounds.upper i = some u → l < u

/-- The solver that is used for a region, and its fallback. -/
def pick {α : Type} (r : Region K n) (sphere cube : α) : α :=
  match r.shape with
  | .sphere => sphere
  | .cube => cube

omit [IsStrictOrderedRing K] in
/-- The two possible outcomes, and where they come from. -/
theorem solveSubproblem_cases (cr : K → K) (sphere cube fbSphere fbCube : SubSolver K n) (retry : Bool)
    (model : ScalarModel K n) (r : Region K n) (res : SubproblemResult K n)
    (h : solveSubproblem cr sphere cube fbSphere fbCube retry model r = .ok res) :
    res.shape = r.shape ∧ ∃ raw, callSolver retry (pick r sphere cube) (pick r fbSphere fbCube) model
        (r.mapToUnit cr r.center) = .ok raw ∧ res.nIterations = raw.nIterations ∧
      ((res.xUnit = (match r.shape with
            | .sphere => raw.x
            | .cube => fun i => npClip (raw.x i) (-1) 1) ∧
          res.x = r.mapFromUnit cr res.xUnit ∧ res.success = raw.success ∧
          res.expectedImprovement = model.predict (r.mapToUnit cr r.center) - model.predict res.xUnit ∧
          0 ≤ res.expectedImprovement) ∨
        (res.x = r.center ∧ res.xUnit = r.mapToUnit cr r.center ∧ res.expectedImprovement = 0 ∧
          res.success = false)) := by
  unfold solveSubproblem at h
  simp only at h
  cases hs : r.shape with
  | sphere =>
    simp only [hs] at h
    simp only [pick, hs]
    cases hc : callSolver retry sphere fbSphere model (r.mapToUnit cr r.center) with
    | error e => rw [hc] at h; cases h
    | ok raw =>
      rw [hc] at h
      simp only at h
      split at h
      · rename_i h0
        cases h
        exact ⟨rfl, raw, rfl, rfl, .inl ⟨rfl, rfl, rfl, by simp only [neg_sub], h0⟩⟩
      · cases h
        exact ⟨rfl, raw, rfl, rfl, .inr ⟨rfl, rfl, rfl, rfl⟩⟩
  | cube =>
    simp only [hs] at h
    simp only [pick, hs]
    cases hc : callSolver retry cube fbCube model (r.mapToUnit cr r.center) with
    | error e => rw [hc] at h; cases h
    | ok raw =>
      rw [hc] at h
      simp only at h
      split at h
      · rename_i h0
        cases h
        exact ⟨rfl, raw, rfl, rfl, .inl ⟨rfl, rfl, rfl, by simp only [neg_sub], h0⟩⟩
      · cases h
        exact ⟨rfl, raw, rfl, rfl, .inr ⟨rfl, rfl, rfl, rfl⟩⟩

theorem npClip_unit (a : K) : -1 ≤ npClip a (-1) 1 ∧ npClip a (-1) 1 ≤ 1 := npClip_mem (by linarith)

/-- C39: for arbitrary solvers (also failing ones with a fallback) the expected improvement is not
negative and is the decrease that the model predicts from the center to the returned point; the unit
point that is returned belongs to the point that is returned. -/
theorem C39_expected_improvement (cr : K → K) (sphere cube fbSphere fbCube : SubSolver K n) (retry : Bool)
    (model : ScalarModel K n) (r : Region K n) (hr : Usable cr r) (res : SubproblemResult K n)
    (h : solveSubproblem cr sphere cube fbSphere fbCube retry model r = .ok res) :
    0 ≤ res.expectedImprovement ∧
    res.expectedImprovement
      = model.predict (r.mapToUnit cr r.center) - model.predict (r.mapToUnit cr res.x) ∧
    res.xUnit = r.mapToUnit cr res.x := by
  obtain ⟨-, raw, -, -, h | h⟩ := solveSubproblem_cases cr sphere cube fbSphere fbCube retry model r res h
  · obtain ⟨h1, h2, -, h3, h4⟩ := h
    have hback : r.mapToUnit cr res.x = res.xUnit := by
      rw [h2]
      cases hs : r.shape with
      | sphere => exact (C29_sphere_bijection cr r hs hr.radius).2.1 _
      | cube =>
        refine (C29_cube_bijection cr r hs
          (C29_cube_nondegenerate cr r hs hr.center hr.cubeRadius hr.sides)).2.1 _ fun i => ?_
        rw [h1]; simp only [hs]
        exact npClip_unit _
    exact ⟨h4, by rw [hback]; exact h3, hback.symm⟩
  · obtain ⟨h1, h2, h3, -⟩ := h
    rw [h1, h2, h3]
    exact ⟨le_rfl, by ring, rfl⟩

/-- C40 for boxes: whatever the solver returns, the candidate is in the box and satisfies the bounds. -/
theorem C40_box (cr : K → K) (sphere cube fbSphere fbCube : SubSolver K n) (retry : Bool)
    (model : ScalarModel K n) (r : Region K n) (hs : r.shape = .cube)
    (hc : InBounds r.bounds r.center) (h0 : 0 ≤ cr r.radius) (res : SubproblemResult K n)
    (h : solveSubproblem cr sphere cube fbSphere fbCube retry model r = .ok res) :
    InBounds r.bounds res.x ∧ ∀ i, |res.x i - r.center i| ≤ cr r.radius := by
  obtain ⟨-, raw, -, -, h | h⟩ := solveSubproblem_cases cr sphere cube fbSphere fbCube retry model r res h
  · rw [h.2.1]
    exact C28_cube_points_in_bounds_partial cr r hs hc h0 _
  · rw [h.1]
    exact ⟨hc, fun i => by rw [sub_self, abs_zero]; exact h0⟩

/-- C40 for balls: if the solver and the fallback stay in the unit ball up to a factor `1 + slack`, the
candidate is in the trust region up to that factor; without slack it also satisfies the bounds. What is
missing is a check of the solver result in the template: the default solver has a slack, see
`C40_violated_slack`. -/
theorem C40_ball_partial (cr : K → K) (sphere cube fbSphere fbCube : SubSolver K n) (retry : Bool)
    (model : ScalarModel K n) (r : Region K n) (hs : r.shape = .sphere) (hr : 0 ≤ r.radius)
    (hc : InBounds r.bounds r.center) (slack : K) (h0 : 0 ≤ slack)
    (hsolver : ∀ x raw, sphere model x = .ok raw → sumSq raw.x ≤ (1 + slack) ^ 2)
    (hfallback : ∀ x raw, fbSphere model x = .ok raw → sumSq raw.x ≤ (1 + slack) ^ 2)
    (res : SubproblemResult K n)
    (h : solveSubproblem cr sphere cube fbSphere fbCube retry model r = .ok res) :
    InBallSq r.center (r.radius * (1 + slack)) res.x ∧ (slack = 0 → InBounds r.bounds res.x) := by
  have hball : InBallSq r.center (r.radius * (1 + slack)) res.x := by
    obtain ⟨-, raw, hraw, -, h | h⟩ :=
      solveSubproblem_cases cr sphere cube fbSphere fbCube retry model r res h
    · have hx : sumSq raw.x ≤ (1 + slack) ^ 2 := by
        simp only [pick, hs, callSolver] at hraw
        split at hraw
        · rename_i r' hr'
          cases hraw
          exact hsolver _ _ hr'
        · split at hraw
          · exact hfallback _ _ hraw
          · cases hraw
      rw [h.2.1, h.1]
      simp only [hs, Region.mapFromUnit, InBallSq, add_sub_cancel_right]
      have : sumSq (fun i => raw.x i * r.radius) = r.radius ^ 2 * sumSq raw.x := by
        simp only [sumSq, Finset.mul_sum]
        exact Finset.sum_congr rfl fun i _ => by ring
      rw [this, mul_pow]
      exact mul_le_mul_of_nonneg_left hx (sq_nonneg _)
    · rw [h.1]
      simp only [InBallSq, sumSq, sub_self]
      simp only [ne_eq, OfNat.ofNat_ne_zero, not_false_eq_true, zero_pow, Finset.sum_const_zero]
      positivity
  refine ⟨hball, fun h1 => ?_⟩
  subst h1
  rw [add_zero, mul_one] at hball
  have := C27_sphere_strictly_in_bounds r hr hs res.x hball
  intro i
  exact ⟨fun l hl => ((this i).1 l hl).le, fun u hu => ((this i).2 u hu).le⟩

omit [IsStrictOrderedRing K] in
/-- C41: without retry an exception of the selected solver reaches the caller; with retry the result is
exactly the one that the fallback solver alone gives; if no exception occurs the fallback is
irrelevant. Nothing else raises. -/
theorem C41_exceptions (cr : K → K) (sphere cube fbSphere fbCube : SubSolver K n) (retry : Bool)
    (model : ScalarModel K n) (r : Region K n) :
    (∀ e, pick r sphere cube model (r.mapToUnit cr r.center) = .error e →
      (retry = false → solveSubproblem cr sphere cube fbSphere fbCube retry model r = .error e) ∧
      (retry = true → solveSubproblem cr sphere cube fbSphere fbCube retry model r
        = solveSubproblem cr fbSphere fbCube sphere cube false model r)) ∧
    (∀ raw, pick r sphere cube model (r.mapToUnit cr r.center) = .ok raw →
      (∃ res, solveSubproblem cr sphere cube fbSphere fbCube retry model r = .ok res) ∧
      ∀ fbSphere' fbCube', solveSubproblem cr sphere cube fbSphere fbCube retry model r
        = solveSubproblem cr sphere cube fbSphere' fbCube' (!retry) model r) := by
  constructor
  · intro e he
    refine ⟨?_, ?_⟩
    · rintro rfl
      cases hs : r.shape <;> simp only [pick, hs] at he <;>
        simp [solveSubproblem, hs, callSolver, he]
    · rintro rfl
      cases hs : r.shape <;> simp only [pick, hs] at he
      · simp only [solveSubproblem, hs, callSolver, he]
        cases fbSphere model (r.mapToUnit cr r.center) <;> rfl
      · simp only [solveSubproblem, hs, callSolver, he]
        cases fbCube model (r.mapToUnit cr r.center) <;> rfl
  · intro raw hraw
    refine ⟨?_, fun fbS fbC => ?_⟩
    · cases hs : r.shape <;> simp only [pick, hs] at hraw <;>
        simp only [solveSubproblem, hs, callSolver, hraw] <;> split <;> exact ⟨_, rfl⟩
    · cases hs : r.shape <;> simp only [pick, hs] at hraw <;>
        simp only [solveSubproblem, hs, callSolver, hraw]

/-- C39-C41, example: a solver that leaves the box is clipped; a failing solver is replaced. -/
example :
    let model : ScalarModel ℚ 1 := ⟨0, fun _ => 1, some fun _ _ => 0, fun _ => 1, fun _ => 0⟩
    let box : Region ℚ 1 := ⟨fun _ => 0, 1, ⟨fun _ => some (-1 / 2), fun _ => none⟩⟩
    let bad : SubSolver ℚ 1 := fun _ _ => .ok ⟨fun _ => -7, 1, true⟩
    let failing : SubSolver ℚ 1 := fun _ _ => .error .linAlgError
    okAnd (fun res => res.x = (fun _ => -1 / 2) ∧ res.expectedImprovement = 2 / 3)
      (solveSubproblem id bad bad failing failing true model box) ∧
    okAnd (fun res => res.x = (fun _ => -1 / 2))
      (solveSubproblem id failing failing bad bad true model box) := by
  decide +kernel

end Tranquilo
