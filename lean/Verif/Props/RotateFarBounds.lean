import Verif.Props.Rotate
import Verif.Props.FarBounds

/-!
# C129 with bounds that no region reaches

The choice of the coordinate axes does not matter either if there are bounds, before and after the rotation, that no trust
region reaches.
-/

namespace Tranquilo

variable {K : Type} [Field K] [LinearOrder K] [IsStrictOrderedRing K] {n m : ℕ} {VM SM : Type}

theorem farFrom_none (c : Config K) (r : Run K n VM SM) : FarFrom c r ⟨fun _ => none, fun _ => none⟩ :=
  ⟨fun _ _ _ => ⟨(fun _ h => by cases h), (fun _ h => by cases h)⟩,
    fun _ _ _ _ _ _ _ _ _ => ⟨(fun _ h => by cases h), (fun _ h => by cases h)⟩⟩

/-- C129 with bounds: if a run with the bounds `B` returns, no trust region of it reaches `B`, and the regions with rotated
centers do not reach `B'`, then the run from the rotated start with bounds `B'` evaluates the rotated points, records the
same values, and returns the rotated solution for the same reason. -/
theorem C129_far_bounds_partial [FloorRing K] {R : Mat K n n} (hR : OrthonormalColumns R)
    {RV : VM → VM → Prop} {RS : SM → SM → Prop} {comp comp' : ComponentsR K n VM SM} (g : Config K)
    (hx : g.conv.disable = true ∨ g.conv.xtolRel ≤ 0) (hu : RotationRespected R g.noisy RV RS comp comp')
    (hc : SeesBalls comp) (hc' : SeesBalls comp') (hd : ∀ mi f, g.decider ≠ .lineSearch mi f)
    (x : Vec K n) (radius : K) {B B' : Bounds K n} {run : Run K n VM SM}
    (h : tranquiloR g comp x radius B = .ok run)
    (hB : ∀ s ∈ run.states, EndsBefore s.trustregion B)
    (hB' : ∀ s ∈ run.states, ∀ i,
      (∀ l, B'.lower i = some l → l < (∑ j, R i j * s.trustregion.center j) - s.trustregion.radius) ∧
      ∀ u, B'.upper i = some u → (∑ j, R i j * s.trustregion.center j) + s.trustregion.radius < u) :
    ∃ run', tranquiloR g comp' (fun i => ∑ j, R i j * x j) radius B' = .ok run' ∧
      run'.log.xs = run.log.xs.map (fun x i => ∑ j, R i j * x j) ∧
      run'.log.evals = run.log.evals ∧
      run'.converged = run.converged ∧ run'.msg = run.msg ∧
      List.Forall₂ (fun s s' => s'.x = (fun i => ∑ j, R i j * s.x j) ∧ s'.fval = s.fval ∧ s'.accepted = s.accepted ∧
        s'.trustregion.radius = s.trustregion.radius) run.states run'.states ∧
      (run'.state.x = fun i => ∑ j, R i j * run.state.x j) ∧
      run'.state.fval = run.state.fval := by
  have h0 := C132_far_bounds hc h ⟨fun _ => none, fun _ => none⟩
    ⟨hB, fun mi f hd' => absurd hd' (hd mi f)⟩ (farFrom_none g run)
  have key := C129_without_bounds_partial hR g hx hu x radius
  rw [h0] at key
  revert key
  cases hr : tranquiloR g comp' (fun i => ∑ j, R i j * x j) radius ⟨fun _ => none, fun _ => none⟩ with
  | error e => exact fun h => h.elim
  | ok r' =>
    intro key
    have hst : List.Forall₂ (fun s s' : LoopState K n VM SM => RotatedState R RV RS
        (s.withBounds ⟨fun _ => none, fun _ => none⟩) s') run.states r'.states := by
      have := key.states
      rwa [show (run.withBounds ⟨fun _ => none, fun _ => none⟩).states =
        run.states.map (LoopState.withBounds ⟨fun _ => none, fun _ => none⟩) from rfl,
        List.forall₂_map_left_iff] at this
    have far : FarFrom g r' B' := by
      refine ⟨fun s' hs' => ?_, fun mi f hd' => absurd hd' (hd mi f)⟩
      obtain ⟨s, hs, hss⟩ : ∃ s ∈ run.states, RotatedState R RV RS
          (s.withBounds ⟨fun _ => none, fun _ => none⟩) s' := by
        obtain ⟨i, hi, rfl⟩ := List.getElem_of_mem hs'
        have hl := hst.length_eq
        exact ⟨run.states[i], List.getElem_mem _, (List.forall₂_iff_get.1 hst).2 i (by omega) hi⟩
      intro i
      rw [hss.trustregion]
      exact hB' s hs i
    refine ⟨r'.withBounds B', C132_far_bounds hc' hr B' (farFrom_none g r') far, ?_, ?_, key.converged, key.msg, ?_,
      key.state.x, key.state.fval⟩
    · show r'.log.xs = _
      rw [key.log]; rfl
    · show r'.log.evals = _
      rw [key.log]; rfl
    · show List.Forall₂ _ _ (r'.states.map (LoopState.withBounds B'))
      rw [List.forall₂_map_right_iff]
      refine hst.imp fun s s' hs => ⟨hs.x, hs.fval, hs.accepted, ?_⟩
      show s'.trustregion.radius = _
      rw [hs.trustregion]; rfl

/-- The same for the built in components. -/
theorem C129_builtin_far_bounds_partial [FloorRing K] {R : Mat K n n} (hR : OrthonormalColumns R)
    (b : BuiltinSettings K n m) (hb : RotationFreeSettings R b) (g : Config K)
    (hx : g.conv.disable = true ∨ g.conv.xtolRel ≤ 0) (hd : ∀ mi f, g.decider ≠ .lineSearch mi f)
    (x : Vec K n) (radius : K) {B B' : Bounds K n} {run : Run K n (VectorModel K n m) (ScalarModel K n)}
    (h : tranquiloR g (builtinComponents b) x radius B = .ok run)
    (hB : ∀ s ∈ run.states, EndsBefore s.trustregion B)
    (hB' : ∀ s ∈ run.states, ∀ i,
      (∀ l, B'.lower i = some l → l < (∑ j, R i j * s.trustregion.center j) - s.trustregion.radius) ∧
      ∀ u, B'.upper i = some u → (∑ j, R i j * s.trustregion.center j) + s.trustregion.radius < u) :
    ∃ run', tranquiloR g (builtinComponents (b.rotate R)) (fun i => ∑ j, R i j * x j) radius B' = .ok run' ∧
      run'.log.xs = run.log.xs.map (fun x i => ∑ j, R i j * x j) ∧
      run'.log.evals = run.log.evals ∧
      run'.converged = run.converged ∧ run'.msg = run.msg ∧
      (run'.state.x = fun i => ∑ j, R i j * run.state.x j) ∧
      run'.state.fval = run.state.fval := by
  obtain ⟨run', h1, h2, h3, h4, h5, -, h6, h7⟩ := C129_far_bounds_partial hR g hx (builtin_rotate hR b hb g.noisy)
    (builtin_seesBalls b) (builtin_seesBalls (b.rotate R)) hd x radius h hB hB'
  exact ⟨run', h1, h2, h3, h4, h5, h6, h7⟩

theorem turnedComponents_seesBalls (R : Mat ℚ 2 2) : SeesBalls (turnedComponents R) where
  filter _ _ _ _ _ _ _ := rfl
  sample ρ ρ' h _ _ _ _ _ := by
    show Except.ok _ = Except.ok _
    rw [h.center, h.radius]
  fit _ _ _ _ _ _ := rfl
  solve ρ ρ' h _ := by
    show Except.ok _ = Except.ok _
    rw [h.center]
  init _ _ _ := rfl
  sigma _ _ _ _ := rfl
  rho _ _ _ _ _ _ _ _ := rfl

/-- C129 with bounds, example: the run from `(5, 0)` within `[-9, 9]` and the run from `(3, 4)` along other axes within
`[-7, 8]`. -/
example : ∃ run run', tranquiloR (toyConfig 3 100 2 (.classic 0)) (turnedComponents ![![1, 0], ![0, 1]]) ![5, 0] 1
      ⟨fun _ => some (-9), fun _ => some 9⟩ = .ok run ∧ run.states.length = 4 ∧
    tranquiloR (toyConfig 3 100 2 (.classic 0)) (turnedComponents ![![3 / 5, -4 / 5], ![4 / 5, 3 / 5]]) ![3, 4] 1
      ⟨fun _ => some (-7), fun _ => some 8⟩ = .ok run' ∧ run'.state.fval = run.state.fval := by
  have key : okAnd (fun r => r.states.length = 4 ∧ (∀ s ∈ r.states, ∀ i,
        -9 < s.trustregion.center i - s.trustregion.radius ∧ s.trustregion.center i + s.trustregion.radius < 9) ∧
      (∀ s ∈ r.states, ∀ i, -7 < (∑ j, (![![3 / 5, -4 / 5], ![4 / 5, 3 / 5]] : Mat ℚ 2 2) i j *
          s.trustregion.center j) - s.trustregion.radius ∧
        (∑ j, (![![3 / 5, -4 / 5], ![4 / 5, 3 / 5]] : Mat ℚ 2 2) i j * s.trustregion.center j) +
          s.trustregion.radius < 8))
      (tranquiloR (toyConfig 3 100 2 (.classic 0)) (turnedComponents ![![1, 0], ![0, 1]]) ![5, 0] 1
        ⟨fun _ => some (-9), fun _ => some 9⟩) = true := by
    decide +kernel
  cases hr : tranquiloR (toyConfig 3 100 2 (.classic 0)) (turnedComponents ![![1, 0], ![0, 1]]) ![5, 0] 1
        ⟨fun _ => some (-9), fun _ => some 9⟩ with
  | error e => rw [hr] at key; cases key
  | ok run =>
    rw [hr] at key
    simp only [okAnd, decide_eq_true_eq] at key
    obtain ⟨run', h1, -, -, -, -, -, -, h2⟩ := C129_far_bounds_partial turn_orthonormal
      (toyConfig 3 100 2 (.classic 0)) (Or.inr (by decide)) turnedComponents_rotate (turnedComponents_seesBalls _)
      (turnedComponents_seesBalls _) (fun _ _ h => by cases h) ![5, 0] 1
      (B' := ⟨fun _ => some (-7), fun _ => some 8⟩) hr
      (fun s hs i => ⟨fun l hl => by cases hl; exact (key.2.1 s hs i).1,
        fun l hl => by cases hl; exact (key.2.1 s hs i).2⟩)
      (fun s hs i => ⟨fun l hl => by cases hl; exact (key.2.2 s hs i).1,
        fun l hl => by cases hl; exact (key.2.2 s hs i).2⟩)
    have hx : (fun i => ∑ j, (![![3 / 5, -4 / 5], ![4 / 5, 3 / 5]] : Mat ℚ 2 2) i j * (![5, 0] : Vec ℚ 2) j) =
        ![3, 4] := by
      funext i
      fin_cases i <;> simp [Fin.sum_univ_two]
    rw [hx] at h1
    exact ⟨run, run', rfl, key.1, h1, h2⟩

end Tranquilo
