import Verif.Lemmas.NoRaise
import Verif.Props.Limits
import Verif.Props.MainLoop
import Verif.Props.MainLoopWitness

/-!
# C98: runs with components that may raise

The first part shows that what is proved for runs without exceptions (C61, C62, C63, C65, C67, C68) holds
for every run that returns, even if the components raise on other inputs. The second part is C98.
-/

namespace Tranquilo

variable {K : Type} [Field K] [LinearOrder K] [IsStrictOrderedRing K] {n : Nat} {VM SM : Type}

/-! ## Contracts of the components for the case that they return -/

/-- The filter, if it returns, selects points with their indices. -/
def FilterSelectsR (ce : ComponentsR K n VM SM) : Prop :=
  ∀ state log target nEvals (l : List (Vec K n × Nat)) r,
    ce.filter state log target nEvals (l.map Prod.fst) (l.map Prod.snd) = .ok r →
    ∃ kept : List (Vec K n × Nat), kept ⊆ (state.x, state.index) :: l ∧
      r = (kept.map Prod.fst, kept.map Prod.snd)

/-- The sampler, if it returns, gives at most as many points as requested. -/
def SamplerObeysR (ce : ComponentsR K n VM SM) : Prop :=
  ∀ it round log region k xs ys, ce.sample it round log region k xs = .ok ys → ys.length ≤ k

/-- The sampler, if it returns, stays in the bounds. -/
def SamplerFeasibleR (ce : ComponentsR K n VM SM) : Prop :=
  ∀ it round log (region : Region K n) k xs ys, 0 ≤ region.radius →
    InBounds region.bounds region.center → ce.sample it round log region k xs = .ok ys →
    ∀ y ∈ ys, InBounds region.bounds y

/-- The solver, if it returns, stays in the bounds. -/
def SolverFeasibleR (ce : ComponentsR K n VM SM) : Prop :=
  ∀ m (region : Region K n) sub, 0 ≤ region.radius → InBounds region.bounds region.center →
    ce.solve m region = .ok sub → InBounds region.bounds sub.x

omit [IsStrictOrderedRing K] in
/-- A run that returns is a run without exceptions, whose components keep the contracts. -/
theorem tranquiloR_run [FloorRing K] {c : Config K} {ce : ComponentsR K n VM SM} {x : Vec K n}
    {radius : K} {bounds : Bounds K n} {r : Run K n VM SM}
    (hr : tranquiloR c ce x radius bounds = .ok r) :
    ∃ cp : Components K n VM SM, r = tranquilo c cp x radius bounds ∧ cp.nrm = ce.nrm ∧
      cp.oracle = ce.oracle ∧ cp.gradNorm = ce.gradNorm ∧
      (FilterSelectsR ce → FilterSelects cp) ∧ (SamplerObeysR ce → SamplerObeys cp) ∧
      (SamplerFeasibleR ce → SamplerFeasible cp) ∧ (SolverFeasibleR ce → SolverFeasible cp) := by
  refine ⟨ce.total (fallbackComponents ce r.state.model),
    (tranquiloR_ok (ce.total_realizes _) hr).symm, rfl, rfl, rfl, total_filterSelects _, ?_, ?_, ?_⟩
  · intro h it round log region k xs
    simp only [ComponentsR.total, fallbackComponents]
    cases hs : ce.sample it round log region k xs with
    | ok ys => exact h _ _ _ _ _ _ _ hs
    | error e => simp [okOr]
  · intro h it round log region k xs hrad hc
    simp only [ComponentsR.total, fallbackComponents]
    cases hs : ce.sample it round log region k xs with
    | ok ys => exact h _ _ _ _ _ _ _ hrad hc hs
    | error e =>
      intro y hy
      rw [List.eq_of_mem_replicate hy]
      exact hc
  · intro h m region hrad hc
    simp only [ComponentsR.total, fallbackComponents]
    cases hs : ce.solve m region with
    | ok ys => exact h _ _ _ hrad hc hs
    | error e => exact hc

/-! ## Runs that return -/

section returns

variable [FloorRing K] {c : Config K} {ce : ComponentsR K n VM SM} {x : Vec K n} {radius : K}
  {bounds : Bounds K n} {r : Run K n VM SM}

/-- C62 for components that may raise, see `C62_states_refer_to_history`. -/
theorem C62_states_of_a_run_that_returns (hf : FilterSelectsR ce)
    (hr : tranquiloR c ce x radius bounds = .ok r) :
    (∀ s ∈ r.states, r.log.xs[s.index]? = some s.x ∧ r.log.xs[s.candidateIndex]? = some s.candidateX) ∧
    r.log.xs[r.state.index]? = some r.state.x ∧
    (∃ s, r.states.getLast? = some s ∧ r.state.x = s.x ∧ r.state.fval = s.fval ∧
      r.state.index = s.index) ∧
    r.state.trustregion.center = r.state.x := by
  obtain ⟨cp, rfl, -, -, -, h, -⟩ := tranquiloR_run hr
  exact C62_states_refer_to_history c cp (h hf) x radius bounds

/-- C61 for components that may raise, see `C61_never_worse`. -/
theorem C61_run_that_returns_is_never_worse (hf : FilterSelectsR ce) (hb : 1 ≤ c.batchSize)
    (hm : 0 ≤ c.decider.minImprovement) {f : Vec K n → XVal K} (hdet : ∀ k x, ce.oracle k x = f x)
    (hx : f x ≠ .nan) (hr : tranquiloR c ce x radius bounds = .ok r) :
    (r.states.Pairwise fun s t => f t.x ≤ f s.x) ∧ (∀ s ∈ r.states, f r.state.x ≤ f s.x) ∧
    (∃ s ∈ r.states, r.state.x = s.x) ∧ f r.state.x ≤ f x ∧ r.state.fval = f r.state.x := by
  obtain ⟨cp, rfl, -, ho, -, h, -⟩ := tranquiloR_run hr
  exact C61_never_worse c cp (h hf) hb hm (by rw [ho]; exact hdet) x hx radius bounds

/-- C63 for components that may raise, see `C63_total_evaluations_partial`. -/
theorem C63_run_that_returns_total_evaluations_partial (hf : FilterSelectsR ce) (hs : SamplerObeysR ce)
    (hb : 1 ≤ c.batchSize)
    (hdec : (∃ m, c.decider = .classic m) ∨ ∃ m rf, c.decider = .lineSearch m rf)
    (hnoisy : c.noisy = false) (hn : c.nEvalsPerPoint = 1) (hstart : c.nEvalsAtStart = 1)
    (hr : tranquiloR c ce x radius bounds = .ok r) :
    r.log.nFun ≤ max 1 (c.maxEval - 1) + ((c.targetSize + c.batchSize - 1) +
      max 1 c.stagnation.maxTrials * c.stagnation.sampleIncrement + c.batchSize) := by
  obtain ⟨cp, rfl, -, -, -, h1, h2, -⟩ := tranquiloR_run hr
  exact C63_total_evaluations_partial c cp (h1 hf) (h2 hs) hb hdec hnoisy hn hstart x radius bounds

/-- C65 for components that may raise, see `C65_messages_are_truthful`. -/
theorem C65_messages_of_a_run_that_returns (hf : FilterSelectsR ce)
    (hr : tranquiloR c ce x radius bounds = .ok r) :
    (r.msg = none → r.states.length = c.maxIter + 1) ∧
    (r.msg = some .maxEval → c.maxEval ≤ r.log.nFun) ∧
    (∀ m, m ≠ .maxEval → r.msg = some m → c.conv.disable = false ∧
      ∃ pre old new, r.states = pre ++ [old, new] ∧ new.accepted = true ∧
        MessageHolds ce.nrm ce.gradNorm c.conv old new m) := by
  obtain ⟨cp, rfl, h1, -, h3, h, -⟩ := tranquiloR_run hr
  have := C65_messages_are_truthful c cp (h hf) x radius bounds
  rw [h1, h3] at this
  exact this

/-- C67 for components that may raise, see `C67_points_are_accounted`. -/
theorem C67_points_of_a_run_that_returns (hf : FilterSelectsR ce) (hb : 1 ≤ c.batchSize)
    (hr : tranquiloR c ce x radius bounds = .ok r) :
    ∀ s ∈ r.states, ∀ ne, s.nEvalsPerPoint = some ne →
      ∃ n0 ≤ r.log.xs.length, Accounted ce.nrm c.searchRadiusFactor r.log s ne n0 := by
  obtain ⟨cp, rfl, h1, -, -, h, -⟩ := tranquiloR_run hr
  have := C67_points_are_accounted c cp (h hf) hb x radius bounds
  rw [h1] at this
  exact this

/-- C68 for components that may raise, see `C68_bounds_respected_partial`. -/
theorem C68_bounds_of_a_run_that_returns_partial (hf : FilterSelectsR ce) (hs : SamplerFeasibleR ce)
    (hsol : SolverFeasibleR ce) (hlim : RadiusLimitsOk c.radius) (hnrm : ∀ v, 0 ≤ ce.nrm v)
    (hdec : (∀ m rf, c.decider ≠ .lineSearch m rf) ∨ c.batchSize = 1) (hr0 : 0 ≤ radius)
    (hx : InBounds bounds x) (hr : tranquiloR c ce x radius bounds = .ok r) :
    ∀ y ∈ r.log.xs, InBounds bounds y := by
  obtain ⟨cp, rfl, h1, -, -, h, -, h2, h3⟩ := tranquiloR_run hr
  exact C68_bounds_respected_partial c cp (h hf) (h2 hs) (h3 hsol) hlim (by rw [h1]; exact hnrm) hdec x
    radius hr0 bounds hx

end returns

/-! ## C98 -/

/-- C98, first part: a run with components that do not raise on what the main loop gives them does not
raise. It ends with a point within the bounds, has evaluated the criterion only within the bounds, has
taken at most `maxiter` iterations, and the final trust region is around the final point with a positive
radius. `SafeComponents` (in `Spec/MainLoopRaise.lean`) is proved for the built in components in
`Props/BuiltinRun.lean`. -/
theorem C98_safe_components_run_to_the_end [FloorRing K] {c : Config K} {ce : ComponentsR K n VM SM}
    {bounds : Bounds K n} {Good : VM → Prop} (h : SafeComponents c ce bounds Good)
    (hcfg : SafeConfig c bounds) (x : Vec K n) (hx : InBounds bounds x) (radius : K)
    (hrad : 0 < radius) :
    ∃ r, tranquiloR c ce x radius bounds = .ok r ∧ InBounds bounds r.state.x ∧
      (∀ y ∈ r.log.xs, InBounds bounds y) ∧ r.log.xs[r.state.index]? = some r.state.x ∧
      r.states.length ≤ c.maxIter + 1 ∧ r.state.trustregion.center = r.state.x ∧
      0 < r.state.trustregion.radius := by
  obtain ⟨r, sm, hr, hsafe⟩ := tranquiloR_safe h hcfg x hx radius hrad
  obtain ⟨-, h2, -, h4⟩ := C62_states_of_a_run_that_returns h.selects hr
  refine ⟨r, hr, hsafe.points _ (List.mem_of_getElem? h2), hsafe.points, h2, ?_, h4, hsafe.radius⟩
  obtain ⟨cp, hcp, -⟩ := tranquiloR_run hr
  obtain ⟨m, rs, -, -, h5, h6, h7, -⟩ := C63_limits_partial c cp x radius bounds
  rw [hcp, ← h5, h7]
  omega

/-- An exception of a component that is reached ends the run: if the first call of the filter raises,
the run raises the same exception, whatever the options (there has to be an iteration). -/
theorem C98_exceptions_are_not_swallowed [FloorRing K] {c : Config K} {ce : ComponentsR K n VM SM}
    (x : Vec K n) (radius : K) (bounds : Bounds K n) (e : Err) (hit : 0 < c.maxIter)
    (hagg : ∃ sm, ce.aggregate (ce.initModel (startLogR c ce.oracle x)
      { center := x, radius := radius, bounds := bounds }) = .ok sm)
    (hfil : ∀ state log target nEvals xs is, ce.filter state log target nEvals xs is = .error e) :
    tranquiloR c ce x radius bounds = .error e := by
  obtain ⟨sm, hsm⟩ := hagg
  obtain ⟨k, hk⟩ : ∃ k, c.maxIter = k + 1 := ⟨c.maxIter - 1, by omega⟩
  unfold tranquiloR startRunR
  dsimp only
  rw [hsm, hk]
  simp only [bind, Except.bind, pure, Except.pure, runLoopR, iterationR, buildPhaseR, hfil]

/-! ## Examples -/

/-- The components of the example runs as components that may raise. The solver raises outside of
`[-3, 3]`. -/
def toyComponentsR (oracle : Oracle ℚ 1) : ComponentsR ℚ 1 ℚ ℚ where
  nrm v := |v 0|
  cubeRadius := id
  oracle := oracle
  filter _ _ _ _ xs ids := .ok (keepAll xs ids)
  sample _ round log region k xs := .ok (centerSample round log region k xs)
  fit _ _ _ old := .ok (old + 1)
  aggregate v := .ok v
  solve _ region := if |region.center 0| ≤ 3 then
      .ok { x := fun i => region.center i / 2, expectedImprovement := 1 }
    else .error .valueError
  initModel _ _ := 0
  gradNorm m := |m|
  noiseSigma _ _ := .error .valueError
  rhoNoise _ _ _ _ _ _ := .error .valueError

/-- Bounds `-2 <= x <= 2`. -/
def twoBounds : Bounds ℚ 1 := ⟨fun _ => some (-2), fun _ => some 2⟩

/-- The hypotheses of C98 can be met by components that raise on other inputs. -/
example : SafeComponents (toyConfig 3 100 2 (.classic 0)) (toyComponentsR fun _ v => .fin (v 0 ^ 2))
    twoBounds (fun _ => True) ∧ SafeConfig (toyConfig 3 100 2 (.classic 0)) twoBounds ∧
    InBounds twoBounds (fun _ => 2) := by
  have hb : ∀ y : Vec ℚ 1, InBounds twoBounds y ↔ -2 ≤ y 0 ∧ y 0 ≤ 2 := by
    intro y
    simp [InBounds, twoBounds]
  refine ⟨⟨by simp [toyComponentsR], ?_, ?_, ?_, ?_, ?_, ?_, ?_, ?_⟩,
    ⟨by decide, by decide +kernel, by decide +kernel, by decide +kernel, rfl, ?_, ?_⟩, (hb _).2 (by norm_num)⟩
  · intros; exact ⟨_, rfl⟩
  · intro state log target nEvals l r hr
    cases hr
    exact ⟨l, List.subset_cons_self _ _, rfl⟩
  · intro it round log region k xs hreg
    refine ⟨_, rfl, by simp [centerSample], ?_⟩
    intro y hy
    rw [List.eq_of_mem_replicate hy]
    exact hreg.center
  · intro log is region old hreg _ _ _
    have hc := (hb _).1 hreg.center
    refine ⟨old + 1, old + 1, { x := fun i => region.center i / 2, expectedImprovement := 1 }, rfl, rfl,
      if_pos (abs_le.2 ⟨by linarith, by linarith⟩), (hb _).2 ⟨?_, ?_⟩⟩
    · dsimp only; linarith
    · dsimp only; linarith
  · intros; exact ⟨trivial, _, rfl⟩
  · intro h; cases h
  · intro h; cases h
  · intro m rf h; cases h
  · intro m zc zp a b h; cases h
  · intro m rf h; cases h

/-- Whether a run returned, and the exception otherwise. -/
def outcome {α : Type} : Except Err α → Option Err
  | .ok _ => none
  | .error e => some e

/-- That the hypotheses of C98 are needed: (1) a start point at which the solver raises, (2) a noisy
decider in a run without noise, (3) a line search whose additional points all have the value NaN (the
start value is a number) end the run with an exception. -/
theorem C98_violated_outside_the_hypotheses :
    outcome (tranquiloR (toyConfig 3 100 2 (.classic 0)) (toyComponentsR fun _ v => .fin (v 0 ^ 2))
      (fun _ => 4) 1 noBounds) = some .valueError ∧
    outcome (tranquiloR (toyConfig 3 100 2 (.noisy 0 1 1 1 2))
      (toyComponentsR fun _ v => .fin (v 0 ^ 2)) (fun _ => 2) 1 noBounds) = some .typeError ∧
    outcome (tranquiloR (toyConfig 3 100 2 (.lineSearch 0 1))
      (toyComponentsR fun _ v => if v 0 = 2 then .fin 4 else .nan) (fun _ => 2) 1 noBounds)
      = some .keyError := by
  decide +kernel

end Tranquilo
