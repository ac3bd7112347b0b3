import Verif.Props.MainLoop
import Verif.Props.Limits
import Mathlib.Data.Rat.Floor

/-!
# Concrete runs: the hypotheses of C61 - C69 can be met, and witnesses for the false claims

One parameter, criterion `x ^ 2` over the rationals.
-/

namespace Tranquilo

/-- Components of the example runs. `step` is the solver. The fitter adds one to the old model. -/
def toyComponents (step : Region ℚ 1 → Vec ℚ 1) (sample : Nat → Sampler ℚ 1) : Components ℚ 1 ℚ ℚ where
  nrm v := |v 0|
  cubeRadius := id
  oracle _ v := .fin (v 0 ^ 2)
  filter _ _ _ _ xs ids := keepAll xs ids
  sample _ := sample
  fit _ _ _ old := old + 1
  aggregate := id
  solve _ region := { x := step region, expectedImprovement := 1 }
  initModel _ _ := 0
  gradNorm m := |m|
  noiseSigma _ _ := 1
  rhoNoise _ _ _ _ _ _ := []

/-- Options of the example runs. -/
def toyConfig (maxIter maxEval batch : Nat) (decider : DeciderChoice ℚ) : Config ℚ where
  noisy := false
  conv := { disable := false, ftolAbs := 0, gtolAbs := 0, xtolAbs := 1 / 100, ftolRel := 0, gtolRel := 0
            xtolRel := 0 }
  maxIter := maxIter
  maxEval := maxEval
  radius := RadiusOptions.default
  noise := NEvalsOptions.default
  batchSize := batch
  targetSize := 3
  stagnation := { minRelativeStepKeep := 1 / 8, drop := true, minRelativeStep := 1 / 20
                  sampleIncrement := 1, maxTrials := 1 }
  searchRadiusFactor := 2
  nEvalsPerPoint := 1
  nEvalsAtStart := 1
  decider := decider

/-- No bounds. -/
def noBounds : Bounds ℚ 1 := ⟨fun _ => none, fun _ => none⟩

/-- A solver: half way to zero. -/
def toyStep (region : Region ℚ 1) : Vec ℚ 1 := fun i => region.center i / 2

/-- A sampler: equal points between the center and the upper end of the region. -/
def toySample (round : Nat) : Sampler ℚ 1 := fun _ region k _ =>
  List.replicate k fun i => region.center i + region.radius / (round + 1)

theorem toy_filter (step : Region ℚ 1 → Vec ℚ 1) (sample : Nat → Sampler ℚ 1) :
    FilterSelects (toyComponents step sample) := by
  intro state log target ne l
  exact ⟨l, List.subset_cons_self _ _, rfl⟩

theorem toy_sampler (step : Region ℚ 1 → Vec ℚ 1) : SamplerObeys (toyComponents step toySample) := by
  intro it round log region k xs
  simp [toyComponents, toySample]

/-- A run of three iterations that uses up its iterations; it meets the hypotheses of
`C61_never_worse`, `C62_values_without_noise`, `C63_total_evaluations_partial` (batch size 2: 2 further
points for the first model, one candidate each, ...) and has strictly decreasing values. -/
example :
    let c := toyConfig 3 100 2 (.classic 0)
    let comp := toyComponents toyStep toySample
    let r := tranquilo c comp (fun _ => 1) 1 noBounds
    FilterSelects comp ∧ SamplerObeys comp ∧ 0 ≤ c.decider.minImprovement ∧ 1 ≤ c.batchSize ∧
    (∀ k x, comp.oracle k x = .fin (x 0 ^ 2)) ∧
    r.states.map (fun s => s.fval) = [.fin 1, .fin (1 / 4), .fin (1 / 16), .fin (1 / 64)] ∧
      r.msg = none ∧ r.log.nFun = 6 := by
  refine ⟨toy_filter _ _, toy_sampler _, le_refl _, by decide, fun _ _ => rfl, ?_⟩
  decide +kernel

/-- Runs with messages (C65): convergence in parameters after six accepted steps, and the evaluation
limit. -/
example :
    (tranquilo (toyConfig 20 100 1 (.classic 0)) (toyComponents toyStep toySample) (fun _ => 1) 1
      noBounds).msg = some .xtolAbs ∧
    (tranquilo (toyConfig 20 6 1 (.classic 0)) (toyComponents toyStep toySample) (fun _ => 1) 1
      noBounds).msg = some .maxEval := by
  decide +kernel

/-- C63: the first iteration starts although the evaluation at the start already used up
`max_eval = 1`. -/
theorem C63_violated_first_iteration :
    let c := toyConfig 5 1 1 (.classic 0)
    let comp := toyComponents toyStep toySample
    (startRun c comp (fun _ => 1) 1 noBounds).log.nFun = c.maxEval ∧
    (tranquilo c comp (fun _ => 1) 1 noBounds).states.length = 2 := by
  decide +kernel

/-- C64 is false of the code: a run with `max_eval = 5` that uses 6 evaluations. (The time limit is not
even read by the code: `stop_options.max_time` occurs nowhere in tranquilo.py.) The bound that does hold
is `C63_total_evaluations_partial`. -/
theorem C64_violated_budget_exceeded :
    let c := toyConfig 5 5 4 (.classic 0)
    (tranquilo c (toyComponents toyStep toySample) (fun _ => 1) 1 noBounds).log.nFun = 6 ∧
    c.maxEval = 5 := by
  decide +kernel

/-- A feasible solver that steps to the upper end of the region or the bound. -/
def upStep (region : Region ℚ 1) : Vec ℚ 1 := fun i =>
  match region.bounds.upper i with
  | some u => min (region.center i + |region.radius|) u
  | none => region.center i + |region.radius|

/-- A sampler that returns the center. -/
def centerSample (_ : Nat) : Sampler ℚ 1 := fun _ region k _ => List.replicate k region.center

/-- One parameter with upper bound 3/2. -/
def upperBound : Bounds ℚ 1 := ⟨fun _ => none, fun _ => some (3 / 2)⟩

/-- C68 is false of the code with the line search: all components respect the bounds and the start
vector is feasible, but a point outside the bounds is evaluated (recorded in the history). -/
theorem C68_violated_by_line_search :
    let comp := toyComponents upStep centerSample
    let r := tranquilo (toyConfig 1 100 2 (.lineSearch 0 5)) comp (fun _ => 0) 1 upperBound
    SamplerFeasible comp ∧ SolverFeasible comp ∧ InBounds upperBound (fun _ => (0 : ℚ)) ∧
    ∃ (i : Nat) (y : Vec ℚ 1) (v : XVal ℚ), (i, v) ∈ r.log.evals ∧ r.log.xs[i]? = some y ∧
      ¬ InBounds upperBound y := by
  intro comp r
  refine ⟨?_, ?_, ?_, 4, fun _ => 2, .fin 4, by decide +kernel, by decide +kernel, ?_⟩
  · intro it round log region k xs _ hc y hy
    have : y = region.center := List.eq_of_mem_replicate hy
    rw [this]; exact hc
  · intro m region _ hc i
    have h0 : region.center i ≤ region.center i + |region.radius| :=
      le_add_of_nonneg_right (abs_nonneg _)
    have hx : (comp.solve m region).x i = (match region.bounds.upper i with
      | some u => min (region.center i + |region.radius|) u
      | none => region.center i + |region.radius|) := rfl
    rw [hx]
    cases hu : region.bounds.upper i with
    | none => exact ⟨fun l hl => ((hc i).1 l hl).trans h0, by simp⟩
    | some u =>
      refine ⟨fun l hl => le_min (((hc i).1 l hl).trans h0) (((hc i).1 l hl).trans ((hc i).2 u hu)), ?_⟩
      intro u' hu'
      obtain rfl := Option.some.inj hu'
      exact min_le_right _ _
  · intro i
    refine ⟨by simp [upperBound], fun u hu => ?_⟩
    obtain rfl := Option.some.inj hu
    norm_num
  · intro h
    have := (h 0).2 (3 / 2) rfl
    norm_num at this

/-- C69 is false of the code: the fitter of this run adds one to the old model, so with the claim the
models of the iterations would be 0, 1, 2, 3; they are 0, 1, 1, 1. -/
theorem C69_violated_witness :
    (tranquilo (toyConfig 3 100 1 (.classic 0)) (toyComponents toyStep toySample) (fun _ => 1) 1
      noBounds).states.map (fun s => s.model) = [0, 1, 1, 1] := by
  decide +kernel

/-- C67 on a run: evaluations per point in the states of a run with two iterations, and the indices the
last model was built from. -/
example :
    let r := tranquilo (toyConfig 2 100 2 (.classic 0)) (toyComponents toyStep toySample) (fun _ => 1) 1
      noBounds
    r.states.map (fun s => (s.modelIndices, s.nEvalsPerPoint))
      = [([0], none), ([0, 1, 2], some 1), ([0, 1, 2, 3], some 1)] := by
  decide +kernel

/-- C66: starting from four points at zero radius steps, one point is dropped and the target size
(three) is reached; then one point is replaced by a new one. -/
example :
    let c := toyConfig 2 100 2 (.classic 0)
    let comp := toyComponents (fun r => r.center) toySample
    let s := (startRun c comp (fun _ => 1) 1 noBounds).state
    let log : Log ℚ 1 := ⟨[fun _ => 1, fun _ => 2, fun _ => 3 / 2, fun _ => 9 / 8], []⟩
    let b := buildModel comp s log (log.getXs [0, 1, 2, 3]) [0, 1, 2, 3]
    (dropLoop c comp s 1 b).modelIndices = [0, 1, 2] ∧
    (stagnationLoop c comp s 1 0 1 0 (dropLoop c comp s 1 b)).modelIndices = [0, 1, 4] := by
  decide +kernel

end Tranquilo
