import Verif.Props.StationaryBuiltin
import Verif.Props.MainLoopWitness
import Verif.Props.MainLoopRaise

/-!
# C130: runs that start at a minimum
-/

namespace Tranquilo

variable {K : Type} [Field K] [LinearOrder K] [IsStrictOrderedRing K] {n m : Nat} {VM SM : Type}

/-- An accepted state is at the candidate, which is not the first point of the history, and improves on the center of
its region by at least the required amount. -/
theorem tranquiloR_accepted [FloorRing K] {c : Config K} {ce : ComponentsR K n VM SM} (hf : FilterSelectsR ce)
    (hb : 1 ≤ c.batchSize) {g : Vec K n → K} (hdet : ∀ k x, ce.oracle k x = .fin (g x)) {x : Vec K n} {radius : K}
    {bounds : Bounds K n} {r : Run K n VM SM} (hr : tranquiloR c ce x radius bounds = .ok r) :
    ∀ s ∈ r.states.tail, s.accepted = true → s.x = s.candidateX ∧ s.index = s.candidateIndex ∧ 1 ≤ s.index ∧
      r.log.xs[s.index]? = some s.x ∧ g s.x ≤ g s.trustregion.center - c.decider.minImprovement := by
  obtain ⟨cp, rfl, -, ho, -, h, -⟩ := tranquiloR_run hr
  have hfil := h hf
  have hdet' : ∀ k x, cp.oracle k x = .fin (g x) := by rw [ho]; exact hdet
  let P : Run K n VM SM → Prop := fun r => RunOk cp bounds r ∧
    DetOk cp (fun y => .fin (g y)) c.decider.minImprovement r ∧ r.states ≠ [] ∧
    ∀ s ∈ r.states.tail, s.accepted = true → s.x = s.candidateX ∧ s.index = s.candidateIndex ∧ 1 ≤ s.index ∧
      g s.x ≤ g s.trustregion.center - c.decider.minImprovement
  have hP : P (tranquilo c cp x radius bounds) := by
    refine tranquilo_induction c cp x radius bounds P ?_ ?_
    · exact ⟨startRun_ok c cp x radius bounds, startRun_det c cp hb hdet' x radius bounds, by simp [startRun],
        by simp [startRun]⟩
    · rintro it r ⟨p1, p2, p3, p4⟩
      have hok := iteration_ok c cp hfil bounds it r p1
      have hdt := iteration_det c cp hfil hb hdet' bounds it r p1 p2
      refine ⟨hok, hdt, ?_, ?_⟩
      · rw [iteration_eq]; simp
      · intro s hs hacc
        have hs' : s ∈ r.states.tail ∨ s = theState c cp it r := by
          rw [iteration_eq] at hs
          simp only at hs
          rw [List.tail_append_of_ne_nil p3] at hs
          simpa using hs
        rcases hs' with hs' | rfl
        · exact p4 s hs' hacc
        · have hbok := buildPhase_ok c cp it r.state r.log r.nEvals hfil p1.point
          have hbc : (theBuild c cp it r).log.Consistent cp.oracle := hbok.grows.consistent p1.consistent
          obtain ⟨cx, ci, rho, acc, ne, hx, hle, hres⟩ :=
            decides_finish hbc.wf (theDecision_decides c cp it r)
          obtain ⟨f1, f2, -⟩ := finish_spec cp.nrm cx
            (XVal.mean ((theDecision c cp it r).1.fvals ci)) ci rho acc r.state.current ne
          rw [← hres] at f1 f2
          have hacc' : (theDecision c cp it r).2.accepted = true := hacc
          obtain ⟨e1, e2, e3, -, e5, e6, -⟩ := f2 hacc'
          have hxb : (theBuild c cp it r).log.xs[r.state.index]? = some r.state.x :=
            getElem?_of_prefix hbok.grows.xs_prefix p1.point
          have hone : 1 ≤ ci := by
            have := (List.getElem?_eq_some_iff.1 hxb).1
            omega
          have himp := decision_improves_det c cp it hb _ r.state.trustregion (theBuild c cp it r).sub r.state.current _
            hbc hdet' hxb p2.value hacc'
          have hval : (theState c cp it r).fval = .fin (g (theState c cp it r).x) :=
            (hdt.values _ (by rw [iteration_eq]; simp)).1
          have hval' : (theDecision c cp it r).2.fval = .fin (g (theDecision c cp it r).2.x) := hval
          refine ⟨e1.trans e5.symm, e3.trans e6.symm, by
            show 1 ≤ (theDecision c cp it r).2.index
            rw [e3]; exact hone, ?_⟩
          show g (theDecision c cp it r).2.x ≤ g r.state.trustregion.center - _
          rw [p1.center]
          obtain ⟨a, ha, hb'⟩ := himp
          have ha' : (theDecision c cp it r).2.fval = .fin a := ha
          rw [hval'] at ha'
          have hcur : r.state.current.fval = .fin (g r.state.x) := p2.value
          rw [hcur] at hb'
          rcases hb' with hb' | ⟨b, hb1, hb2⟩
          · cases hb'
          · cases hb1
            cases ha'
            linarith
  intro s hs hacc
  obtain ⟨h1, h2, h3, h4⟩ := hP.2.2.2 s hs hacc
  exact ⟨h1, h2, h3, (hP.1.states s (List.mem_of_mem_tail hs)).1, h4⟩

section minimum

variable [FloorRing K] {c : Config K} {comp : ComponentsR K n VM SM} {g : Vec K n → K} {x : Vec K n} {radius : K}
  {bounds : Bounds K n} {r : Run K n VM SM}

/-- C130. A run on a criterion without noise that starts at a minimum keeps the value of the start; if the minimum is
strict it stays at the start, in all states and in the result. -/
theorem C130_stays_at_the_minimum (hf : FilterSelectsR comp) (hb : 1 ≤ c.batchSize)
    (hm : 0 ≤ c.decider.minImprovement) (hdet : ∀ k x, comp.oracle k x = .fin (g x))
    (hmin : ∀ y, g x ≤ g y) (hr : tranquiloR c comp x radius bounds = .ok r) :
    (∀ s ∈ r.states, g s.x = g x) ∧ g r.state.x = g x ∧ r.state.fval = .fin (g x) ∧
    ((∀ y, y ≠ x → g x < g y) → (∀ s ∈ r.states, s.x = x) ∧ r.state.x = x) := by
  obtain ⟨hmono, hlast, hmem, hle, hval⟩ := C61_run_that_returns_is_never_worse hf hb hm hdet (by simp) hr
  have hch := tranquiloR_regions hr
  have hfin : g r.state.x = g x := le_antisymm (by simpa using hle) (hmin _)
  have hall : ∀ s ∈ r.states, g s.x = g x := by
    intro s hs
    refine le_antisymm ?_ (hmin _)
    obtain ⟨k, hk, rfl⟩ := List.getElem_of_mem hs
    have h0 : 0 < r.states.length := by omega
    have hfirst := (hch.first _ (List.getElem?_eq_getElem h0)).1
    rcases Nat.eq_zero_or_pos k with rfl | hpos
    · rw [hfirst]
    · rw [List.pairwise_iff_getElem] at hmono
      have := hmono 0 k h0 hk hpos
      rw [hfirst] at this
      simpa using this
  refine ⟨hall, hfin, by rw [hval, hfin], fun hstrict => ⟨fun s hs => ?_, ?_⟩⟩
  · by_contra hne
    exact absurd (hall s hs) (hstrict _ hne).ne'
  · by_contra hne
    exact absurd hfin (hstrict _ hne).ne'

/-- At a minimum the radius is reduced. -/
theorem minimum_step (hc : ProgressOptions c) {s : LoopState K n VM SM}
    (hexp : ∀ sub, comp.solve s.model s.trustregion = .ok sub → 0 ≤ sub.expectedImprovement)
    (hj : JudgedStep comp.solve c.decider.minImprovement g s) (hmin : ∀ y, g s.trustregion.center ≤ g y) (len : K)
    (hmax : max (s.trustregion.radius * c.radius.shrinkingFactor) c.radius.minRadius ≤ c.radius.maxRadius) :
    adjustRadius s.trustregion.radius s.rho len c.radius false
      = max (s.trustregion.radius * c.radius.shrinkingFactor) c.radius.minRadius := by
  obtain ⟨sub, hsub, hrho, -⟩ := hj
  have hE := hexp _ hsub
  have hgain : g s.trustregion.center - g sub.x ≤ 0 := sub_nonpos.2 (hmin _)
  have hsmall : ∀ t, 0 < t → ¬ XVal.fin t ≤ s.rho := by
    intro t ht hle
    rw [hrho] at hle
    unfold calculateRho at hle
    by_cases h0 : sub.expectedImprovement = 0
    · rw [if_neg (fun h => absurd ((XVal.fin_lt_fin _ _).1 h.2) (not_lt.2 hgain)), if_pos h0] at hle
      simp at hle
    · rw [if_neg (fun h => h0 h.1), if_neg h0] at hle
      change XVal.fin t ≤ XVal.fin ((g s.trustregion.center - g sub.x) / sub.expectedImprovement) at hle
      rw [XVal.fin_le_fin] at hle
      have := div_nonpos_of_nonpos_of_nonneg hgain hE
      linarith
  have hadj : adjustRadius s.trustregion.radius s.rho len c.radius false = npClip
      (s.trustregion.radius * c.radius.shrinkingFactor) c.radius.minRadius c.radius.maxRadius := by
    unfold adjustRadius
    simp only [Bool.false_eq_true, or_false]
    rw [if_neg (fun h => hsmall _ (hc.rhoPos.trans_le hc.rhoLe) h.1), if_neg (hsmall _ hc.rhoPos)]
    cases hq : c.radius.maxRadiusToStepRatio with
    | fin q => exact absurd hq (hc.ratio q)
    | _ => rfl
  rw [hadj]
  unfold npClip
  exact min_eq_left hmax

/-- C130. At a minimum every iteration multiplies the radius by the shrinking factor, until the least radius is
reached. The region of state `k + 1` (that is used in iteration `k`) and the region with which the run ends. -/
theorem C130_region_shrinks (hc : ProgressOptions c) (hf : FilterSelectsR comp)
    (hdet : ∀ k x, comp.oracle k x = .fin (g x)) (hmin : ∀ y, g x ≤ g y)
    (h0 : 0 ≤ c.radius.minRadius) (h1 : c.radius.minRadius ≤ radius) (h2 : radius ≤ c.radius.maxRadius)
    (hr : tranquiloR c comp x radius bounds = .ok r)
    (hexp : ∀ s ∈ r.states.tail, ∀ sub, comp.solve s.model s.trustregion = .ok sub → 0 ≤ sub.expectedImprovement) :
    (∀ k s, r.states[k + 1]? = some s →
      s.trustregion.radius = max (radius * c.radius.shrinkingFactor ^ k) c.radius.minRadius) ∧
    r.state.trustregion.radius
      = max (radius * c.radius.shrinkingFactor ^ (r.states.length - 1)) c.radius.minRadius := by
  have hsteps := tranquiloR_steps hf hc.batch hc.decider hdet hr
  have hch := tranquiloR_regions hr
  obtain ⟨hall, -⟩ := C130_stays_at_the_minimum hf hc.batch hc.improvement hdet hmin hr
  have hrad : 0 ≤ radius := h0.trans h1
  have key : ∀ j s t, r.states[j]? = some s → NextRegion c j s t →
      t.radius = max (radius * c.radius.shrinkingFactor ^ j) c.radius.minRadius := by
    intro j
    induction j with
    | zero =>
      intro s t hs ht
      rw [ht.first rfl, (hch.first s hs).2, pow_zero, mul_one, max_eq_left h1]
    | succ j ih =>
      intro s t hs ht
      have hj : j < r.states.length := by
        have := (List.getElem?_eq_some_iff.1 hs).1
        omega
      have hs0 := List.getElem?_eq_getElem hj
      have hnext := hch.next j _ s hs0 hs
      have hD := ih _ _ hs0 hnext
      obtain ⟨len, inc, -, hinc, hrad'⟩ := ht.later (Nat.succ_pos j)
      rw [hinc hc.noisy] at hrad'
      have hmem : s ∈ r.states.tail := by
        rw [← List.drop_one]
        refine List.mem_of_getElem? (i := j) ?_
        rw [List.getElem?_drop, Nat.add_comm]
        exact hs
      have hcen : g s.trustregion.center = g x := by
        rw [hnext.center]; exact hall _ (List.getElem_mem hj)
      have hS := hc.shrinkPos.le
      have hDle : s.trustregion.radius ≤ c.radius.maxRadius := by
        rw [hD]
        refine max_le ((mul_le_of_le_one_right hrad (pow_le_one₀ hS hc.shrinkLt.le)).trans h2) (h1.trans h2)
      have hDpos : 0 ≤ s.trustregion.radius := by
        rw [hD]; exact h0.trans (le_max_right _ _)
      rw [hrad', minimum_step hc (hexp s hmem) (hsteps s hmem) (by rw [hcen]; exact hmin) len
        (max_le ((mul_le_of_le_one_right hDpos hc.shrinkLt.le).trans hDle) (h1.trans h2)), hD,
        max_mul_of_nonneg _ _ hS, max_assoc, max_eq_right (mul_le_of_le_one_right h0 hc.shrinkLt.le), pow_succ,
        mul_assoc]
  have hpos : 0 < r.states.length := List.length_pos_iff.2 hch.nonempty
  refine ⟨fun k s hs => ?_, ?_⟩
  · have hk : k < r.states.length := by
      have := (List.getElem?_eq_some_iff.1 hs).1
      omega
    exact key k _ _ (List.getElem?_eq_getElem hk) (hch.next k _ s (List.getElem?_eq_getElem hk) hs)
  · have hlast := List.getElem?_eq_getElem (l := r.states) (i := r.states.length - 1) (by omega)
    exact key _ _ _ hlast (hch.last _ _ hlast (by omega)).2

/-- C130, what is true of the recognition of convergence: a run that starts at a strict minimum and reports convergence
has proposed the start itself as a step, and has evaluated it again, as a new point of the history. -/
theorem C130_convergence_needs_the_start_again_partial (hf : FilterSelectsR comp) (hb : 1 ≤ c.batchSize)
    (hm : 0 ≤ c.decider.minImprovement) (hdet : ∀ k x, comp.oracle k x = .fin (g x))
    (hmin : ∀ y, y ≠ x → g x < g y) (hr : tranquiloR c comp x radius bounds = .ok r) {msg : Msg}
    (hne : msg ≠ .maxEval) (hmsg : r.msg = some msg) :
    ∃ s ∈ r.states.tail, s.accepted = true ∧ s.candidateX = x ∧ 1 ≤ s.candidateIndex ∧
      r.log.xs[s.candidateIndex]? = some x := by
  have hle : ∀ y, g x ≤ g y := fun y => by
    by_cases h : y = x
    · rw [h]
    · exact (hmin y h).le
  obtain ⟨-, -, -, hstay⟩ := C130_stays_at_the_minimum hf hb hm hdet hle hr
  obtain ⟨-, -, h3⟩ := C65_messages_of_a_run_that_returns hf hr
  obtain ⟨-, pre, old, new, hst, hacc, -⟩ := h3 msg hne hmsg
  have hmem : new ∈ r.states.tail := by
    rw [hst]; cases pre <;> simp
  obtain ⟨a1, a2, a3, a4, -⟩ := tranquiloR_accepted hf hb hdet hr new hmem hacc
  have hx := (hstay hmin).1 new (List.mem_of_mem_tail hmem)
  refine ⟨new, hmem, hacc, by rw [← a1, hx], by rw [← a2]; exact a3, by rw [← a2, a4, hx]⟩

/-- C130 is violated if a positive improvement is required: a run that starts at a minimum never recognises it, it goes
on until one of the limits is reached. -/
theorem C130_violated_required_improvement (hf : FilterSelectsR comp) (hb : 1 ≤ c.batchSize)
    (hm : 0 < c.decider.minImprovement) (hdet : ∀ k x, comp.oracle k x = .fin (g x))
    (hmin : ∀ y, g x ≤ g y) (hr : tranquiloR c comp x radius bounds = .ok r) :
    r.states.length = c.maxIter + 1 ∨ c.maxEval ≤ r.log.nFun := by
  obtain ⟨h1, h2, h3⟩ := C65_messages_of_a_run_that_returns hf hr
  cases hmsg : r.msg with
  | none => exact Or.inl (h1 hmsg)
  | some msg =>
    by_cases hne : msg = .maxEval
    · rw [hne] at hmsg
      exact Or.inr (h2 hmsg)
    · exfalso
      obtain ⟨-, pre, old, new, hst, hacc, -⟩ := h3 msg hne hmsg
      have hmem : new ∈ r.states.tail := by
        rw [hst]; cases pre <;> simp
      obtain ⟨-, -, -, -, a5⟩ := tranquiloR_accepted hf hb hdet hr new hmem hacc
      obtain ⟨hall, -⟩ := C130_stays_at_the_minimum hf hb hm.le hdet hmin hr
      have hnext := (tranquiloR_regions hr).next pre.length old new (by rw [hst]; simp) (by rw [hst]; simp)
      rw [hnext.center, hall new (List.mem_of_mem_tail hmem), hall old (by rw [hst]; simp)] at a5
      linarith

/-- C130 for the built in components: such a run returns, stays at the minimum and reduces its region. -/
theorem C130_builtin {m : Nat} (hc : ProgressOptions c) {b : BuiltinSettings K n m} (h : SafeSettings c b bounds)
    (hcfg : SafeConfig c bounds) (hdet : ∀ k x, b.oracle k x = .fin (g x)) (hmin : ∀ y, g x ≤ g y)
    (hx : InBounds bounds x) (hrad : 0 < radius) (h0 : 0 ≤ c.radius.minRadius) (h1 : c.radius.minRadius ≤ radius)
    (h2 : radius ≤ c.radius.maxRadius) :
    ∃ r, tranquiloR c (builtinComponents b) x radius bounds = .ok r ∧
      (∀ s ∈ r.states, g s.x = g x) ∧ g r.state.x = g x ∧ r.state.fval = .fin (g x) ∧
      ((∀ y, y ≠ x → g x < g y) → r.state.x = x) ∧
      (∀ k s, r.states[k + 1]? = some s →
        s.trustregion.radius = max (radius * c.radius.shrinkingFactor ^ k) c.radius.minRadius) ∧
      r.state.trustregion.radius
        = max (radius * c.radius.shrinkingFactor ^ (r.states.length - 1)) c.radius.minRadius := by
  obtain ⟨r, hr, hgood⟩ := run_models h hcfg x hx radius hrad
  have hsel := (C98_builtin_components_are_safe h).selects
  obtain ⟨a1, a2, a3, a4⟩ := C130_stays_at_the_minimum hsel hc.batch hc.improvement hdet hmin hr
  obtain ⟨b1, b2⟩ := C130_region_shrinks hc hsel hdet hmin h0 h1 h2 hr (fun s hs sub hsub => by
    obtain ⟨hreg, -⟩ := hgood s hs
    have hus : Usable b.cubeRadius s.trustregion := ⟨hreg.radius, h.cubeRadius _ hreg.radius,
      by rw [hreg.box]; exact hreg.center, by rw [hreg.box]; exact h.sides⟩
    exact (C39_expected_improvement_in_a_run b s.model s.trustregion hus sub hsub).1)
  exact ⟨r, hr, a1, a2, a3, fun hs => (a4 hs).2, b1, b2⟩

end minimum

/-- Components for the criterion `|x|`. The solver proposes the upper end of the region. -/
def kinkComponents : ComponentsR ℚ 1 ℚ ℚ :=
  { toyComponentsR (fun _ v => .fin |v 0|) with
    solve := fun _ region => .ok { x := fun i => region.center i + region.radius, expectedImprovement := region.radius } }

/-- Options of the example runs: the least radius is 1/4. -/
def kinkConfig (decider : DeciderChoice ℚ) : Config ℚ :=
  { toyConfig 8 100 1 decider with radius := { RadiusOptions.default with minRadius := 1 / 4 } }

/-- C130 is violated with default acceptance: a run that starts at the strict minimum of `|x|` stays there, reduces its
region to the least radius and then evaluates the same step again and again. It ends without a message when the
iterations are used up. -/
theorem C130_violated_rejected_steps :
    (match tranquiloR (kinkConfig (.classic 0)) kinkComponents (fun _ => 0) 1 noBounds with
      | .ok r => some (r.msg, r.states.length, r.states.map (fun s => s.x 0),
          r.states.map (fun s => s.trustregion.radius), r.states.tail.map (fun s => s.candidateX 0))
      | .error _ => none)
    = some (none, 9, [0, 0, 0, 0, 0, 0, 0, 0, 0], [1, 1, 1 / 2, 1 / 4, 1 / 4, 1 / 4, 1 / 4, 1 / 4, 1 / 4],
        [1, 1 / 2, 1 / 4, 1 / 4, 1 / 4, 1 / 4, 1 / 4, 1 / 4]) := by
  decide +kernel

/-- C130, example: the hypotheses hold in that run. -/
example : ProgressOptions (kinkConfig (.classic 0)) ∧ FilterSelectsR kinkComponents ∧
    (∀ k x, kinkComponents.oracle k x = .fin |x 0|) ∧ (∀ y : Vec ℚ 1, y ≠ (fun _ => 0) → |(0 : ℚ)| < |y 0|) ∧
    (0 : ℚ) ≤ (kinkConfig (.classic 0)).radius.minRadius ∧ (kinkConfig (.classic 0)).radius.minRadius ≤ 1 ∧
    1 ≤ (kinkConfig (.classic 0)).radius.maxRadius := by
  refine ⟨?_, ?_, fun _ _ => rfl, ?_, by decide +kernel, by decide +kernel, by decide +kernel⟩
  · refine ⟨by decide +kernel, rfl, ?_, by decide +kernel, by decide +kernel, by decide +kernel, by decide +kernel,
      by decide +kernel, by decide +kernel, by decide +kernel, ?_⟩
    · intro m zc zp a b h
      cases h
    · intro r h
      cases h
  · intro st log it ne l res h
    have : res = keepAll (l.map Prod.fst) (l.map Prod.snd) := by
      simpa [kinkComponents, toyComponentsR, eq_comm] using h
    exact ⟨l, fun _ h => List.mem_cons_of_mem _ h, by rw [this]; simp [keepAll]⟩
  · intro y hy
    rw [abs_zero, abs_pos]
    intro h
    apply hy
    funext i
    rw [Subsingleton.elim i 0]
    exact h

/-- C130, example: a solver that proposes the center. The run recognises convergence in the first iteration, after
the start was evaluated again. -/
example :
    (match tranquiloR (kinkConfig (.classic 0)) (toyComponentsR fun _ v => .fin |v 0|) (fun _ => 0) 1 noBounds with
      | .ok r => some (r.msg, r.states.map (fun (s : LoopState ℚ 1 ℚ ℚ) => (s.candidateX 0, s.candidateIndex)))
      | .error _ => none)
    = some (some .ftolRel, [(0, 0), (0, 4)]) := by
  decide +kernel

/-- C130, example: with a required improvement the same run goes on until the iterations are used up. -/
example :
    (match tranquiloR (kinkConfig (.classic (1 / 100))) (toyComponentsR fun _ v => .fin |v 0|) (fun _ => 0) 1
        noBounds with
      | .ok r => some (r.msg, r.states.length)
      | .error _ => none) = some (none, 9) := by
  decide +kernel

/-- C130, example: the criterion `(x - 3) ^ 2` from the start 3, with built in components. -/
example (c : Config ℝ) (hcfg : SafeConfig c oneFree) (hn : c.noisy = false) (hdec : c.decider = .classic 0)
    (hb : c.batchSize = 1) (hr1 : c.radius.rhoDecrease = 1 / 10) (hr2 : c.radius.rhoIncrease = 1 / 10)
    (hr3 : c.radius.shrinkingFactor = 1 / 2) (hr4 : c.radius.expansionFactor = 2) (hr5 : c.radius.maxRadius = 100)
    (hr6 : c.radius.minRadius = 1 / 100) :
    ∃ b : BuiltinSettings ℝ 1 1, (∀ k y, b.oracle k y = .fin ((y 0 - 3) ^ 2)) ∧
      ∃ r, tranquiloR c (builtinComponents b) (fun _ => 3) 2 oneFree = .ok r ∧ r.state.x = (fun _ => 3) ∧
        ∀ k s, r.states[k + 1]? = some s → s.trustregion.radius = max (2 * (1 / 2) ^ k) (1 / 100) := by
  obtain ⟨l, hl⟩ := exists_lstsq
  choose best hbest using exists_ball_minimizer (n := 1)
  have hsafe := oneDim_safe hn hdec l best
  refine ⟨oneDimSettings l best, fun _ _ => rfl, ?_⟩
  have hprog : ProgressOptions c :=
    { batch := by omega
      noisy := hn
      decider := by rw [hdec]; intro _ _ _ _ _ h; cases h
      improvement := by rw [hdec]; exact le_rfl
      rhoPos := by rw [hr1]; norm_num
      rhoLt := by rw [hr1]; norm_num
      rhoLe := by rw [hr1, hr2]
      shrinkPos := by rw [hr3]; norm_num
      shrinkLt := by rw [hr3]; norm_num
      expansion := by rw [hr4]; norm_num
      ratio := fun r h => by rw [hcfg.ratio] at h; cases h }
  obtain ⟨r, hr, -, -, -, h4, h5, -⟩ := C130_builtin (g := fun y : Vec ℝ 1 => (y 0 - 3) ^ 2) (x := fun _ => 3)
    (radius := 2) hprog hsafe hcfg (fun _ _ => rfl) (fun y => by simpa using sq_nonneg (y 0 - 3)) (oneFree_free _) two_pos
    (by rw [hr6]; norm_num) (by rw [hr6]; norm_num) (by rw [hr5]; norm_num)
  refine ⟨r, hr, h4 fun y hy => ?_, fun k s hk => by rw [h5 k s hk, hr3, hr6]⟩
  have : y 0 - 3 ≠ 0 := fun h0 => hy (funext fun i => by rw [Subsingleton.elim i 0]; linarith)
  simpa using sq_pos_of_ne_zero this

end Tranquilo
