import Verif.Lemmas.RunsLonger
import Verif.Props.TranquiloCall
import Verif.Props.MainLoopRaise
import Mathlib.Algebra.Order.Floor.Ring
import Mathlib.Data.Rat.Floor

/-!
# C115: limits and tolerances only cut a run

Other rules for stopping do not change what a run does before it stops: a run with higher limits or tighter
tolerances begins with the run with the lower limits and looser tolerances, and its result is not worse.
-/

namespace Tranquilo

section Loop

variable {K : Type} [Field K] [LinearOrder K] [IsStrictOrderedRing K] [FloorRing K] {n : Nat}
  {VM SM : Type} {c c' : Config K} {comp : ComponentsR K n VM SM} {x : Vec K n} {radius : K}
  {bounds : Bounds K n} {r r' : Run K n VM SM}

omit [IsStrictOrderedRing K] in
theorem startRunR_settings (hc : EndsLater c c') :
    startRunR c' comp x radius bounds = startRunR c comp x radius bounds := by
  rw [hc.same]; rfl

omit [IsStrictOrderedRing K] in
theorem startRunR_flags (h : startRunR c comp x radius bounds = .ok r) :
    r.stop = false ∧ r.converged = false := by
  unfold startRunR at h
  obtain ⟨sm, -, h⟩ := bindOk h
  rw [← Except.ok.inj h]
  exact ⟨rfl, rfl⟩

omit [IsStrictOrderedRing K] in
/-- C115. If settings only differ in that a run may end later, then the run with the later end returns only
if the other one does, and it begins with it: the points, values and states of the shorter run are the first
ones of the longer run. Conversely, an exception of the shorter run is also raised by the longer one. -/
theorem C115_longer_run_begins_with_shorter (hc : EndsLater c c') :
    (∀ r', tranquiloR c' comp x radius bounds = .ok r' →
      ∃ r, tranquiloR c comp x radius bounds = .ok r ∧ BeginsWith r r') ∧
    (∀ e, tranquiloR c comp x radius bounds = .error e →
      tranquiloR c' comp x radius bounds = .error e) := by
  unfold tranquiloR
  rw [startRunR_settings hc]
  cases h : startRunR c comp x radius bounds with
  | error e => exact ⟨(fun r' hr => by cases hr), fun e' he => he⟩
  | ok r0 =>
    simp only [except_ok_bind]
    exact runLoopR_settings hc hc.maxIter ⟨rfl, rfl, rfl, rfl⟩

omit [IsStrictOrderedRing K] in
/-- C115. A run that converged is not changed by higher limits, and a run that ended because of the number of
evaluations is not changed by more iterations. -/
theorem C115_ended_run_is_not_changed (hc : EndsLater c c') (hconv : c'.conv = c.conv)
    (hr : tranquiloR c comp x radius bounds = .ok r)
    (hend : r.converged = true ∨ c'.maxEval = c.maxEval ∧ r.stop = true) :
    tranquiloR c' comp x radius bounds = .ok r := by
  unfold tranquiloR at hr ⊢
  rw [startRunR_settings hc]
  obtain ⟨r0, h0, hr⟩ := bindOk hr
  obtain ⟨h1, h2⟩ := startRunR_flags h0
  rw [h0, except_ok_bind]
  exact runLoopR_keeps hc hconv hc.maxIter h1 h2 hr ⟨hconv, hend⟩

/-- C115. With a deterministic criterion the result of the longer run is not worse than that of the shorter
run. -/
theorem C115_longer_run_is_not_worse (hc : EndsLater c c') (hf : FilterSelectsR comp)
    (hb : 1 ≤ c.batchSize) (hm : 0 ≤ c.decider.minImprovement) {f : Vec K n → XVal K}
    (hdet : ∀ k y, comp.oracle k y = f y) (hx : f x ≠ .nan)
    (hr : tranquiloR c comp x radius bounds = .ok r)
    (hr' : tranquiloR c' comp x radius bounds = .ok r') :
    f r'.state.x ≤ f r.state.x ∧ r'.state.fval = f r'.state.x ∧ r.state.fval = f r.state.x := by
  obtain ⟨q, hq, hbegin⟩ := C115_longer_run_begins_with_shorter hc |>.1 r' hr'
  rw [hr] at hq
  cases hq
  have hb' : 1 ≤ c'.batchSize := by rw [hc.same]; exact hb
  have hm' : 0 ≤ c'.decider.minImprovement := by rw [hc.same]; exact hm
  obtain ⟨-, -, ⟨s, hs, hsx⟩, -, hv⟩ := C61_run_that_returns_is_never_worse hf hb hm hdet hx hr
  obtain ⟨-, h2, -, -, hv'⟩ := C61_run_that_returns_is_never_worse hf hb' hm' hdet hx hr'
  rw [hsx]
  exact ⟨h2 s (hbegin.states.subset hs), hv', hsx ▸ hv⟩

end Loop

/-! ## Calls of the optimizer -/

section Call

variable {K O : Type} [Field K] [LinearOrder K] [FloorRing K] {n m : Nat}

/-- Processed arguments with the rules `s`. -/
def ProcessedArguments.stopBy {R : Type} (p : ProcessedArguments K O R) (s : StopNumbers K) :
    ProcessedArguments K O R :=
  { p with
    disableConvergence := s.disable, ftolAbs := s.ftolAbs, gtolAbs := s.gtolAbs, xtolAbs := s.xtolAbs
    ftolRel := s.ftolRel, gtolRel := s.gtolRel, xtolRel := s.xtolRel, maxIter := s.maxIter
    maxEval := s.maxEval }

theorem processArguments_stopping {R : Type} {env : PyEnv K O}
    {beh : String → String → Dict (PyVal K O) → Except Err R} {a a' : Arguments K O R}
    {s s' : StopNumbers K} (h : SameUpToStopping a a') (hs : AsksFor env a s) (hs' : AsksFor env a' s') :
    processArguments env beh a' = (fun p => p.stopBy s') <$> processArguments env beh a ∧
    ∀ p, processArguments env beh a = .ok p → p.stopBy s = p := by
  constructor
  · rw [h]
    unfold processArguments
    simp only [hs.ftolAbs, hs.gtolAbs, hs.xtolAbs, hs.ftolRel, hs.gtolRel, hs.xtolRel, hs.maxIter,
      hs.maxEval, hs'.disable, hs'.ftolAbs, hs'.gtolAbs, hs'.xtolAbs, hs'.ftolRel, hs'.gtolRel, hs'.xtolRel,
      hs'.maxIter, hs'.maxEval, except_ok_bind, map_bind, map_pure, ProcessedArguments.stopBy]
  · intro p hp
    have h2 : processArguments env beh a = (fun p => p.stopBy s) <$> processArguments env beh a := by
      conv_lhs => unfold processArguments
      unfold processArguments
      simp only [hs.disable, hs.ftolAbs, hs.gtolAbs, hs.xtolAbs, hs.ftolRel, hs.gtolRel, hs.xtolRel,
        hs.maxIter, hs.maxEval, except_ok_bind, map_bind, map_pure, ProcessedArguments.stopBy]
    rw [hp] at h2
    exact (Except.ok.inj h2).symm

omit [Field K] [LinearOrder K] [FloorRing K] in
theorem XVal.number?_eq {v : XVal K} {q : K} (h : v.number? = some q) : v = .fin q := by
  cases v <;> simp_all [XVal.number?]

omit [FloorRing K] in
theorem callConfig_stopBy {p : ProcessedArguments K O (Option (Piece K n))} {s s' : StopNumbers K}
    {c c' : Config K} (h : callConfig (p.stopBy s) = some c) (h' : callConfig (p.stopBy s') = some c')
    (hl : s.Later s') : EndsLater c c' := by
  unfold callConfig callConv ProcessedArguments.stopBy at h h'
  dsimp only at h h'
  simp only [Option.bind_eq_bind, Option.bind_eq_some_iff, Option.pure_def, Option.some.injEq] at h h'
  obtain ⟨conv, ⟨a1, h1, a2, h2, a3, h3, a4, h4, a5, h5, a6, h6, rfl⟩, rad, hrad, noi, hnoi, sta, hsta,
    bs, hbs, ts, hts, srf, hsrf, npp, hnpp, nas, hnas, dec, hdec, rfl⟩ := h
  obtain ⟨conv', ⟨a1', h1', a2', h2', a3', h3', a4', h4', a5', h5', a6', h6', rfl⟩, rad', hrad', noi', hnoi',
    sta', hsta', bs', hbs', ts', hts', srf', hsrf', npp', hnpp', nas', hnas', dec', hdec', rfl⟩ := h'
  cases hrad.symm.trans hrad'
  cases hnoi.symm.trans hnoi'
  cases hsta.symm.trans hsta'
  cases hbs.symm.trans hbs'
  cases hsrf.symm.trans hsrf'
  cases hnpp.symm.trans hnpp'
  cases hnas.symm.trans hnas'
  obtain ⟨d1, e1, e2⟩ := hdec
  obtain ⟨d2, e3, e4⟩ := hdec'
  cases e1.symm.trans e3
  cases e2.symm.trans e4
  obtain ⟨d1, e1, e2⟩ := hts
  obtain ⟨d2, e3, e4⟩ := hts'
  cases e1.symm.trans e3
  cases e2.symm.trans e4
  refine ⟨rfl, Int.toNat_le_toNat hl.maxIter, Int.toNat_le_toNat hl.maxEval, ?_⟩
  rcases hl.tolerances with h | ⟨h, t1, t2, t3, t4, t5, t6⟩
  · exact .inl h
  · rw [XVal.number?_eq h1, XVal.number?_eq h1'] at t1
    rw [XVal.number?_eq h2, XVal.number?_eq h2'] at t3
    rw [XVal.number?_eq h3, XVal.number?_eq h3'] at t5
    rw [XVal.number?_eq h4, XVal.number?_eq h4'] at t2
    rw [XVal.number?_eq h5, XVal.number?_eq h5'] at t4
    rw [XVal.number?_eq h6, XVal.number?_eq h6'] at t6
    exact .inr ⟨h, t1, t2, t3, t4, t5, t6⟩

/-- C115 for calls of the optimizer: two calls that only differ in `stopping_max_iterations`,
`stopping_max_criterion_evaluations`, the tolerances and `disable_convergence`, where those of the second call
do not end a run earlier. The exception `.ok none` of the last line is a call with tolerances outside of the
model. -/
theorem C115_call_that_may_run_longer {env : PyEnv K O} {ext : Externals K O n m}
    {a a' : Arguments K O (Option (Piece K n))} {x : Vec K n} {bounds : Bounds K n} {s s' : StopNumbers K}
    (h : SameUpToStopping a a') (hs : AsksFor env a s) (hs' : AsksFor env a' s') (hl : s.Later s')
    (hmod : tranquiloCall env ext a x bounds ≠ .ok none) :
    (∀ r', tranquiloCall env ext a' x bounds = .ok (some r') →
      ∃ r, tranquiloCall env ext a x bounds = .ok (some r) ∧ BeginsWith r r') ∧
    (∀ e, tranquiloCall env ext a x bounds = .error e →
      tranquiloCall env ext a' x bounds = .error e ∨ tranquiloCall env ext a' x bounds = .ok none) := by
  have hx : SameUpToStopping { a with x := List.ofFn x } { a' with x := List.ofFn x } := by
    unfold SameUpToStopping at h ⊢
    rw [h]
  have hsx : AsksFor env { a with x := List.ofFn x } s := ⟨hs.1, hs.2, hs.3, hs.4, hs.5, hs.6, hs.7, hs.8, hs.9⟩
  have hsx' : AsksFor env { a' with x := List.ofFn x } s' :=
    ⟨hs'.1, hs'.2, hs'.3, hs'.4, hs'.5, hs'.6, hs'.7, hs'.8, hs'.9⟩
  obtain ⟨h1, h2⟩ := processArguments_stopping (beh := pieces ext) hx hsx hsx'
  unfold tranquiloCall at hmod ⊢
  rw [h1]
  cases hp : processArguments env (pieces ext) { a with x := List.ofFn x } with
  | error e => exact ⟨(fun r' hr => by cases hr), fun e' he => .inl he⟩
  | ok p =>
    have h3 := h2 p hp
    rw [hp] at hmod
    rw [except_ok_bind] at hmod
    have hset : callSettings ext (p.stopBy s') = callSettings ext p := rfl
    have hrad : (p.stopBy s').radiusOptions = p.radiusOptions := rfl
    change (∀ r', (match callConfig (p.stopBy s'), callSettings ext (p.stopBy s'),
        numOf (p.stopBy s').radiusOptions "initial_radius" with
      | some c, some b, some radius => (tranquiloR c (builtinComponents b) x radius bounds).map some
      | _, _, _ => .ok none) = .ok (some r') → ∃ r, (match callConfig p, callSettings ext p,
        numOf p.radiusOptions "initial_radius" with
      | some c, some b, some radius => (tranquiloR c (builtinComponents b) x radius bounds).map some
      | _, _, _ => .ok none) = .ok (some r) ∧ BeginsWith r r') ∧ ∀ e, (match callConfig p, callSettings ext p,
        numOf p.radiusOptions "initial_radius" with
      | some c, some b, some radius => (tranquiloR c (builtinComponents b) x radius bounds).map some
      | _, _, _ => .ok none) = .error e → (match callConfig (p.stopBy s'), callSettings ext (p.stopBy s'),
        numOf (p.stopBy s').radiusOptions "initial_radius" with
      | some c, some b, some radius => (tranquiloR c (builtinComponents b) x radius bounds).map some
      | _, _, _ => .ok none) = .error e ∨ (match callConfig (p.stopBy s'), callSettings ext (p.stopBy s'),
        numOf (p.stopBy s').radiusOptions "initial_radius" with
      | some c, some b, some radius => (tranquiloR c (builtinComponents b) x radius bounds).map some
      | _, _, _ => .ok none) = .ok none
    rw [hset, hrad]
    cases hc : callConfig p with
    | none => rw [hc] at hmod; exact (hmod rfl).elim
    | some c =>
    cases hb : callSettings ext p with
    | none => rw [hc, hb] at hmod; exact (hmod rfl).elim
    | some b =>
    cases hr : numOf p.radiusOptions "initial_radius" with
    | none => rw [hc, hb, hr] at hmod; exact (hmod rfl).elim
    | some radius =>
    cases hc' : callConfig (p.stopBy s') with
    | none => exact ⟨(fun r' hr => by cases hr), fun e _ => .inr rfl⟩
    | some c' =>
      have hE : EndsLater c c' := callConfig_stopBy (p := p) (s := s) (by rw [h3]; exact hc) hc' hl
      obtain ⟨g1, g2⟩ := C115_longer_run_begins_with_shorter (comp := builtinComponents b) (x := x)
        (radius := radius) (bounds := bounds) hE
      dsimp only
      constructor
      · intro r' hr'
        cases hq : tranquiloR c' (builtinComponents b) x radius bounds with
        | error e => rw [hq] at hr'; cases hr'
        | ok q =>
          rw [hq] at hr'
          cases hr'
          obtain ⟨r, hr1, hr2⟩ := g1 _ hq
          exact ⟨r, by rw [hr1]; rfl, hr2⟩
      · intro e he
        cases hq : tranquiloR c (builtinComponents b) x radius bounds with
        | ok q => rw [hq] at he; cases he
        | error e' =>
          rw [hq] at he
          cases he
          exact .inl (by rw [g2 _ hq]; rfl)

end Call

/-! ## The hypotheses can be met -/

/-- A run that is ended by the number of iterations, one that is ended by the tolerance, and the latter with
higher limits. -/
example : EndsLater (toyConfig 2 100 2 (.classic 0)) (toyConfig 9 200 2 (.classic 0)) ∧
    (∃ r r', tranquiloR (toyConfig 2 100 2 (.classic 0)) (toyComponentsR fun _ v => .fin (v 0 ^ 2))
        (fun _ => 2) 1 noBounds = .ok r ∧
      tranquiloR (toyConfig 9 200 2 (.classic 0)) (toyComponentsR fun _ v => .fin (v 0 ^ 2))
        (fun _ => 2) 1 noBounds = .ok r' ∧
      r.states.length = 3 ∧ r.stop = false ∧ r'.states.length = 9 ∧ r'.converged = true ∧
      r'.state.x 0 < r.state.x 0 ∧ BeginsWith r r') := by
  have hE : EndsLater (toyConfig 2 100 2 (.classic 0)) (toyConfig 9 200 2 (.classic 0)) :=
    ⟨rfl, by decide, by decide, .inr ⟨rfl, le_refl _, le_refl _, le_refl _, le_refl _, le_refl _, le_refl _⟩⟩
  refine ⟨hE, ?_⟩
  obtain ⟨r', h1⟩ : ∃ r', tranquiloR (toyConfig 9 200 2 (.classic 0))
      (toyComponentsR fun _ v => .fin (v 0 ^ 2)) (fun _ => 2) 1 noBounds = .ok r' := by
    have : outcome (tranquiloR (toyConfig 9 200 2 (.classic 0))
      (toyComponentsR fun _ v => .fin (v 0 ^ 2)) (fun _ => 2) 1 noBounds) = none := by decide +kernel
    revert this
    cases tranquiloR (toyConfig 9 200 2 (.classic 0))
      (toyComponentsR fun _ v => .fin (v 0 ^ 2)) (fun _ => 2) 1 noBounds with
    | error e => intro h; cases h
    | ok r => exact fun _ => ⟨r, rfl⟩
  obtain ⟨r, h2, h3⟩ := (C115_longer_run_begins_with_shorter hE).1 r' h1
  have hval : (tranquiloR (toyConfig 2 100 2 (.classic 0)) (toyComponentsR fun _ v => .fin (v 0 ^ 2))
        (fun _ => 2) 1 noBounds).toOption.map (fun r => (r.states.length, r.stop, r.state.x 0)) =
      some (3, false, 1 / 2) ∧
    (tranquiloR (toyConfig 9 200 2 (.classic 0)) (toyComponentsR fun _ v => .fin (v 0 ^ 2))
        (fun _ => 2) 1 noBounds).toOption.map (fun r => (r.states.length, r.converged, r.state.x 0)) =
      some (9, true, 1 / 128) := by decide +kernel
  rw [h1, h2] at hval
  simp only [Except.toOption, Option.map_some, Option.some.injEq, Prod.mk.injEq] at hval
  obtain ⟨⟨a1, a2, a3⟩, b1, b2, b3⟩ := hval
  exact ⟨r, r', h2, h1, a1, a2, b1, b2, by rw [a3, b3]; norm_num, h3⟩

/-- A call with default options, and the same call with more iterations, more evaluations and no check of
convergence. -/
example (env : PyEnv ℝ Unit) : ∃ r r',
    tranquiloCall env plainExternals ({ functype := "least_squares" } : CallOptions ℝ).arguments
      (fun _ => 1 / 2) ⟨fun _ => some (-1), fun _ => some 1⟩ = .ok (some r) ∧
    tranquiloCall env plainExternals
      ({ functype := "least_squares", maxIter := 500, maxEval := 10000,
         disableConvergence := true } : CallOptions ℝ).arguments
      (fun _ => 1 / 2) ⟨fun _ => some (-1), fun _ => some 1⟩ = .ok (some r') ∧ BeginsWith r r' := by
  have hret : ∀ (i e : ℤ) (d : Bool), ∃ r, tranquiloCall env plainExternals
      ({ functype := "least_squares", maxIter := i, maxEval := e, disableConvergence := d } :
        CallOptions ℝ).arguments
      (fun _ => 1 / 2) ⟨fun _ => some (-1), fun _ => some 1⟩ = .ok (some r) := by
    intro i e d
    obtain ⟨r, h1, -⟩ := C106_call_returns_partial env plainExternals plainExternals_spec
      { functype := "least_squares", maxIter := i, maxEval := e, disableConvergence := d }
      { functype := Or.inr (Or.inr rfl), cores := le_refl 1, batch := fun _ h => (by cases h)
        factor := fun _ h => (by cases h)
        perPoint := fun _ h => (by cases h), atStart := fun k h => (by cases h)
        sampler := Or.inr (Or.inr rfl), filter := fun _ h => (by cases h)
        fitter := fun _ h => (by cases h), cube := Or.inr rfl
        sphere := Or.inr (Or.inl rfl), decider := fun _ h => (by cases h) } (fun h => by simp at h)
      (fun h => by cases h) (fun _ => 1 / 2) ⟨0, by norm_num⟩
      ⟨fun _ => some (-1), fun _ => some 1⟩ (Or.inr fun _ _ _ _ h => by cases h)
      (fun i => ⟨fun l h => (by cases h; norm_num), fun u h => (by cases h; norm_num)⟩)
      (fun i l u hl hu => by cases hl; cases hu; norm_num)
    exact ⟨r, h1⟩
  obtain ⟨r', hr'⟩ := hret 500 10000 true
  obtain ⟨r, hr⟩ := hret 200 2000 false
  obtain ⟨q, h1, h2⟩ := (C115_call_that_may_run_longer (env := env) (ext := plainExternals)
    (a := ({ functype := "least_squares" } : CallOptions ℝ).arguments)
    (a' := ({ functype := "least_squares", maxIter := 500, maxEval := 10000,
              disableConvergence := true } : CallOptions ℝ).arguments)
    (s := ⟨false, .fin 0, .fin 0, .fin 0, .fin (2 / 10 ^ 9), .fin (1 / 10 ^ 8), .fin (1 / 10 ^ 8), 200, 2000⟩)
    (s' := ⟨true, .fin 0, .fin 0, .fin 0, .fin (2 / 10 ^ 9), .fin (1 / 10 ^ 8), .fin (1 / 10 ^ 8), 500, 10000⟩)
    rfl ⟨rfl, rfl, rfl, rfl, rfl, rfl, rfl, rfl, rfl⟩ ⟨rfl, rfl, rfl, rfl, rfl, rfl, rfl, rfl, rfl⟩
    ⟨by norm_num, by norm_num, .inl rfl⟩ (fun h => by
      have := hr.symm.trans h
      cases this)).1 r' hr'
  exact ⟨q, r', h1, hr', h2⟩

end Tranquilo
