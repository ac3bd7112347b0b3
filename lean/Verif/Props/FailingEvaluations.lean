import Verif.Props.BuiltinRun
import Verif.Props.HistoryRefinement

/-!
# Property C105: evaluations that fail do not end the optimization

True without noise. With noise it is false: `C105_violated_noisy`.
-/

namespace Tranquilo

variable {K : Type} [Field K] [LinearOrder K] [IsStrictOrderedRing K] {n m : Nat}

/-- An evaluation that failed: an exception, NaN or an infinite number. -/
def FailedEval : RawEval K → Prop
  | .exc => True
  | .sc v => v.isFinite = false
  | .vec _ => False

/-- The options without noise. -/
def Config.withoutNoise (c : Config K) : Config K := { c with noisy := false, decider := .classic 0 }

omit [IsStrictOrderedRing K] in
/-- The value of a failed evaluation. -/
theorem oracleOf_failed (criterion : UserCriterion K) (k : Nat) (x : Vec K n)
    (h : FailedEval (criterion k (finRow x))) : (oracleOf .scalar criterion k x).isFinite = false := by
  unfold oracleOf recordedRow Functype.aggregateRow
  cases hr : criterion k (finRow x) with
  | exc => rfl
  | sc v =>
    rw [hr] at h
    cases v with
    | fin a => cases h
    | pinf => rfl
    | ninf => rfl
    | nan => rfl
  | vec vs => rw [hr] at h; exact h.elim

omit [IsStrictOrderedRing K] in
/-- A scalar criterion is never seen as NaN. -/
theorem oracleOf_ne_nan (criterion : UserCriterion K) (hs : ∀ k y vs, criterion k y ≠ .vec vs) (k : Nat)
    (x : Vec K n) : oracleOf .scalar criterion k x ≠ .nan := by
  unfold oracleOf recordedRow Functype.aggregateRow
  cases hr : criterion k (finRow x) with
  | exc => simp [recordedScalar]
  | sc v => cases v <;> simp [recordedScalar]
  | vec vs => exact absurd hr (hs _ _ _)

/-- The result of a run is the start point or a point with a finite value. -/
theorem result_finite_or_start [FloorRing K] {VM SM : Type} (c : Config K) (comp : Components K n VM SM)
    (hf : FilterSelects comp) (hz : comp.nrm (fun _ => 0) = 0) (x : Vec K n) (radius : K) (bounds : Bounds K n) :
    (tranquilo c comp x radius bounds).state.x = x ∨
      ∃ a, (tranquilo c comp x radius bounds).state.fval = .fin a := by
  have key := tranquilo_induction c comp x radius bounds
    (fun r => RunOk comp bounds r ∧ (r.state.x = x ∨ ∃ a, r.state.fval = .fin a))
    ⟨startRun_ok c comp x radius bounds, Or.inl rfl⟩ (by
      rintro it r ⟨hok, hr⟩
      refine ⟨iteration_ok c comp hf bounds it r hok, ?_⟩
      have hw : (theBuild c comp it r).log.WF :=
        ((buildPhase_ok c comp it r.state r.log r.nEvals hf hok.point).grows.consistent
          hok.consistent).wf
      have hdec : Decides comp.nrm comp.oracle (theBuild c comp it r).sub r.state.current
          (theBuild c comp it r).log (theDecision c comp it r).1 (theDecision c comp it r).2 :=
        runDecider_decides _ _ _ _ _ _ _ _
      rw [iteration_eq]
      by_cases hacc : (theDecision c comp it r).2.accepted = true
      · exact Or.inr (C13_accepted_is_finite hw hdec hacc).1
      · obtain ⟨h1, h2, -⟩ := C12_rejected_changes_nothing hz hw hdec (by simpa using hacc)
        rcases hr with hr | ⟨a, ha⟩
        · exact Or.inl (h1.trans hr)
        · exact Or.inr ⟨a, h2.trans ha⟩)
  exact key.2

/-- C105, partial: without noise a run returns whatever evaluations fail. For all scalar criteria that raise or
return NaN or infinite numbers at arbitrary evaluations. The result is the start point or a point with a finite
value. If models are fitted as corrections of the previous one (`residualize`), the start point must not fail
(`hstart`; otherwise the first fit has infinite targets, which is not modelled, see `BuiltinSettings`). Missing:
noisy runs (see `C105_violated_noisy`) and vector valued criteria (see C08). -/
theorem C105_failures_without_noise_partial [FloorRing K] {c : Config K} {b : BuiltinSettings K n m}
    {bounds : Bounds K n} (hn : c.noisy = false) (criterion : UserCriterion K)
    (hcrit : ∀ k y vs, criterion k y ≠ .vec vs) (ho : b.oracle = oracleOf .scalar criterion) (x : Vec K n)
    (_hstart : b.residualize = true → ∀ k, k < (startLogR c b.oracle x).evals.length →
      ¬ FailedEval (criterion k (finRow x))) (h : SafeSettings c.withoutNoise b bounds) (hcfg : SafeConfig c bounds)
    (hx : InBounds bounds x) (radius : K) (hrad : 0 < radius) :
    ∃ r, tranquiloR c (builtinComponents b) x radius bounds = .ok r ∧ InBounds bounds r.state.x ∧
      (r.state.x = x ∨ ∃ a, r.state.fval = .fin a) := by
  have hs : SafeSettings c b bounds :=
    { zero := h.zero, root := h.root, radial := h.radial, cubeRadius := h.cubeRadius,
      dimRoot := h.dimRoot, rng := h.rng, filter := h.filter, sampler := h.sampler,
      aggregator := h.aggregator, sides := h.sides
      noise := fun h => absurd h (by simp [hn])
      values := fun _ _ _ => Or.inr fun k y => by rw [ho]; exact oracleOf_ne_nan criterion hcrit k y
      sphere := h.sphere, cube := h.cube, ball := h.ball }
  obtain ⟨r, hr, h1, -⟩ := C98_builtin_run_partial hs hcfg x hx radius hrad
  refine ⟨r, hr, h1, ?_⟩
  obtain ⟨cp, rfl, hnrm, -, -, hf, -⟩ := tranquiloR_run hr
  exact result_finite_or_start c cp (hf (C98_builtin_components_are_safe hs).selects)
    (by rw [hnrm]; exact h.zero) x radius bounds

/-- The build phase does not depend on the treatment of noise. -/
theorem buildPhaseR_withoutNoise [FloorRing K] {VM SM : Type} (c : Config K) (comp : ComponentsR K n VM SM)
    (it : Nat) (state : LoopState K n VM SM) (log : Log K n) (nEvals : Int) :
    buildPhaseR c.withoutNoise comp it state log nEvals = buildPhaseR c comp it state log nEvals := by
  have h1 : ∀ fuel b, dropLoopR c.withoutNoise comp state fuel b = dropLoopR c comp state fuel b := by
    intro fuel
    induction fuel with
    | zero => intro b; rfl
    | succ f ih => intro b; simp only [dropLoopR, ih]; rfl
  have h2 : ∀ fuel k b, stagnationLoopR c.withoutNoise comp state nEvals it fuel k b =
      stagnationLoopR c comp state nEvals it fuel k b := by
    intro fuel
    induction fuel with
    | zero => intro k b; rfl
    | succ f ih => intro k b; simp only [stagnationLoopR, ih]; rfl
  unfold buildPhaseR
  simp only [h1, h2]
  rfl

/-- One iteration of a noisy run, before the decision: a point near the trust region, with enough evaluations to count
for the estimate of the noise and an evaluation that is not finite, is still there when the noise is estimated. -/
theorem failed_build [FloorRing K] {c : Config K} {b : BuiltinSettings K n m} {bounds : Bounds K n}
    (h : SafeSettings c.withoutNoise b bounds) (hcfg : SafeConfig c.withoutNoise bounds) (it : Nat)
    (r : Run K n (VectorModel K n m) (ScalarModel K n))
    (sm : ScalarModel K n)
    (hr : RunSafe c.withoutNoise ((builtinComponents b).total (fallbackComponents (builtinComponents b) sm))
      bounds StartModel r)
    (i : Nat) (hnear : NearPoint b.nrm r.log r.state.trustregion.center
      (r.state.trustregion.radius * b.noiseDistance) i)
    (hmin : b.noiseMinEvals ≤ (r.log.fvals i).length) (v : XVal K) (hv : v ∈ r.log.fvals i) :
    ∃ p, buildPhaseR c (builtinComponents b) it r.state r.log r.nEvals = .ok p ∧ v ∈ p.2.log.fvals i ∧
      (r.log.fvals i).length ≤ (p.2.log.fvals i).length ∧ p.2.log.evals ≠ [] ∧
      UsedPoint b.nrm p.2.log r.state.trustregion.center (r.state.trustregion.radius * b.noiseDistance)
        b.noiseMinEvals i := by
  set ce := builtinComponents b with hce
  set cp := ce.total (fallbackComponents ce sm) with hcp
  have hsafe : SafeComponents c.withoutNoise ce bounds StartModel := C98_builtin_components_are_safe h
  have hreal : Realizes ce cp := ce.total_realizes _
  have hf : FilterSelects cp := total_filterSelects sm hsafe.selects
  have hcin : InBounds bounds r.state.x := hr.points _ (List.mem_of_getElem? hr.ok.point)
  have hreg : FeasibleRegion bounds r.state.trustregion :=
    ⟨hr.ok.bounds, hr.radius, by rw [hr.ok.center]; exact hcin⟩
  obtain ⟨p, hp, -⟩ := buildPhaseR_safe hsafe hcfg hreg hr.good hr.ok.center it r.log hr.evals
    hr.ok.point hr.points r.nEvals
  have hpp := buildPhaseR_ok hreal hp
  have hbo := buildPhase_ok c.withoutNoise cp it r.state r.log r.nEvals hf hr.ok.point
  rw [hpp] at hbo
  have hp' : buildPhaseR c ce it r.state r.log r.nEvals = .ok p := (buildPhaseR_withoutNoise c ce it _ _ _).symm.trans hp
  obtain ⟨t, ht⟩ := hbo.grows.evals_prefix
  have hv' : v ∈ p.2.log.fvals i := by
    unfold Log.fvals at hv ⊢
    rw [← ht, List.filter_append, List.map_append]
    exact List.mem_append_left _ hv
  have hlen := Log.fvals_length_mono hbo.grows.evals_prefix i
  refine ⟨p, hp', hv', hlen, by rw [← ht]; simp [hr.evals], ?_⟩
  obtain ⟨y, hy1, hy2⟩ := hnear
  exact ⟨⟨y, getElem?_of_prefix hbo.grows.xs_prefix hy1, hy2⟩, Or.inl (hmin.trans (by exact_mod_cast hlen))⟩

/-- One iteration of a noisy run with such a point: `accept_noisy` raises a `ValueError`. -/
theorem iterationR_failed_evaluation [FloorRing K] {c : Config K} {b : BuiltinSettings K n m}
    {bounds : Bounds K n} (hn : c.noisy = true)
    (hd : ∃ mi zc zp nMin nMax, c.decider = .noisy mi zc zp nMin nMax)
    (h : SafeSettings c.withoutNoise b bounds) (hcfg : SafeConfig c.withoutNoise bounds) (it : Nat)
    (r : Run K n (VectorModel K n m) (ScalarModel K n))
    (sm : ScalarModel K n)
    (hr : RunSafe c.withoutNoise ((builtinComponents b).total (fallbackComponents (builtinComponents b) sm))
      bounds StartModel r)
    (i : Nat) (hnear : NearPoint b.nrm r.log r.state.trustregion.center
      (r.state.trustregion.radius * b.noiseDistance) i)
    (hmin : b.noiseMinEvals ≤ (r.log.fvals i).length) (v : XVal K) (hv : v ∈ r.log.fvals i)
    (hfail : v.isFinite = false) :
    iterationR c (builtinComponents b) it r = .error .valueError := by
  obtain ⟨p, hp', hv', -, hev, hused⟩ := failed_build h hcfg it r sm hr i hnear hmin v hv
  set ce := builtinComponents b with hce
  have hvar := C71_undefined b.nrm b.noiseDistance b.noiseMinEvals r.state.trustregion p.2.log hev i hused
    (Or.inl ⟨v, hv', hfail⟩)
  have hsigma : noiseR c ce p.2.log r.state.trustregion = .ok (some none) := by
    unfold noiseR
    rw [if_pos hn]
    change (builtinNoiseSigma b p.2.log r.state.trustregion).map some = _
    unfold builtinNoiseSigma
    rw [hvar]
    rfl
  obtain ⟨mi, zc, zp, nMin, nMax, hd⟩ := hd
  unfold iterationR
  simp only [bind, Except.bind, hp', hsigma]
  unfold runDeciderR
  rw [hd]

omit [IsStrictOrderedRing K] in
/-- A matrix with an entry that is not finite. -/
theorem finiteMat_none {cov : Fin m → Fin m → XVal K} {a b : Fin m} (h : (cov a b).isFinite = false) :
    finiteMat cov = none := by
  unfold finiteMat
  refine if_neg fun hall => ?_
  rw [hall a b] at h
  cases h

/-- One iteration of a noisy run with such a point: if the decider does not raise because of it, the simulation of the
noise raises a `LinAlgError`. -/
theorem iterationR_failed_naive [FloorRing K] {c : Config K} {b : BuiltinSettings K n m}
    {bounds : Bounds K n} (hn : c.noisy = true) (hd : ∃ mi, c.decider = .naiveNoisy mi)
    (h : SafeSettings c.withoutNoise b bounds) (hcfg : SafeConfig c.withoutNoise bounds) (it : Nat)
    (r : Run K n (VectorModel K n m) (ScalarModel K n))
    (sm : ScalarModel K n)
    (hr : RunSafe c.withoutNoise ((builtinComponents b).total (fallbackComponents (builtinComponents b) sm))
      bounds StartModel r)
    (hrows : ∀ log i, (b.fvecs log i).length = (log.fvals i).length)
    (hbad : ∀ log i, (∃ v ∈ log.fvals i, v.isFinite = false) → ∃ row ∈ b.fvecs log i, ∃ k, (row k).isFinite = false)
    (i : Nat) (hnear : NearPoint b.nrm r.log r.state.trustregion.center
      (r.state.trustregion.radius * b.noiseDistance) i)
    (hmin : b.noiseMinEvals ≤ (r.log.fvals i).length) (htwo : 2 ≤ (r.log.fvals i).length)
    (v : XVal K) (hv : v ∈ r.log.fvals i) (hfail : v.isFinite = false) :
    iterationR c (builtinComponents b) it r = .error .linAlgError := by
  obtain ⟨p, hp', hv', hlen, hev, hused⟩ := failed_build h hcfg it r sm hr i hnear hmin v hv
  set ce := builtinComponents b with hce
  have hvar := C71_undefined b.nrm b.noiseDistance b.noiseMinEvals r.state.trustregion p.2.log hev i hused
    (Or.inl ⟨v, hv', hfail⟩)
  have hsigma : noiseR c ce p.2.log r.state.trustregion = .ok (some none) := by
    unfold noiseR
    rw [if_pos hn]
    change (builtinNoiseSigma b p.2.log r.state.trustregion).map some = _
    unfold builtinNoiseSigma
    rw [hvar]
    rfl
  obtain ⟨row, hrow, k, hk⟩ := hbad p.2.log i ⟨v, hv', hfail⟩
  obtain ⟨cov, hcov, hnan⟩ := C71_covariance_undefined b.nrm b.noiseDistance b.noiseMinEvals b.covOfOne
    r.state.trustregion p.2.log (b.fvecs p.2.log) hev i hused (by rw [hrows]; omega) row hrow k hk
  have hfm : finiteMat cov = none := finiteMat_none (a := k) (b := k) (by rw [hnan]; rfl)
  obtain ⟨mi, hd⟩ := hd
  have hnext : ∀ st rho, nextNEvalsR c ce it r.nEvals p.2 st rho = .error .linAlgError ∨
      st.trustregion ≠ r.state.trustregion := by
    intro st rho
    by_cases hst : st.trustregion = r.state.trustregion
    · left
      unfold nextNEvalsR
      rw [if_pos hn]
      change (builtinRhoNoise b it p.2.log p.2.modelXs p.2.vectorModel st.vectorModel st.trustregion >>= _) = _
      unfold builtinRhoNoise
      rw [hst, hcov]
      simp only [bind, Except.bind, hfm]
    · exact Or.inr hst
  unfold iterationR
  simp only [bind, Except.bind, hp', hsigma]
  unfold runDeciderR
  rw [hd]
  simp only
  rcases hnext (stateR r.state r.nEvals p.1 p.2 (acceptNaiveNoisy ce.nrm ce.oracle mi p.2.sub r.state.current p.2.log).2)
    (acceptNaiveNoisy ce.nrm ce.oracle mi p.2.sub r.state.current p.2.log).2.rho with h | h
  · rw [h]
  · exact absurd rfl h

/-- The evaluations of the start point. -/
theorem startLogR_fvals_mem [FloorRing K] {c : Config K} (hb : 1 ≤ c.batchSize) (oracle : Oracle K n)
    (x : Vec K n) (k : Nat) (hk : k < c.nEvalsAtStart) : oracle k x ∈ (startLogR c oracle x).fvals 0 := by
  have hmem : ∀ (N : Nat) (start k : Nat), k < N →
      (0, oracle (start + k) x) ∈ Log.newEvals oracle [x] start (List.replicate N 0) := by
    intro N
    induction N with
    | zero => intro _ k hk; omega
    | succ N ih =>
      intro start k hk
      rw [List.replicate_succ, Log.newEvals]
      simp only [List.getElem?_cons_zero, List.mem_cons]
      cases k with
      | zero => exact Or.inl rfl
      | succ k =>
        right
        have := ih (start + 1) k (by omega)
        rwa [show start + 1 + k = start + (k + 1) by omega] at this
  unfold startLogR Log.fvals
  rw [Log.evaluate_eq]
  simp only [List.nil_append, List.length_nil, List.flatMap_cons, List.flatMap_nil, List.append_nil]
  refine List.mem_map.2 ⟨(0, oracle k x), List.mem_filter.2 ⟨?_, by simp⟩, rfl⟩
  have hlt : k < (if 1 < c.nEvalsAtStart then (nextMultiple (K := K) c.nEvalsAtStart c.batchSize).toNat
      else 1) := by
    split
    · exact hk.trans_le (nextMultiple_ge _ _ hb)
    · omega
  simpa using hmem _ 0 k hlt

/-- A run raises what its first iteration raises. -/
theorem first_iteration_raises [FloorRing K] {c : Config K} {b : BuiltinSettings K n m} {bounds : Bounds K n}
    (hit : 0 < c.maxIter) (h : SafeSettings c.withoutNoise b bounds) (hcfg : SafeConfig c.withoutNoise bounds)
    (hdist : 0 ≤ b.noiseDistance) (x : Vec K n)
    (hx : InBounds bounds x) (radius : K) (hrad : 0 < radius) (k : Nat) (hk : k < c.nEvalsAtStart) (e : Err)
    (hiter : ∀ r sm, RunSafe c.withoutNoise ((builtinComponents b).total (fallbackComponents (builtinComponents b) sm))
        bounds StartModel r →
      NearPoint b.nrm r.log r.state.trustregion.center (r.state.trustregion.radius * b.noiseDistance) 0 →
      c.nEvalsAtStart ≤ (r.log.fvals 0).length → b.oracle k x ∈ r.log.fvals 0 →
      iterationR c (builtinComponents b) 0 r = .error e) :
    tranquiloR c (builtinComponents b) x radius bounds = .error e := by
  obtain ⟨j, hj⟩ : ∃ j, c.maxIter = j + 1 := ⟨c.maxIter - 1, by omega⟩
  have hsafe : SafeComponents c.withoutNoise (builtinComponents b) bounds StartModel :=
    C98_builtin_components_are_safe h
  obtain ⟨hgood, sm, hsm⟩ := hsafe.init (startLogR c b.oracle x)
    { center := x, radius := radius, bounds := bounds } ⟨rfl, hrad, hx⟩
  have hstart : ∃ r, startRunR c (builtinComponents b) x radius bounds = .ok r ∧
      startRunR c.withoutNoise (builtinComponents b) x radius bounds = .ok r ∧
      r.state.trustregion = { center := x, radius := radius, bounds := bounds } ∧
      r.log = startLogR c b.oracle x ∧ r.state.vectorModel = builtinInit b (startLogR c b.oracle x)
        { center := x, radius := radius, bounds := bounds } := by
    unfold startRunR
    dsimp only
    change ∃ r, (aggregate b.aggregator (builtinInit b (startLogR c b.oracle x)
      { center := x, radius := radius, bounds := bounds }) >>= _) = _ ∧
      (aggregate b.aggregator (builtinInit b (startLogR c b.oracle x)
      { center := x, radius := radius, bounds := bounds }) >>= _) = _ ∧ _
    have hsm' : aggregate b.aggregator (builtinInit b (startLogR c b.oracle x)
      { center := x, radius := radius, bounds := bounds }) = .ok sm := hsm
    rw [hsm']
    exact ⟨_, rfl, rfl, rfl, rfl, rfl⟩
  obtain ⟨r0, h0, h0', h1, h2, h3⟩ := hstart
  set ce := builtinComponents b with hce
  set cp := ce.total (fallbackComponents ce sm) with hcp
  have hr0 := startRunR_ok (ce.total_realizes (fallbackComponents ce sm)) h0'
  have hxs : r0.log.xs = [x] := by rw [h2]; simp [startLogR]
  have hbatch : 1 ≤ c.batchSize := hcfg.batch
  have hrs : RunSafe c.withoutNoise cp bounds StartModel r0 := by
    refine ⟨?_, by rw [h1]; exact hrad, ?_, by rw [h3]; exact hgood, ?_, ?_⟩
    · rw [← hr0]
      exact startRun_ok c.withoutNoise cp x radius bounds
    · intro y hy
      rw [hxs] at hy
      rw [List.mem_singleton.1 hy]
      exact hx
    · rw [h2]
      exact startLogR_evals hbatch b.oracle x
    · rintro ⟨-, ⟨mi, hm⟩ | ⟨mi, zc, zp, a, d, hm, -⟩⟩ <;> cases hm
  have hiter' := hiter r0 sm hrs
    ⟨x, by rw [hxs]; rfl, by
      rw [h1]
      simp only [sub_self]
      rw [h.zero]
      exact mul_nonneg hrad.le hdist⟩
    (by
      rw [h2]
      exact startLogR_fvals_length hbatch b.oracle x)
    (by rw [h2]; exact startLogR_fvals_mem hbatch b.oracle x k hk)
  unfold tranquiloR
  rw [h0, hj]
  change (iterationR c ce 0 r0 >>= _) = _
  rw [hiter']
  rfl

/-- C105 is false with noise. A noisy run with `accept_noisy` (the default with noise) raises a `ValueError`
in its first iteration if one of the evaluations of the start point fails. For all criteria, start points and
settings with which a run without noise returns (C98); all start evaluations count for the estimate of the
noise (default: 5 evaluations, 3 are needed). `hres`: the models are not fitted as corrections of the
start model, so the failure does not already affect the first model (see `BuiltinSettings`). -/
theorem C105_violated_noisy [FloorRing K] {c : Config K} {b : BuiltinSettings K n m} {bounds : Bounds K n}
    (hn : c.noisy = true) (hd : ∃ mi zc zp nMin nMax, c.decider = .noisy mi zc zp nMin nMax)
    (hit : 0 < c.maxIter) (_hres : b.residualize = false) (criterion : UserCriterion K) (ho : b.oracle = oracleOf .scalar criterion)
    (h : SafeSettings c.withoutNoise b bounds) (hcfg : SafeConfig c.withoutNoise bounds)
    (hdist : 0 ≤ b.noiseDistance) (hmin : b.noiseMinEvals ≤ c.nEvalsAtStart) (x : Vec K n)
    (hx : InBounds bounds x) (radius : K) (hrad : 0 < radius) (k : Nat) (hk : k < c.nEvalsAtStart)
    (hfail : FailedEval (criterion k (finRow x))) :
    tranquiloR c (builtinComponents b) x radius bounds = .error .valueError := by
  refine first_iteration_raises hit h hcfg hdist x hx radius hrad k hk _ fun r sm hrs hnear hlen hv => ?_
  exact iterationR_failed_evaluation hn hd h hcfg 0 r sm hrs 0 hnear (hmin.trans (by exact_mod_cast hlen)) _ hv
    (by rw [ho]; exact oracleOf_failed criterion k x hfail)

/-- C105 is false with noise also for the decider `naive_noisy`, which does not use the estimated noise: the covariance
of the noise is NaN, and the simulation for the number of evaluations raises a `LinAlgError` in the first iteration. -/
theorem C105_violated_naive_noisy [FloorRing K] {c : Config K} {b : BuiltinSettings K n m} {bounds : Bounds K n}
    (hn : c.noisy = true) (hd : ∃ mi, c.decider = .naiveNoisy mi)
    (hit : 0 < c.maxIter) (_hres : b.residualize = false) (criterion : UserCriterion K) (ho : b.oracle = oracleOf .scalar criterion)
    (h : SafeSettings c.withoutNoise b bounds) (hcfg : SafeConfig c.withoutNoise bounds)
    (hrows : ∀ log i, (b.fvecs log i).length = (log.fvals i).length)
    (hbad : ∀ log i, (∃ v ∈ log.fvals i, v.isFinite = false) → ∃ row ∈ b.fvecs log i, ∃ k, (row k).isFinite = false)
    (hdist : 0 ≤ b.noiseDistance) (hmin : b.noiseMinEvals ≤ c.nEvalsAtStart) (htwo : 2 ≤ c.nEvalsAtStart) (x : Vec K n)
    (hx : InBounds bounds x) (radius : K) (hrad : 0 < radius) (k : Nat) (hk : k < c.nEvalsAtStart)
    (hfail : FailedEval (criterion k (finRow x))) :
    tranquiloR c (builtinComponents b) x radius bounds = .error .linAlgError := by
  refine first_iteration_raises hit h hcfg hdist x hx radius hrad k hk _ fun r sm hrs hnear hlen hv => ?_
  exact iterationR_failed_naive hn hd h hcfg 0 r sm hrs hrows hbad 0 hnear (hmin.trans (by exact_mod_cast hlen))
    (htwo.trans hlen) _ hv (by rw [ho]; exact oracleOf_failed criterion k x hfail)

/-- Options with noise and the default numbers of evaluations. -/
noncomputable def noisyConfig : Config ℝ where
  noisy := true
  conv := { disable := false, ftolAbs := 0, gtolAbs := 0, xtolAbs := 1 / 100, ftolRel := 0, gtolRel := 0
            xtolRel := 0 }
  maxIter := 10
  maxEval := 100
  radius := { maxRadius := 1000000, minRadius := 1 / 1000000, rhoDecrease := 1 / 10, rhoIncrease := 1 / 10
              shrinkingFactor := 1 / 2, expansionFactor := 2, largeStep := 1 / 2
              maxRadiusToStepRatio := .pinf }
  noise := { highRho := 6 / 10, lowRho := 1 / 10, minShareHighRho := 7 / 10, minShareLowRho := 9 / 10
             minNEvals := 1, maxNEvals := 30, goodRhoThreshold := 1 / 10 }
  batchSize := 2
  targetSize := 5
  stagnation := { minRelativeStepKeep := 1 / 8, drop := true, minRelativeStep := 1 / 20
                  sampleIncrement := 1, maxTrials := 1 }
  searchRadiusFactor := 2
  nEvalsPerPoint := 5
  nEvalsAtStart := 5
  decider := .noisy 0 (1 / 2) (1 / 2) 4 100

/-- A criterion that raises in every fourth evaluation and else returns the square of the first
parameter. -/
noncomputable def everyFourthFails : UserCriterion ℝ := fun k y =>
  if k % 4 = 3 then .exc else match y with
    | .fin a :: _ => .sc (.fin (a ^ 2))
    | _ => .sc .nan

/-- The settings of the examples. -/
noncomputable def failingSettings : BuiltinSettings ℝ 2 2 :=
  { raisingSettings with oracle := oracleOf .scalar everyFourthFails, residualize := false }

theorem failingSettings_safe (c : Config ℝ) :
    SafeSettings c.withoutNoise failingSettings ⟨fun _ => some (-1), fun _ => some 1⟩ where
  zero := by simp [failingSettings, raisingSettings]
  root := sqrtSpec_realSqrt
  radial := fun _ => ⟨zero_le_one, le_rfl⟩
  cubeRadius := fun _ h => h
  dimRoot := fun a _ => Real.sqrt_nonneg a
  rng := fun _ _ _ => constantRng_spec
  filter := ⟨zero_le_one, rfl⟩
  sampler := Or.inl rfl
  aggregator := Or.inr (Or.inr (Or.inr rfl))
  sides := by
    intro i l u hl hu
    cases hl
    cases hu
    norm_num
  noise h := by cases h
  values m rf h := by cases h
  sphere := fun model hm => (C98_fallback_solvers_return _ _ _ model hm _).1
  cube := fun model hm x _ => (C98_fallback_solvers_return Real.sqrt _ _ model hm x).2
  ball := Or.inr fun model _ x raw => ⟨fun h => (by cases h), fun h =>
    C52_inscribed_cube Real.sqrt sqrtSpec_realSqrt _ (fun _ _ _ _ h => ⟨fun i => npClip_mem (h i), rfl⟩)
      model x raw h⟩

theorem noisyConfig_safe :
    SafeConfig noisyConfig.withoutNoise (⟨fun _ => some (-1), fun _ => some 1⟩ : Bounds ℝ 2) where
  batch := by simp [noisyConfig, Config.withoutNoise]
  search := by simp [noisyConfig, Config.withoutNoise]
  minRadius := by norm_num [noisyConfig, Config.withoutNoise]
  maxRadius := by norm_num [noisyConfig, Config.withoutNoise]
  ratio := rfl
  noise := by intro m zc zp a b h; cases h
  line := by intro m rf h; cases h

/-- C105, example: the same criterion and settings. With noise the run raises, without noise it returns. -/
example : tranquiloR noisyConfig (builtinComponents failingSettings) (fun _ => 1 / 2) (1 / 10)
      ⟨fun _ => some (-1), fun _ => some 1⟩ = .error .valueError ∧
    ∃ r, tranquiloR noisyConfig.withoutNoise (builtinComponents failingSettings) (fun _ => 1 / 2) (1 / 10)
      ⟨fun _ => some (-1), fun _ => some 1⟩ = .ok r := by
  have hin : InBounds (⟨fun _ => some (-1), fun _ => some 1⟩ : Bounds ℝ 2) (fun _ => 1 / 2) := by
    intro i
    refine ⟨?_, ?_⟩ <;> intro v hv <;> cases hv <;> norm_num
  constructor
  · exact C105_violated_noisy rfl ⟨_, _, _, _, _, rfl⟩ (by simp [noisyConfig]) rfl everyFourthFails rfl
      (failingSettings_safe _) noisyConfig_safe (by norm_num [failingSettings, raisingSettings])
      (by norm_num [failingSettings, raisingSettings, noisyConfig]) _ hin _ (by norm_num) 3
      (by simp [noisyConfig]) (by simp [everyFourthFails, FailedEval])
  · obtain ⟨r, hr, -⟩ := C105_failures_without_noise_partial (c := noisyConfig.withoutNoise)
      (b := failingSettings) rfl everyFourthFails (by
        intro k y vs
        unfold everyFourthFails
        split
        · simp
        · split <;> simp) rfl _ (fun h => by cases h) (failingSettings_safe _) noisyConfig_safe hin (1 / 10)
      (by norm_num)
    exact ⟨r, hr⟩

/-- C105, example: with the decider `naive_noisy` the same run raises another exception. -/
example : tranquiloR { noisyConfig with decider := .naiveNoisy 0 } (builtinComponents failingSettings) (fun _ => 1 / 2)
      (1 / 10) ⟨fun _ => some (-1), fun _ => some 1⟩ = .error .linAlgError := by
  have hin : InBounds (⟨fun _ => some (-1), fun _ => some 1⟩ : Bounds ℝ 2) (fun _ => 1 / 2) := by
    intro i
    refine ⟨?_, ?_⟩ <;> intro v hv <;> cases hv <;> norm_num
  refine C105_violated_naive_noisy (c := { noisyConfig with decider := .naiveNoisy 0 }) rfl ⟨0, rfl⟩ (by simp [noisyConfig]) rfl everyFourthFails rfl
    (failingSettings_safe _) noisyConfig_safe (fun log i => by simp [failingSettings, raisingSettings])
    (fun log i ⟨v, hv, hf⟩ => ⟨fun _ => v, List.mem_map.2 ⟨v, hv, rfl⟩, 0, hf⟩)
    (by norm_num [failingSettings, raisingSettings])
    (by norm_num [failingSettings, raisingSettings, noisyConfig]) (by norm_num [noisyConfig]) _ hin _ (by norm_num) 3
    (by simp [noisyConfig]) (by simp [everyFourthFails, FailedEval])

end Tranquilo
