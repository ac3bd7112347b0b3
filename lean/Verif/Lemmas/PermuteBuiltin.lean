import Verif.Lemmas.PermuteFeatures

/-!
# Models, fits and the components of a run with the parameters in another order
-/

namespace Tranquilo

variable {K : Type} [Field K] [LinearOrder K] [IsStrictOrderedRing K] {n m N : Nat}
variable {σ : Equiv.Perm (Fin n)}

/-! ### Models -/

theorem VectorModel.permute_predict (v : VectorModel K n m) (x : Vec K n) :
    (v.permute σ).predict (Tranquilo.permute σ x) = v.predict x := by
  funext k
  have h1 : dot ((v.permute σ).linearTerms k) (Tranquilo.permute σ x) = dot (v.linearTerms k) x :=
    dot_permute (σ := σ) (v.linearTerms k) x
  simp only [VectorModel.predict, h1]
  simp only [VectorModel.permute]
  cases v.squareTerms with
  | none => rfl
  | some h => simp only [Option.map_some, halfQuad_permute]

theorem ScalarModel.permute_predict (v : ScalarModel K n) (x : Vec K n) :
    (v.permute σ).predict (Tranquilo.permute σ x) = v.predict x := by
  have h1 : dot (Tranquilo.permute σ x) (v.permute σ).linearTerms = dot x v.linearTerms :=
    dot_permute (σ := σ) x v.linearTerms
  simp only [ScalarModel.predict, h1]
  simp only [ScalarModel.permute]
  cases v.squareTerms with
  | none => rfl
  | some h => simp only [Option.map_some, halfQuad_permute]

theorem aggregate_permute (name : String) (v : VectorModel K n m) :
    SameOutcome (fun u u' => u' = u.permute σ) (aggregate name v) (aggregate name (v.permute σ)) := by
  simp only [aggregate, aggregatorIdentity, aggregatorSum, VectorModel.permute]
  split_ifs
  · cases v.squareTerms <;> exact rfl
  · exact rfl
  · cases v.squareTerms <;> exact rfl
  · exact rfl
  · exact rfl
  · exact rfl

theorem VectorModel.permute_scaleBy (v : VectorModel K n m) (f : Vec K n) :
    (v.permute σ).scaleBy (Tranquilo.permute σ f) = (v.scaleBy f).permute σ := by
  simp only [VectorModel.scaleBy, VectorModel.permute, Option.map_map]
  rfl

theorem VectorModel.permute_shiftBy (v : VectorModel K n m) (f : Vec K n) :
    (v.permute σ).shiftBy (Tranquilo.permute σ f) = (v.shiftBy f).permute σ := by
  simp only [VectorModel.shiftBy, VectorModel.permute_predict]
  simp only [VectorModel.permute, VectorModel.mk.injEq, true_and]
  cases v.squareTerms with
  | none => exact ⟨rfl, rfl⟩
  | some h =>
    refine ⟨?_, rfl⟩
    funext k j
    simp only [Option.map_some]
    congr 1
    exact Equiv.sum_comp σ fun i => f i * h k i (σ j)

theorem VectorModel.permute_move (cr : K → K) (v : VectorModel K n m) (new : Region K n) :
    (v.permute σ).move cr (new.permute σ) = (v.move cr new).permute σ := by
  simp only [VectorModel.move]
  rw [Region.permute_effectiveRadius fun _ => rfl, Region.permute_effectiveCenter fun _ => rfl,
    ← VectorModel.permute_scaleBy, ← VectorModel.permute_shiftBy, ← VectorModel.permute_scaleBy]
  rfl

theorem allClose_permute (a b : Vec K n) : allClose (permute σ a) (permute σ b) = allClose a b :=
  decide_eq_decide.2 (σ.forall_congr_left.trans <| by simp [permute])

theorem VectorModel.permute_add (v w : VectorModel K n m) :
    SameOutcome (fun u u' => u' = u.permute σ) (v.add w) ((v.permute σ).add (w.permute σ)) := by
  simp only [VectorModel.add]
  rw [show (v.permute σ).shift = Tranquilo.permute σ v.shift from rfl,
    show (w.permute σ).shift = Tranquilo.permute σ w.shift from rfl,
    show (v.permute σ).scale = Tranquilo.permute σ v.scale from rfl,
    show (w.permute σ).scale = Tranquilo.permute σ w.scale from rfl, allClose_permute, allClose_permute]
  split_ifs
  · exact rfl
  · exact rfl
  · simp only [VectorModel.permute]
    cases v.squareTerms <;> cases w.squareTerms <;> exact rfl

theorem collectColumns_same {p q : Nat} (e : Vec K p → Vec K q) (f : Fin m → Except Err (Vec K p))
    (f' : Fin m → Except Err (Vec K q)) (h : ∀ k, SameOutcome (fun u u' => u' = e u) (f k) (f' k))
    (he : e (fun _ => 0) = fun _ => 0) :
    SameOutcome (fun u u' => u' = fun k => e (u k)) (collectColumns f) (collectColumns f') := by
  have hl : ∀ l : List (Fin m), SameOutcome (fun u u' => u' = u.map e) (l.mapM f) (l.mapM f') := by
    intro l
    induction l with
    | nil => exact rfl
    | cons k l ih =>
      simp only [List.mapM_cons]
      refine SameOutcome.bind (h k) fun u u' _ hu => ?_
      refine SameOutcome.bind ih fun w w' _ hw => ?_
      subst hu hw
      exact rfl
  simp only [collectColumns]
  refine SameOutcome.bind (hl _) fun u u' _ hu => ?_
  subst hu
  simp only [SameOutcome, pure, Except.pure]
  funext k
  simp only [List.getD_eq_getElem?_getD, List.getElem?_map]
  cases u[k.val]? with
  | none => exact he.symm
  | some w => rfl

theorem fitTemplate_permute (b : BuiltinSettings K n m) (hl : LstsqSpec b.lstsq)
    (hp : b.fitter ≠ .powell) (region : Region K n) (old : VectorModel K n m)
    (xs : Fin N → Vec K n) (y : Fin N → Fin m → XVal K) :
    SameOutcome (fun v v' => v' = v.permute σ) (builtinFitTemplate b region old xs y)
      (builtinFitTemplate b (region.permute σ) (old.permute σ) (fun t => permute σ (xs t)) y) := by
  have hiff : (∃ i, (region.permute σ).effectiveRadius b.cubeRadius i = 0) ↔
      ∃ i, region.effectiveRadius b.cubeRadius i = 0 := by
    rw [Region.permute_effectiveRadius fun _ => rfl]
    exact σ.exists_congr_left.trans (by simp [permute])
  simp only [builtinFitTemplate, hiff]
  by_cases h0 : ∃ i, region.effectiveRadius b.cubeRadius i = 0
  · rw [if_pos h0, if_pos h0]
    exact rfl
  · rw [if_neg h0, if_neg h0]
    have hu : ∀ t, (region.permute σ).mapToUnit b.cubeRadius (permute σ (xs t)) =
        permute σ (region.mapToUnit b.cubeRadius (xs t)) := fun t =>
      Region.permute_mapToUnit (fun _ => rfl) region (xs t)
    simp only [hu, VectorModel.permute_move, VectorModel.permute_predict]
    refine SameOutcome.bind (collectColumns_same (fun (u : Vec K (nCols n b.modelType)) =>
      fun k => u (featPerm σ b.modelType k)) _ _
      (fun k => builtinFitter_permute b hl hp _ _) rfl) fun coef coef' _ hc => ?_
    subst hc
    rw [Region.permute_effectiveRadius fun _ => rfl, Region.permute_effectiveCenter fun _ => rfl,
      modelOfCoef_permute]
    cases b.residualize with
    | false => exact rfl
    | true => exact VectorModel.permute_add _ _

/-! ### The components -/

theorem keepCluster_permute {nrm : Vec K n → K} (hn : ∀ v : Vec K n, nrm (permute σ v) = nrm v)
    (dimRoot : K → K) (strict : K) (shape : String) (radius : K) (target : Nat)
    (xs : List (Vec K n)) (is : List Nat) :
    SameOutcome (fun p p' => p' = (p.1.map (permute σ), p.2))
      (keepClusterCenters nrm dimRoot strict shape radius target xs is)
      (keepClusterCenters nrm dimRoot strict shape radius target (xs.map (permute σ)) is) := by
  simp only [keepClusterCenters, List.map_eq_nil_iff]
  split_ifs
  · exact rfl
  · exact rfl
  · have hx : ∀ i : Fin (xs.map (permute σ)).length, (xs.map (permute σ))[i] =
        permute σ xs[Fin.cast (List.length_map (as := xs) (permute σ)) i] := by
      intro i
      simp
    rcases cluster_cast (List.length_map (as := xs) (permute σ))
      (dist := fun i j => nrm fun k => xs[i] k - xs[j] k)
      (dist' := fun i j => nrm fun k => (xs.map (permute σ))[i] k - (xs.map (permute σ))[j] k)
      (e := radius * dimRoot (strict / (target : K))) (e' := radius * dimRoot (strict / (target : K)))
      (fun i j => by
        have := permute_sub (σ := σ) xs[Fin.cast (List.length_map (as := xs) (permute σ)) i]
          xs[Fin.cast (List.length_map (as := xs) (permute σ)) j]
        rw [hx, hx, this, hn]) with
      ⟨c, c', h1, h2, h3⟩ | ⟨h1, h2⟩
    · rw [h1, h2]
      simp only [SameOutcome, ← h3, List.map_map, Function.comp_def, hx, Fin.val_cast]
    · split
      · rename_i c hc
        exact absurd hc (h1 c)
      · exact rfl

theorem solveSubproblem_permute {cr : K → K} {p q p' q' : SubSolver K n} (h1 : SolverOrderFree σ p)
    (h2 : SolverOrderFree σ q) (h3 : SolverOrderFree σ p') (h4 : SolverOrderFree σ q') (retry : Bool)
    (model : ScalarModel K n) (r : Region K n) :
    SameOutcome (fun u u' => u'.x = permute σ u.x ∧ u'.expectedImprovement = u.expectedImprovement ∧
        u'.xUnit = permute σ u.xUnit)
      (solveSubproblem cr p q p' q' retry model r)
      (solveSubproblem cr p q p' q' retry (model.permute σ) (r.permute σ)) := by
  have hcenter : (r.permute σ).mapToUnit cr (r.permute σ).center =
      permute σ (r.mapToUnit cr r.center) := Region.permute_mapToUnit (fun _ => rfl) r r.center
  have hcall : ∀ u v : SubSolver K n, SolverOrderFree σ u → SolverOrderFree σ v → ∀ x,
      SameOutcome (fun a b => b.x = permute σ a.x) (callSolver retry u v model x)
        (callSolver retry u v (model.permute σ) (permute σ x)) := by
    intro u v hu hv x
    have h := hu model x
    simp only [callSolver]
    revert h
    cases u model x <;> cases u (model.permute σ) (permute σ x)
    · rename_i e e'
      intro h
      have h : e = e' := h
      subst h
      split_ifs
      · exact hv model x
      · exact rfl
    · exact fun h => h.elim
    · exact fun h => h.elim
    · exact fun h => h
  simp only [solveSubproblem, hcenter, Region.permute_shape]
  cases hsh : r.shape with
  | sphere =>
    have hraw := hcall _ _ h1 h3 (r.mapToUnit cr r.center)
    revert hraw
    simp only
    cases callSolver retry p p' model (r.mapToUnit cr r.center) <;>
      cases callSolver retry p p' (model.permute σ) (permute σ (r.mapToUnit cr r.center))
    · exact fun h => h
    · exact fun h => h.elim
    · exact fun h => h.elim
    · rename_i a a'
      intro h
      have h : a'.x = permute σ a.x := h
      simp only [h, ScalarModel.permute_predict]
      split_ifs
      · exact ⟨Region.permute_mapFromUnit (fun _ => rfl) r _, rfl, rfl⟩
      · exact ⟨rfl, rfl, rfl⟩
  | cube =>
    have hraw := hcall _ _ h2 h4 (r.mapToUnit cr r.center)
    revert hraw
    simp only
    cases callSolver retry q q' model (r.mapToUnit cr r.center) <;>
      cases callSolver retry q q' (model.permute σ) (permute σ (r.mapToUnit cr r.center))
    · exact fun h => h
    · exact fun h => h.elim
    · exact fun h => h.elim
    · rename_i a a'
      intro h
      have h : a'.x = permute σ a.x := h
      have hx : (fun i => npClip (a'.x i) (-1) 1) = permute σ fun i => npClip (a.x i) (-1) 1 := by
        rw [h]
        rfl
      simp only [hx, ScalarModel.permute_predict]
      split_ifs
      · exact ⟨Region.permute_mapFromUnit (fun _ => rfl) r _, rfl, rfl⟩
      · exact ⟨rfl, rfl, rfl⟩

theorem sampleR_permute (b : BuiltinSettings K n m) (hs : SamplerOrderFree σ b.sampler)
    (it round : Nat) (h : Log K n) (r : Region K n) (k : Nat) (xs : List (Vec K n)) :
    SameOutcome (fun ys ys' => ys' = ys.map (permute σ)) (builtinSampleR b it round h r k xs)
      (builtinSampleR (b.permute σ) it round (h.permute σ) (r.permute σ) k (xs.map (permute σ))) := by
  have hrng : (b.permute σ).rng it round (h.permute σ) = (b.rng it round h).permute σ := by
    simp only [BuiltinSettings.permute, Log.permute_symm]
  have hrows : ∀ x y : Except Err (List (Row K n)),
      SameOutcome (fun l l' => l' = permuteRows σ l) x y →
      SameOutcome (fun ys ys' => ys' = ys.map (permute σ))
        (x >>= fun rows => match allRows rows with
          | some ys => pure ys
          | none => .error .valueError)
        (y >>= fun rows => match allRows rows with
          | some ys => pure ys
          | none => .error .valueError) := by
    intro x y hxy
    refine SameOutcome.bind hxy fun rows rows' _ hrows => ?_
    subst hrows
    rw [allRows_map]
    cases allRows rows <;> exact rfl
  simp only [builtinSampleR, hrng]
  simp only [BuiltinSettings.permute]
  revert hs
  cases b.sampler with
  | randomInterior => exact fun _ => hrows _ _ (interiorSampler_permute _ _ _ r k _)
  | randomHull d => exact fun _ => hrows _ _ (hullSampler_permute _ _ r k _ d)
  | optimalHull o => exact fun hs => hrows _ _ (optimalSampler_permute _ _ r k _ o hs xs)

theorem candidates_permute {nrm : Vec K n → K} (hn : ∀ v : Vec K n, nrm (permute σ v) = nrm v) (f : K)
    (r : Region K n) (h : Log K n) :
    varianceCandidates nrm f (r.permute σ) (h.permute σ) = varianceCandidates nrm f r h :=
  Log.permute_indicesInRegion hn h r.center _

theorem rhoNoise_permute (b : BuiltinSettings K n m) (hb : OrderFreeSettings σ b) (it : Nat)
    (h : Log K n) (xs : List (Vec K n)) (vm old : VectorModel K n m) (r : Region K n) :
    builtinRhoNoise (b.permute σ) it (h.permute σ) (xs.map (permute σ)) (vm.permute σ) (old.permute σ)
      (r.permute σ) = builtinRhoNoise b it h xs vm old r := by
  have hcov : estimateCovariance b.nrm b.noiseDistance b.noiseMinEvals b.covOfOne (r.permute σ)
      (h.permute σ) (b.fvecs h) =
      estimateCovariance b.nrm b.noiseDistance b.noiseMinEvals b.covOfOne r h (b.fvecs h) := by
    simp only [estimateCovariance, candidates_permute hb.nrm]
    rfl
  simp only [builtinRhoNoise]
  rw [show (b.permute σ).fvecs (h.permute σ) = b.fvecs h by
    simp only [BuiltinSettings.permute, Log.permute_symm]]
  rw [show (b.permute σ).draws it (h.permute σ) = b.draws it h by
    simp only [BuiltinSettings.permute, Log.permute_symm]]
  simp only [show (b.permute σ).nrm = b.nrm from rfl,
    show (b.permute σ).noiseDistance = b.noiseDistance from rfl,
    show (b.permute σ).noiseMinEvals = b.noiseMinEvals from rfl,
    show (b.permute σ).covOfOne = b.covOfOne from rfl, hcov]
  congr 1
  funext cov
  cases finiteMat cov with
  | none => rfl
  | some cov =>
    simp only
    have key : ∀ (N' : Nat) (ys : Fin N' → Vec K n) (ds : Mat K m m → Nat → List (Fin N' → Vec K m)),
        simulateRhoNoise b.cubeRadius
          (fun xs y region old => builtinFitTemplate b region old xs fun s k => .fin (y s k))
          (aggregate b.aggregator)
          (solveSubproblem b.cubeRadius b.sphere b.cube b.fallbackSphere b.fallbackCube b.retry)
          ds b.nDraws b.ignoreCorrelation (fun t => permute σ (ys t)) (vm.permute σ) (old.permute σ)
          (r.permute σ) cov =
        simulateRhoNoise b.cubeRadius
          (fun xs y region old => builtinFitTemplate b region old xs fun s k => .fin (y s k))
          (aggregate b.aggregator)
          (solveSubproblem b.cubeRadius b.sphere b.cube b.fallbackSphere b.fallbackCube b.retry)
          ds b.nDraws b.ignoreCorrelation ys vm old r cov := by
      intro N' ys ds
      have hu : ∀ y, (r.permute σ).mapToUnit b.cubeRadius (permute σ y) =
          permute σ (r.mapToUnit b.cubeRadius y) := fun y =>
        Region.permute_mapToUnit (fun _ => rfl) r y
      simp only [simulateRhoNoise]
      refine SameOutcome.eq (SameOutcome.bind (aggregate_permute b.aggregator vm) fun tm tm' _ htm => ?_)
      subst htm
      split_ifs
      · exact rfl
      · refine SameOutcome.refl_eq ?_
        congr 1
        funext draw
        refine SameOutcome.eq ?_
        simp only [simulateOneRho, hu, VectorModel.permute_predict]
        refine SameOutcome.bind (fitTemplate_permute b hb.lstsq hb.fitter r old ys _)
          fun v v' _ hvv => ?_
        subst hvv
        refine SameOutcome.bind (aggregate_permute b.aggregator v) fun sm sm' _ hsm => ?_
        subst hsm
        refine SameOutcome.bind (solveSubproblem_permute hb.sphere hb.cube hb.fallbackSphere
          hb.fallbackCube b.retry sm r) fun u u' _ hu' => ?_
        have hcenter : (r.permute σ).mapToUnit b.cubeRadius (r.permute σ).center =
          permute σ (r.mapToUnit b.cubeRadius r.center) := hu r.center
        simp only [hcenter, hu'.2.1, hu'.2.2, ScalarModel.permute_predict]
        exact rfl
    have gen : ∀ (N' : Nat) (hN : N' = xs.length) (ys : Fin N' → Vec K n),
        (∀ t, ys t = permute σ xs[Fin.cast hN t]) →
        simulateRhoNoise b.cubeRadius
          (fun xs y region old => builtinFitTemplate b region old xs fun s k => .fin (y s k))
          (aggregate b.aggregator)
          (solveSubproblem b.cubeRadius b.sphere b.cube b.fallbackSphere b.fallbackCube b.retry)
          (b.draws it h N') b.nDraws b.ignoreCorrelation ys (vm.permute σ) (old.permute σ)
          (r.permute σ) cov =
        simulateRhoNoise b.cubeRadius
          (fun xs y region old => builtinFitTemplate b region old xs fun s k => .fin (y s k))
          (aggregate b.aggregator)
          (solveSubproblem b.cubeRadius b.sphere b.cube b.fallbackSphere b.fallbackCube b.retry)
          (b.draws it h xs.length) b.nDraws b.ignoreCorrelation (fun t => xs[t]) vm old r cov := by
      intro N' hN ys hys
      subst hN
      rw [show ys = fun t => permute σ xs[t] from funext hys]
      exact key _ _ _
    exact gen _ (List.length_map (as := xs) (permute σ)) _ fun t => by simp

/-- The built in components treat all parameters alike. -/
theorem builtin_order [FloorRing K] (b : BuiltinSettings K n m) (hb : OrderFreeSettings σ b)
    (noisy : Bool) :
    OrderRespected σ noisy (fun v v' => v' = v.permute σ) (fun u u' => u' = u.permute σ)
      (builtinComponents b) (builtinComponents (b.permute σ)) where
  nrm := hb.nrm
  cubeRadius _ := rfl
  oracle k x := by
    simp only [builtinComponents, BuiltinSettings.permute, permute_symm]
  filter t t' h size k xs is ht := by
    simp only [builtinComponents, builtinFilter, BuiltinSettings.permute, ht.x, ht.index,
      ht.trustregion, show (t.trustregion.permute σ).radius = t.trustregion.radius from rfl]
    cases b.filter with
    | discardAll => exact rfl
    | keepAll => exact rfl
    | clustering st shape => exact keepCluster_permute hb.nrm _ _ _ _ _ _ _
    | dropExcess f =>
      simp only [dropExcess, List.length_map]
      split_ifs
      · exact dropWorst_permute hb.nrm _ _ _ _ _ _
      · exact rfl
  sample it round h r k xs := sampleR_permute b hb.sampler it round h r k xs
  fit h is r vm vm' hvm := by
    subst hvm
    have hxs : (fun t : Fin is.length => ((h.permute σ).xs[is[t]]?).getD (r.permute σ).center) =
        fun t => permute σ ((h.xs[is[t]]?).getD r.center) := by
      funext t
      simp only [Log.permute_xs, List.getElem?_map]
      cases h.xs[is[t]]? <;> rfl
    have hdata : (b.permute σ).data (h.permute σ) = b.data h := by
      simp only [BuiltinSettings.permute, Log.permute_symm]
    simp only [builtinComponents, builtinFit, hxs, hdata]
    exact fitTemplate_permute b hb.lstsq hb.fitter r vm _ _
  aggregate vm vm' hvm := by
    subst hvm
    exact aggregate_permute b.aggregator vm
  solve sm sm' r h := by
    subst h
    have := solveSubproblem_permute (cr := b.cubeRadius) hb.sphere hb.cube hb.fallbackSphere
      hb.fallbackCube b.retry sm r
    simp only [builtinComponents, builtinSolve]
    revert this
    simp only [BuiltinSettings.permute]
    cases solveSubproblem b.cubeRadius b.sphere b.cube b.fallbackSphere b.fallbackCube b.retry sm r <;>
      cases solveSubproblem b.cubeRadius b.sphere b.cube b.fallbackSphere b.fallbackCube b.retry
        (sm.permute σ) (r.permute σ)
    · exact fun h => h
    · exact fun h => h
    · exact fun h => h
    · exact fun h => ⟨h.1, h.2.1⟩
  initModel h r := by
    have : (b.permute σ).start (h.permute σ) = b.start h := by
      simp only [BuiltinSettings.permute, Log.permute_symm]
    simp only [builtinComponents, builtinInit, this]
    rfl
  gradNorm sm sm' h := by
    subst h
    exact hb.nrm _
  noiseSigma _ h r := by
    simp only [builtinComponents, builtinNoiseSigma]
    congr 1
    simp only [estimateVariance, BuiltinSettings.permute, candidates_permute hb.nrm]
    rfl
  rhoNoise _ it h xs vm vm' old old' r hvm hold := by
    subst hvm hold
    exact rhoNoise_permute b hb it h xs vm old r

end Tranquilo
