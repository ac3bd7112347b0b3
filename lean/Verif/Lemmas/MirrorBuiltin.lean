import Verif.Lemmas.MirrorFeatures

/-!
# Models, fits and the components of a run in mirrored parameters
-/

namespace Tranquilo

variable {K : Type} [Field K] [LinearOrder K] [IsStrictOrderedRing K] {n m N : Nat}
variable {σ : Fin n → Bool}

/-! ### Models -/

theorem VectorModel.mirror_predict (v : VectorModel K n m) (x : Vec K n) :
    (v.mirror σ).predict (Tranquilo.mirror σ x) = v.predict x := by
  funext k
  have h1 : dot ((v.mirror σ).linearTerms k) (Tranquilo.mirror σ x) = dot (v.linearTerms k) x :=
    dot_mirror (σ := σ) (v.linearTerms k) x
  simp only [VectorModel.predict, h1]
  simp only [VectorModel.mirror]
  cases v.squareTerms with
  | none => rfl
  | some h => simp only [Option.map_some, halfQuad_mirror]

theorem ScalarModel.mirror_predict (v : ScalarModel K n) (x : Vec K n) :
    (v.mirror σ).predict (Tranquilo.mirror σ x) = v.predict x := by
  have h1 : dot (Tranquilo.mirror σ x) (v.mirror σ).linearTerms = dot x v.linearTerms :=
    dot_mirror (σ := σ) x v.linearTerms
  simp only [ScalarModel.predict, h1]
  simp only [ScalarModel.mirror]
  cases v.squareTerms with
  | none => rfl
  | some h => simp only [Option.map_some, halfQuad_mirror]

theorem aggregateWith_mirror (v : VectorModel K n m) (a : K) (g g' : Vec K n) (h h' : Mat K n n)
    (hg : ∀ i, g' i = sgn σ i * g i) (hh : ∀ i j, h' i j = sgn σ i * sgn σ j * h i j) :
    aggregateWith (v.mirror σ) (a, g', h') = (aggregateWith v (a, g, h)).mirror σ := by
  simp only [aggregateWith, VectorModel.mirror, ScalarModel.mirror, ScalarModel.mk.injEq, true_and, and_true,
    Option.map_some, Option.some.injEq]
  refine ⟨funext fun i => ?_, funext fun i => funext fun j => ?_⟩
  · rw [hg, mirror_apply]
  · rw [hh, mirror_hess]

theorem aggregate_mirror (name : String) (v : VectorModel K n m) :
    SameOutcome (fun u u' => u' = u.mirror σ) (aggregate name v) (aggregate name (v.mirror σ)) := by
  have hl : ∀ k i, (v.mirror σ).linearTerms k i = sgn σ i * v.linearTerms k i := fun k i => mirror_apply _ i
  have hi : (v.mirror σ).intercepts = v.intercepts := rfl
  have hq : (v.mirror σ).squareTerms = v.squareTerms.map fun h k i j => sgn σ i * sgn σ j * h k i j := by
    simp only [VectorModel.mirror, mirror_hess]
  simp only [aggregate]
  by_cases h1 : name = "identity"
  · rw [if_pos h1, if_pos h1]
    simp only [aggregatorIdentity]
    by_cases hm : m = 1
    · rw [dif_pos hm, dif_pos hm]
      refine aggregateWith_mirror v _ _ _ _ _ (fun i => hl _ i) fun i j => ?_
      rw [hq]
      cases v.squareTerms with
      | none => exact (mul_zero _).symm
      | some h => rfl
    · rw [dif_neg hm, dif_neg hm]
      exact rfl
  · rw [if_neg h1, if_neg h1]
    by_cases h2 : name = "sum"
    · rw [if_pos h2, if_pos h2]
      simp only [aggregatorSum, hq, hi]
      cases v.squareTerms with
      | none => exact rfl
      | some h =>
        refine aggregateWith_mirror v _ _ _ _ _ (fun i => ?_) fun i j => ?_
        · simp only [hl, Finset.mul_sum]
        · simp only [Finset.mul_sum]
    · rw [if_neg h2, if_neg h2]
      by_cases h3 : name = "information_equality_linear"
      · rw [if_pos h3, if_pos h3]
        refine aggregateWith_mirror v _ _ _ _ _ (fun i => ?_) fun i j => ?_
        · simp only [hl, Finset.mul_sum]
        · have : ∑ k, sgn σ i * v.linearTerms k i * (sgn σ j * v.linearTerms k j) =
              sgn σ i * sgn σ j * ∑ k, v.linearTerms k i * v.linearTerms k j := by
            rw [Finset.mul_sum]
            exact Finset.sum_congr rfl fun k _ => by ring
          simp only [hl, this]
          ring
      · rw [if_neg h3, if_neg h3]
        by_cases h4 : name = "least_squares_linear"
        · rw [if_pos h4, if_pos h4]
          refine aggregateWith_mirror v _ _ _ _ _ (fun i => ?_) fun i j => ?_
          · have : ∑ k, sgn σ i * v.linearTerms k i * v.intercepts k =
                sgn σ i * ∑ k, v.linearTerms k i * v.intercepts k := by
              rw [Finset.mul_sum]
              exact Finset.sum_congr rfl fun k _ => by ring
            simp only [hl, hi, this]
            ring
          · simp only [hl, Finset.mul_sum]
            exact Finset.sum_congr rfl fun k _ => by ring
        · rw [if_neg h4, if_neg h4]
          exact rfl

theorem VectorModel.mirror_scaleBy (v : VectorModel K n m) (f : Vec K n) :
    (v.mirror σ).scaleBy f = (v.scaleBy f).mirror σ := by
  simp only [VectorModel.scaleBy, VectorModel.mirror, Option.map_map, VectorModel.mk.injEq, true_and, and_true]
  refine ⟨?_, ?_⟩
  · funext k i
    simp only [mirror_apply]
    ring
  · cases v.squareTerms with
    | none => rfl
    | some h =>
      simp only [Option.map_some, Function.comp_def, Option.some.injEq]
      funext k i j
      split_ifs <;> ring

theorem VectorModel.mirror_shiftBy (v : VectorModel K n m) (f : Vec K n) :
    (v.mirror σ).shiftBy (Tranquilo.mirror σ f) = (v.shiftBy f).mirror σ := by
  simp only [VectorModel.shiftBy, VectorModel.mirror_predict]
  simp only [VectorModel.mirror, VectorModel.mk.injEq, true_and]
  refine ⟨?_, ?_⟩
  · cases v.squareTerms with
    | none => rfl
    | some h =>
      funext k j
      simp only [Option.map_some, mirror_hess, mirror_apply]
      rw [mul_add, Finset.mul_sum]
      congr 1
      refine Finset.sum_congr rfl fun i _ => ?_
      linear_combination (sgn σ j * f i * h k i j) * sgn_mul_self (K := K) (σ := σ) i
  · funext i
    simp only [mirror_apply]
    ring

theorem VectorModel.mirror_move (cr : K → K) (v : VectorModel K n m) (new : Region K n) :
    (v.mirror σ).move cr (new.mirror σ) = (v.move cr new).mirror σ := by
  simp only [VectorModel.move]
  rw [Region.mirror_effectiveRadius fun _ => rfl, Region.mirror_effectiveCenter fun _ => rfl,
    ← VectorModel.mirror_scaleBy, ← VectorModel.mirror_shiftBy, ← VectorModel.mirror_scaleBy, ← mirror_sub]
  rfl

theorem allClose_mirror (a b : Vec K n) : allClose (mirror σ a) (mirror σ b) = allClose a b := by
  unfold allClose
  refine decide_eq_decide.2 (forall_congr' fun i => ?_)
  have := congrFun (mirror_sub (σ := σ) a b) i
  rw [this, mirror_abs, mirror_abs]

theorem VectorModel.mirror_add (v w : VectorModel K n m) :
    SameOutcome (fun u u' => u' = u.mirror σ) (v.add w) ((v.mirror σ).add (w.mirror σ)) := by
  simp only [VectorModel.add]
  rw [show (v.mirror σ).shift = Tranquilo.mirror σ v.shift from rfl,
    show (w.mirror σ).shift = Tranquilo.mirror σ w.shift from rfl,
    show (v.mirror σ).scale = v.scale from rfl,
    show (w.mirror σ).scale = w.scale from rfl, allClose_mirror]
  split_ifs
  · exact rfl
  · exact rfl
  · have hlin : ∀ k i, Tranquilo.mirror σ (v.linearTerms k) i + Tranquilo.mirror σ (w.linearTerms k) i =
        Tranquilo.mirror σ (fun i => v.linearTerms k i + w.linearTerms k i) i := by
      intro k i
      simp only [mirror_apply]
      ring
    simp only [VectorModel.mirror, hlin]
    cases v.squareTerms with
    | none => exact rfl
    | some g =>
      cases w.squareTerms with
      | none => exact rfl
      | some h =>
        simp only [Option.map_some, addSquare, SameOutcome, pure, Except.pure, bind, Except.bind,
          VectorModel.mk.injEq, true_and, and_true, Option.some.injEq]
        funext k i j
        split_ifs <;> ring

theorem fitTemplate_mirror (b : BuiltinSettings K n m) (hl : LstsqSpec b.lstsq)
    (hp : b.fitter ≠ .powell) (region : Region K n)
    (hr : region.Proper b.cubeRadius) (old : VectorModel K n m)
    (xs : Fin N → Vec K n) (y : Fin N → Fin m → XVal K) :
    SameOutcome (fun v v' => v' = v.mirror σ) (builtinFitTemplate b region old xs y)
      (builtinFitTemplate b (region.mirror σ) (old.mirror σ) (fun t => mirror σ (xs t)) y) := by
  have hiff : (∃ i, (region.mirror σ).effectiveRadius b.cubeRadius i = 0) ↔
      ∃ i, region.effectiveRadius b.cubeRadius i = 0 := by
    rw [Region.mirror_effectiveRadius fun _ => rfl]
  simp only [builtinFitTemplate, hiff]
  by_cases h0 : ∃ i, region.effectiveRadius b.cubeRadius i = 0
  · rw [if_pos h0, if_pos h0]
    exact rfl
  · rw [if_neg h0, if_neg h0]
    have hu : ∀ t, (region.mirror σ).mapToUnit b.cubeRadius (mirror σ (xs t)) =
        mirror σ (region.mapToUnit b.cubeRadius (xs t)) := fun t =>
      Region.mirror_mapToUnit (fun _ => rfl) region hr (xs t)
    simp only [hu, VectorModel.mirror_move, VectorModel.mirror_predict]
    refine SameOutcome.bind (collectColumns_same (fun (u : Vec K (nCols n b.modelType)) =>
      fun k => featSign σ b.modelType k * u k) _ _
      (fun k => builtinFitter_mirror b hl hp _ _) (funext fun _ => mul_zero _)) fun coef coef' _ hc => ?_
    subst hc
    rw [Region.mirror_effectiveRadius fun _ => rfl, Region.mirror_effectiveCenter fun _ => rfl,
      modelOfCoef_mirror]
    cases b.residualize with
    | false => exact rfl
    | true => exact VectorModel.mirror_add _ _

/-! ### The components -/

theorem keepCluster_mirror {nrm : Vec K n → K} (hn : ∀ v : Vec K n, nrm (mirror σ v) = nrm v)
    (dimRoot : K → K) (strict : K) (shape : String) (radius : K) (target : Nat)
    (xs : List (Vec K n)) (is : List Nat) :
    SameOutcome (fun p p' => p' = (p.1.map (mirror σ), p.2))
      (keepClusterCenters nrm dimRoot strict shape radius target xs is)
      (keepClusterCenters nrm dimRoot strict shape radius target (xs.map (mirror σ)) is) := by
  simp only [keepClusterCenters, List.map_eq_nil_iff]
  split_ifs
  · exact rfl
  · exact rfl
  · have hx : ∀ i : Fin (xs.map (mirror σ)).length, (xs.map (mirror σ))[i] =
        mirror σ xs[Fin.cast (List.length_map (as := xs) (mirror σ)) i] := by
      intro i
      simp
    rcases cluster_cast (List.length_map (as := xs) (mirror σ))
      (dist := fun i j => nrm fun k => xs[i] k - xs[j] k)
      (dist' := fun i j => nrm fun k => (xs.map (mirror σ))[i] k - (xs.map (mirror σ))[j] k)
      (e := radius * dimRoot (strict / (target : K))) (e' := radius * dimRoot (strict / (target : K)))
      (fun i j => by
        have := mirror_sub (σ := σ) xs[Fin.cast (List.length_map (as := xs) (mirror σ)) i]
          xs[Fin.cast (List.length_map (as := xs) (mirror σ)) j]
        rw [hx, hx, this, hn]) with
      ⟨c, c', h1, h2, h3⟩ | ⟨h1, h2⟩
    · rw [h1, h2]
      simp only [SameOutcome, ← h3, List.map_map, Function.comp_def, hx, Fin.val_cast]
    · split
      · rename_i c hc
        exact absurd hc (h1 c)
      · exact rfl

theorem solveSubproblem_mirror {cr : K → K} {p q p' q' : SubSolver K n} (h1 : SolverMirrorFree σ p)
    (h2 : SolverMirrorFree σ q) (h3 : SolverMirrorFree σ p') (h4 : SolverMirrorFree σ q') (retry : Bool)
    (model : ScalarModel K n) (r : Region K n) (hr : r.Proper cr) :
    SameOutcome (fun u u' => u'.x = mirror σ u.x ∧ u'.expectedImprovement = u.expectedImprovement ∧
        u'.xUnit = mirror σ u.xUnit)
      (solveSubproblem cr p q p' q' retry model r)
      (solveSubproblem cr p q p' q' retry (model.mirror σ) (r.mirror σ)) := by
  have hcenter : (r.mirror σ).mapToUnit cr (r.mirror σ).center =
      mirror σ (r.mapToUnit cr r.center) := Region.mirror_mapToUnit (fun _ => rfl) r hr r.center
  have hcall : ∀ u v : SubSolver K n, SolverMirrorFree σ u → SolverMirrorFree σ v → ∀ x,
      SameOutcome (fun a b => b.x = mirror σ a.x) (callSolver retry u v model x)
        (callSolver retry u v (model.mirror σ) (mirror σ x)) := by
    intro u v hu hv x
    have h := hu model x
    simp only [callSolver]
    revert h
    cases u model x <;> cases u (model.mirror σ) (mirror σ x)
    · rename_i e e'
      intro h
      have h : e = e' := h
      subst h
      split_ifs
      · exact hv model x
      · exact rfl
    · exact fun h => h.elim
    · exact fun h => h.elim
    · exact fun h => h
  simp only [solveSubproblem, hcenter, Region.mirror_shape]
  cases hsh : r.shape with
  | sphere =>
    have hraw := hcall _ _ h1 h3 (r.mapToUnit cr r.center)
    revert hraw
    simp only
    cases callSolver retry p p' model (r.mapToUnit cr r.center) <;>
      cases callSolver retry p p' (model.mirror σ) (mirror σ (r.mapToUnit cr r.center))
    · exact fun h => h
    · exact fun h => h.elim
    · exact fun h => h.elim
    · rename_i a a'
      intro h
      have h : a'.x = mirror σ a.x := h
      simp only [h, ScalarModel.mirror_predict]
      split_ifs
      · exact ⟨Region.mirror_mapFromUnit (fun _ => rfl) r hr _, rfl, rfl⟩
      · exact ⟨rfl, rfl, rfl⟩
  | cube =>
    have hraw := hcall _ _ h2 h4 (r.mapToUnit cr r.center)
    revert hraw
    simp only
    cases callSolver retry q q' model (r.mapToUnit cr r.center) <;>
      cases callSolver retry q q' (model.mirror σ) (mirror σ (r.mapToUnit cr r.center))
    · exact fun h => h
    · exact fun h => h.elim
    · exact fun h => h.elim
    · rename_i a a'
      intro h
      have h : a'.x = mirror σ a.x := h
      have hx : (fun i => npClip (a'.x i) (-1) 1) = mirror σ fun i => npClip (a.x i) (-1) 1 := by
        rw [h]
        funext i
        simp only [mirror]
        split_ifs
        · rw [show (-1 : K) = -1 from rfl, ← npClip_neg _ _ _ (by linarith [zero_lt_one (α := K)]), neg_neg]
        · rfl
      simp only [hx, ScalarModel.mirror_predict]
      split_ifs
      · exact ⟨Region.mirror_mapFromUnit (fun _ => rfl) r hr _, rfl, rfl⟩
      · exact ⟨rfl, rfl, rfl⟩

theorem sampleR_mirror (b : BuiltinSettings K n m) (hs : SamplerMirrorFree σ b.sampler)
    (it round : Nat) (h : Log K n) (r : Region K n) (hr : r.Proper b.cubeRadius) (k : Nat) (xs : List (Vec K n)) :
    SameOutcome (fun ys ys' => ys' = ys.map (mirror σ)) (builtinSampleR b it round h r k xs)
      (builtinSampleR (b.mirror σ) it round (h.mirror σ) (r.mirror σ) k (xs.map (mirror σ))) := by
  have hrng : (b.mirror σ).rng it round (h.mirror σ) = (b.rng it round h).mirror σ := by
    simp only [BuiltinSettings.mirror, Log.mirror_mirror]
  have hrows : ∀ x y : Except Err (List (Row K n)),
      SameOutcome (fun l l' => l' = mirrorRows σ l) x y →
      SameOutcome (fun ys ys' => ys' = ys.map (mirror σ))
        (x >>= fun rows => match allRows rows with
          | some ys => pure ys
          | none => .error .valueError)
        (y >>= fun rows => match allRows rows with
          | some ys => pure ys
          | none => .error .valueError) := by
    intro x y hxy
    refine SameOutcome.bind hxy fun rows rows' _ hrows => ?_
    subst hrows
    rw [allRows_map]
    cases allRows rows <;> exact rfl
  simp only [builtinSampleR, hrng]
  simp only [BuiltinSettings.mirror]
  revert hs
  cases b.sampler with
  | randomInterior => exact fun _ => hrows _ _ (interiorSampler_mirror _ _ _ r hr k _)
  | randomHull d => exact fun _ => hrows _ _ (hullSampler_mirror _ _ r hr k _ d)
  | optimalHull o => exact fun hs => hrows _ _ (optimalSampler_mirror _ _ r hr k _ o hs xs)

theorem candidates_mirror {nrm : Vec K n → K} (hn : ∀ v : Vec K n, nrm (mirror σ v) = nrm v) (f : K)
    (r : Region K n) (h : Log K n) :
    varianceCandidates nrm f (r.mirror σ) (h.mirror σ) = varianceCandidates nrm f r h :=
  Log.mirror_indicesInRegion hn h r.center _

theorem rhoNoise_mirror (b : BuiltinSettings K n m) (hb : MirrorFreeSettings σ b) (it : Nat)
    (h : Log K n) (xs : List (Vec K n)) (vm old : VectorModel K n m) (r : Region K n)
    (hr : r.Proper b.cubeRadius) :
    builtinRhoNoise (b.mirror σ) it (h.mirror σ) (xs.map (mirror σ)) (vm.mirror σ) (old.mirror σ)
      (r.mirror σ) = builtinRhoNoise b it h xs vm old r := by
  have hcov : estimateCovariance b.nrm b.noiseDistance b.noiseMinEvals b.covOfOne (r.mirror σ)
      (h.mirror σ) (b.fvecs h) =
      estimateCovariance b.nrm b.noiseDistance b.noiseMinEvals b.covOfOne r h (b.fvecs h) := by
    simp only [estimateCovariance, candidates_mirror hb.nrm]
    rfl
  simp only [builtinRhoNoise]
  rw [show (b.mirror σ).fvecs (h.mirror σ) = b.fvecs h by
    simp only [BuiltinSettings.mirror, Log.mirror_mirror]]
  rw [show (b.mirror σ).draws it (h.mirror σ) = b.draws it h by
    simp only [BuiltinSettings.mirror, Log.mirror_mirror]]
  simp only [show (b.mirror σ).nrm = b.nrm from rfl,
    show (b.mirror σ).noiseDistance = b.noiseDistance from rfl,
    show (b.mirror σ).noiseMinEvals = b.noiseMinEvals from rfl,
    show (b.mirror σ).covOfOne = b.covOfOne from rfl, hcov]
  congr 1
  funext cov
  cases finiteMat cov with
  | none => rfl
  | some cov =>
    simp only
    have key : ∀ (N' : Nat) (ys : Fin N' → Vec K n) (ds : Mat K m m → Nat → List (Fin N' → Vec K m)),
        simulateRhoNoise b.cubeRadius
          (fun xs y region old => builtinFitTemplate b region old xs fun s k => .fin (y s k))
          (aggregate b.aggregator)
          (solveSubproblem b.cubeRadius b.sphere b.cube b.fallbackSphere b.fallbackCube b.retry)
          ds b.nDraws b.ignoreCorrelation (fun t => mirror σ (ys t)) (vm.mirror σ) (old.mirror σ)
          (r.mirror σ) cov =
        simulateRhoNoise b.cubeRadius
          (fun xs y region old => builtinFitTemplate b region old xs fun s k => .fin (y s k))
          (aggregate b.aggregator)
          (solveSubproblem b.cubeRadius b.sphere b.cube b.fallbackSphere b.fallbackCube b.retry)
          ds b.nDraws b.ignoreCorrelation ys vm old r cov := by
      intro N' ys ds
      have hu : ∀ y, (r.mirror σ).mapToUnit b.cubeRadius (mirror σ y) =
          mirror σ (r.mapToUnit b.cubeRadius y) := fun y =>
        Region.mirror_mapToUnit (fun _ => rfl) r hr y
      simp only [simulateRhoNoise]
      refine SameOutcome.eq (SameOutcome.bind (aggregate_mirror b.aggregator vm) fun tm tm' _ htm => ?_)
      subst htm
      split_ifs
      · exact rfl
      · refine SameOutcome.refl_eq ?_
        congr 1
        funext draw
        refine SameOutcome.eq ?_
        simp only [simulateOneRho, hu, VectorModel.mirror_predict]
        refine SameOutcome.bind (fitTemplate_mirror b hb.lstsq hb.fitter r hr old ys _)
          fun v v' _ hvv => ?_
        subst hvv
        refine SameOutcome.bind (aggregate_mirror b.aggregator v) fun sm sm' _ hsm => ?_
        subst hsm
        refine SameOutcome.bind (solveSubproblem_mirror hb.sphere hb.cube hb.fallbackSphere
          hb.fallbackCube b.retry sm r hr) fun u u' _ hu' => ?_
        have hcenter : (r.mirror σ).mapToUnit b.cubeRadius (r.mirror σ).center =
          mirror σ (r.mapToUnit b.cubeRadius r.center) := hu r.center
        simp only [hcenter, hu'.2.1, hu'.2.2, ScalarModel.mirror_predict]
        exact rfl
    have gen : ∀ (N' : Nat) (hN : N' = xs.length) (ys : Fin N' → Vec K n),
        (∀ t, ys t = mirror σ xs[Fin.cast hN t]) →
        simulateRhoNoise b.cubeRadius
          (fun xs y region old => builtinFitTemplate b region old xs fun s k => .fin (y s k))
          (aggregate b.aggregator)
          (solveSubproblem b.cubeRadius b.sphere b.cube b.fallbackSphere b.fallbackCube b.retry)
          (b.draws it h N') b.nDraws b.ignoreCorrelation ys (vm.mirror σ) (old.mirror σ)
          (r.mirror σ) cov =
        simulateRhoNoise b.cubeRadius
          (fun xs y region old => builtinFitTemplate b region old xs fun s k => .fin (y s k))
          (aggregate b.aggregator)
          (solveSubproblem b.cubeRadius b.sphere b.cube b.fallbackSphere b.fallbackCube b.retry)
          (b.draws it h xs.length) b.nDraws b.ignoreCorrelation (fun t => xs[t]) vm old r cov := by
      intro N' hN ys hys
      subst hN
      rw [show ys = fun t => mirror σ xs[t] from funext hys]
      exact key _ _ _
    exact gen _ (List.length_map (as := xs) (mirror σ)) _ fun t => by simp

/-- For the built in components the directions of the parameters do not matter. -/
theorem builtin_mirror [FloorRing K] (b : BuiltinSettings K n m) (hb : MirrorFreeSettings σ b)
    (noisy : Bool) :
    MirrorRespected σ noisy (fun v v' => v' = v.mirror σ) (fun u u' => u' = u.mirror σ)
      (builtinComponents b) (builtinComponents (b.mirror σ)) where
  nrm := hb.nrm
  cubeRadius _ := rfl
  oracle k x := by
    simp only [builtinComponents, BuiltinSettings.mirror, mirror_mirror]
  filter t t' h size k xs is ht _ := by
    simp only [builtinComponents, builtinFilter, BuiltinSettings.mirror, ht.x, ht.index,
      ht.trustregion, show (t.trustregion.mirror σ).radius = t.trustregion.radius from rfl]
    cases b.filter with
    | discardAll => exact rfl
    | keepAll => exact rfl
    | clustering st shape => exact keepCluster_mirror hb.nrm _ _ _ _ _ _ _
    | dropExcess f =>
      simp only [dropExcess, List.length_map]
      split_ifs
      · exact dropWorst_mirror hb.nrm _ _ _ _ _ _
      · exact rfl
  sample it round h r k xs hr := sampleR_mirror b hb.sampler it round h r hr k xs
  fit h is r vm vm' hr hvm := by
    subst hvm
    have hxs : (fun t : Fin is.length => ((h.mirror σ).xs[is[t]]?).getD (r.mirror σ).center) =
        fun t => mirror σ ((h.xs[is[t]]?).getD r.center) := by
      funext t
      simp only [Log.mirror_xs, List.getElem?_map]
      cases h.xs[is[t]]? <;> rfl
    have hdata : (b.mirror σ).data (h.mirror σ) = b.data h := by
      simp only [BuiltinSettings.mirror, Log.mirror_mirror]
    simp only [builtinComponents, builtinFit, hxs, hdata]
    exact fitTemplate_mirror b hb.lstsq hb.fitter r hr vm _ _
  aggregate vm vm' hvm := by
    subst hvm
    exact aggregate_mirror b.aggregator vm
  solve sm sm' r hr h := by
    subst h
    have := solveSubproblem_mirror (cr := b.cubeRadius) hb.sphere hb.cube hb.fallbackSphere
      hb.fallbackCube b.retry sm r hr
    simp only [builtinComponents, builtinSolve]
    revert this
    simp only [BuiltinSettings.mirror]
    cases solveSubproblem b.cubeRadius b.sphere b.cube b.fallbackSphere b.fallbackCube b.retry sm r <;>
      cases solveSubproblem b.cubeRadius b.sphere b.cube b.fallbackSphere b.fallbackCube b.retry
        (sm.mirror σ) (r.mirror σ)
    · exact fun h => h
    · exact fun h => h
    · exact fun h => h
    · exact fun h => ⟨h.1, h.2.1⟩
  initModel h r _ := by
    have : (b.mirror σ).start (h.mirror σ) = b.start h := by
      simp only [BuiltinSettings.mirror, Log.mirror_mirror]
    simp only [builtinComponents, builtinInit, this]
    simp only [VectorModel.mirror, VectorModel.mk.injEq, true_and, Option.map_some, neg_zero, ite_self]
    refine ⟨?_, rfl, rfl⟩
    funext k i
    simp [mirror]
  gradNorm sm sm' h := by
    subst h
    exact hb.nrm _
  noiseSigma _ h r _ := by
    simp only [builtinComponents, builtinNoiseSigma]
    congr 1
    simp only [estimateVariance, BuiltinSettings.mirror, candidates_mirror hb.nrm]
    rfl
  rhoNoise _ it h xs vm vm' old old' r hr hvm hold := by
    subst hvm hold
    exact rhoNoise_mirror b hb it h xs vm old r hr

end Tranquilo
