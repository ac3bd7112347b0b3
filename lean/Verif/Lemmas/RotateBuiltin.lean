import Verif.Lemmas.RotateSamplers

/-!
# Models, fits and the components of a run in other coordinates
-/

namespace Tranquilo

variable {K : Type} [Field K] [LinearOrder K] [IsStrictOrderedRing K] {n m N : Nat}
variable {R : Mat K n n}

/-! ### Models -/

theorem rotate_sum {ι : Type} (t : Finset ι) (f : ι → Vec K n) (i : Fin n) :
    ∑ k ∈ t, rotate R (f k) i = rotate R (fun j => ∑ k ∈ t, f k j) i := by
  simp only [rotate, Finset.mul_sum]
  exact Finset.sum_comm

theorem rotateHess_sum {ι : Type} (t : Finset ι) (f : ι → Mat K n n) (i j : Fin n) :
    ∑ k ∈ t, rotateHess R (f k) i j = rotateHess R (fun a b => ∑ k ∈ t, f k a b) i j := by
  simp only [rotateHess, Finset.mul_sum, Finset.sum_mul]
  rw [Finset.sum_comm]
  exact Finset.sum_congr rfl fun a _ => Finset.sum_comm

theorem rotateHess_mul (c : K) (h : Mat K n n) (i j : Fin n) :
    c * rotateHess R h i j = rotateHess R (fun a b => c * h a b) i j := by
  simp only [rotateHess, Finset.mul_sum]
  exact Finset.sum_congr rfl fun a _ => Finset.sum_congr rfl fun b _ => by ring

theorem rotateHess_outer (u v : Vec K n) (i j : Fin n) :
    rotate R u i * rotate R v j = rotateHess R (fun a b => u a * v b) i j := by
  simp only [rotate, rotateHess, Finset.sum_mul, Finset.mul_sum]
  rw [Finset.sum_comm]
  exact Finset.sum_congr rfl fun a _ => Finset.sum_congr rfl fun b _ => by ring

theorem rotateHess_add (h k : Mat K n n) (i j : Fin n) :
    rotateHess R h i j + rotateHess R k i j = rotateHess R (fun a b => h a b + k a b) i j := by
  simp only [rotateHess, ← Finset.sum_add_distrib]
  exact Finset.sum_congr rfl fun a _ => Finset.sum_congr rfl fun b _ => by ring

section

variable (hR : OrthonormalColumns R)
include hR

theorem vecMat_rotate (h : Mat K n n) (x : Vec K n) :
    (fun j => ∑ i, rotate R x i * rotateHess R h i j) = rotate R fun b => ∑ a, x a * h a b := by
  have h1 := matVec_rotate hR (fun a b => h b a) x
  have h2 : ∀ i j, rotateHess R (fun a b => h b a) i j = rotateHess R h j i := by
    intro i j
    simp only [rotateHess]
    rw [Finset.sum_comm]
    exact Finset.sum_congr rfl fun a _ => Finset.sum_congr rfl fun b _ => by ring
  simp only [h2] at h1
  simp only [mul_comm (rotate R x _), mul_comm (x _)]
  exact h1

theorem quadForm_rotate (h : Mat K n n) (x : Vec K n) : quadForm (rotateHess R h) (rotate R x) = quadForm h x := by
  simp only [quadForm]
  have := fun j => congrFun (vecMat_rotate hR h x) j
  simp only [this]
  exact rotate_inner hR _ _

theorem halfQuad_rotate (h : Mat K n n) (x : Vec K n) : halfQuad (rotateHess R h) (rotate R x) = halfQuad h x :=
  congrArg (fun a => a / 2) (quadForm_rotate hR h x)

theorem VectorModel.rotate_predict (v : VectorModel K n m) (x : Vec K n) :
    (v.rotate R).predict (Tranquilo.rotate R x) = v.predict x := by
  funext k
  have h1 : dot ((v.rotate R).linearTerms k) (Tranquilo.rotate R x) = dot (v.linearTerms k) x :=
    dot_rotate hR (v.linearTerms k) x
  simp only [VectorModel.predict, h1]
  simp only [VectorModel.rotate]
  cases v.squareTerms with
  | none => rfl
  | some h => simp only [Option.map_some, halfQuad_rotate hR]

theorem ScalarModel.rotate_predict (v : ScalarModel K n) (x : Vec K n) :
    (v.rotate R).predict (Tranquilo.rotate R x) = v.predict x := by
  have h1 : dot (Tranquilo.rotate R x) (v.rotate R).linearTerms = dot x v.linearTerms :=
    dot_rotate hR x v.linearTerms
  simp only [ScalarModel.predict, h1]
  simp only [ScalarModel.rotate]
  cases v.squareTerms with
  | none => rfl
  | some h => simp only [Option.map_some, halfQuad_rotate hR]

end

theorem aggregateWith_rotate (v : VectorModel K n m) (a : K) (g g' : Vec K n) (h h' : Mat K n n)
    (hg : ∀ i, g' i = rotate R g i) (hh : ∀ i j, h' i j = rotateHess R h i j) :
    aggregateWith (v.rotate R) (a, g', h') = (aggregateWith v (a, g, h)).rotate R := by
  simp only [aggregateWith, VectorModel.rotate, ScalarModel.rotate, ScalarModel.mk.injEq, true_and, and_true,
    Option.map_some, Option.some.injEq]
  exact ⟨funext hg, funext fun i => funext fun j => hh i j⟩

theorem aggregate_rotate (name : String) (v : VectorModel K n m) :
    SameOutcome (fun u u' => u' = u.rotate R) (aggregate name v) (aggregate name (v.rotate R)) := by
  have hl : ∀ k i, (v.rotate R).linearTerms k i = rotate R (v.linearTerms k) i := fun k i => rfl
  have hi : (v.rotate R).intercepts = v.intercepts := rfl
  have hq : (v.rotate R).squareTerms = v.squareTerms.map fun h k => rotateHess R (h k) := rfl
  simp only [aggregate]
  by_cases h1 : name = "identity"
  · rw [if_pos h1, if_pos h1]
    simp only [aggregatorIdentity]
    by_cases hm : m = 1
    · rw [dif_pos hm, dif_pos hm]
      refine aggregateWith_rotate v _ _ _ _ _ (fun i => hl _ i) fun i j => ?_
      rw [hq]
      cases v.squareTerms with
      | none => simp [rotateHess]
      | some h => rfl
    · rw [dif_neg hm, dif_neg hm]
      exact rfl
  · rw [if_neg h1, if_neg h1]
    by_cases h2 : name = "sum"
    · rw [if_pos h2, if_pos h2]
      simp only [aggregatorSum, hq, hi]
      cases v.squareTerms with
      | none => exact rfl
      | some h =>
        refine aggregateWith_rotate v _ _ _ _ _ (fun i => ?_) fun i j => ?_
        · simp only [hl, rotate_sum]
        · simp only [rotateHess_sum]
    · rw [if_neg h2, if_neg h2]
      by_cases h3 : name = "information_equality_linear"
      · rw [if_pos h3, if_pos h3]
        refine aggregateWith_rotate v _ _ _ _ _ (fun i => ?_) fun i j => ?_
        · simp only [hl, rotate_sum]
        · have e : ∀ a : K, -a / 2 = -(1 / 2) * a := fun a => by ring
          simp only [hl, rotateHess_outer, rotateHess_sum, e, rotateHess_mul]
      · rw [if_neg h3, if_neg h3]
        by_cases h4 : name = "least_squares_linear"
        · rw [if_pos h4, if_pos h4]
          refine aggregateWith_rotate v _ _ _ _ _ (fun i => ?_) fun i j => ?_
          · have h := fun k => congrFun (rotate_mul (R := R) (v.intercepts k) (v.linearTerms k)) i
            simp only [hl, hi, mul_comm (rotate R _ _), h, rotate_sum]
            rw [congrFun (rotate_mul (R := R) 2 _) i]
            simp only [mul_comm (v.linearTerms _ _)]
          · simp only [hl, mul_assoc, rotateHess_outer, rotateHess_mul, rotateHess_sum]
        · rw [if_neg h4, if_neg h4]
          exact rfl

theorem VectorModel.rotate_scaleBy (v : VectorModel K n m) (c : K) :
    (v.rotate R).scaleBy (fun _ => c) = (v.scaleBy fun _ => c).rotate R := by
  simp only [VectorModel.scaleBy, VectorModel.rotate, Option.map_map, VectorModel.mk.injEq, true_and, and_true]
  refine ⟨?_, ?_⟩
  · funext k i
    simp only [mul_comm _ c]
    exact congrFun (rotate_mul c (v.linearTerms k)) i
  · cases v.squareTerms with
    | none => rfl
    | some h =>
      simp only [Option.map_some, Function.comp_def, Option.some.injEq]
      funext k i j
      simp only [mul_comm _ (c ^ 2)]
      exact rotateHess_mul _ _ _ _

section

variable (hR : OrthonormalColumns R)
include hR

theorem VectorModel.rotate_shiftBy (v : VectorModel K n m) (f : Vec K n) :
    (v.rotate R).shiftBy (Tranquilo.rotate R f) = (v.shiftBy f).rotate R := by
  simp only [VectorModel.shiftBy, VectorModel.rotate_predict hR]
  simp only [VectorModel.rotate, VectorModel.mk.injEq, true_and]
  refine ⟨?_, ?_⟩
  · cases v.squareTerms with
    | none => rfl
    | some h =>
      funext k j
      simp only [Option.map_some]
      have := congrFun (vecMat_rotate hR (h k) f) j
      rw [this]
      exact congrFun (rotate_add (v.linearTerms k) fun j => ∑ i, f i * h k i j) j
  · exact rotate_add _ _

theorem Region.Free.effectiveCenter {cr : K → K} {r : Region K n} (hr : r.Free) : r.effectiveCenter cr = r.center := by
  unfold Region.effectiveCenter
  rw [hr.shape]

theorem Region.Free.effectiveRadius {cr : K → K} {r : Region K n} (hr : r.Free) :
    r.effectiveRadius cr = fun _ => r.radius := by
  unfold Region.effectiveRadius
  rw [hr.shape]

theorem VectorModel.rotate_move {cr : K → K} (v : VectorModel K n m) (c : K) (hv : v.scale = fun _ => c)
    (new : Region K n) (hr : new.Free) :
    (v.rotate R).move cr (new.rotate R) = (v.move cr new).rotate R := by
  simp only [VectorModel.move]
  rw [(hr.rotate (R := R)).effectiveRadius hR, (hr.rotate (R := R)).effectiveCenter hR, hr.effectiveRadius hR,
    hr.effectiveCenter hR, show (v.rotate R).scale = fun _ => c from hv, hv, VectorModel.rotate_scaleBy,
    show (fun i => (new.rotate R).center i - (v.rotate R).shift i) =
      Tranquilo.rotate R fun i => new.center i - v.shift i from rotate_sub _ _, VectorModel.rotate_shiftBy hR]
  exact VectorModel.rotate_scaleBy _ _

end

theorem modelOfCoef_rotate (coef : Fin m → Vec K (nCols n .linear)) (shift scale : Vec K n) :
    modelOfCoef .linear (fun k => (rotate (withIntercept R) (coef k) : Vec K (n + 1))) (rotate R shift) scale =
      (modelOfCoef .linear coef shift scale).rotate R := by
  have hlin : ∀ (c : Vec K (n + 1)) (i : Fin (n + 1)), (List.ofFn c).getD i.val 0 = c i := by
    intro c i
    rw [List.getD_eq_getElem?_getD, List.getElem?_ofFn]
    simp [Nat.le_of_lt_succ i.isLt]
  simp only [modelOfCoef, VectorModel.rotate, VectorModel.mk.injEq, true_and, and_true]
  refine ⟨?_, ?_, rfl⟩
  · funext k
    exact (hlin _ 0).trans ((withIntercept_zero (R := R) (coef k)).trans (hlin _ 0).symm)
  · funext k i
    have h1 : ∀ c : Vec K (n + 1), ∀ i : Fin n, (List.ofFn c).getD (1 + i.val) 0 = c i.succ := by
      intro c i
      rw [show 1 + i.val = i.succ.val from Nat.add_comm _ _]
      exact hlin c i.succ
    refine (h1 _ i).trans ((withIntercept_succ (R := R) (coef k) i).trans ?_)
    congr 1
    funext j
    exact (h1 _ j).symm

/-- The sum of two models of the same region. -/
theorem VectorModel.rotate_add (v w : VectorModel K n m) (h : v.shift = w.shift) :
    SameOutcome (fun u u' => u' = u.rotate R) (v.add w) ((v.rotate R).add (w.rotate R)) := by
  simp only [VectorModel.add]
  rw [show (v.rotate R).shift = Tranquilo.rotate R v.shift from rfl,
    show (w.rotate R).shift = Tranquilo.rotate R w.shift from rfl,
    show (v.rotate R).scale = v.scale from rfl,
    show (w.rotate R).scale = w.scale from rfl, h, allClose_self, allClose_self]
  split_ifs with h1 h2
  · exact rfl
  · exact rfl
  · have hlin : ∀ k i, Tranquilo.rotate R (v.linearTerms k) i + Tranquilo.rotate R (w.linearTerms k) i =
        Tranquilo.rotate R (fun i => v.linearTerms k i + w.linearTerms k i) i :=
      fun k i => congrFun (Tranquilo.rotate_add _ _) i
    simp only [VectorModel.rotate, hlin]
    cases v.squareTerms with
    | none => exact rfl
    | some g =>
      cases w.squareTerms with
      | none => exact rfl
      | some h =>
        simp only [Option.map_some, addSquare, SameOutcome, pure, Except.pure, bind, Except.bind,
          VectorModel.mk.injEq, true_and, and_true, Option.some.injEq]
        exact funext fun k => funext fun i => funext fun j => rotateHess_add _ _ _ _

theorem VectorModel.add_scale (v w u : VectorModel K n m) (h : v.add w = .ok u) : u.scale = v.scale := by
  unfold VectorModel.add at h
  split_ifs at h
  obtain ⟨sq, -, h⟩ := except_bind_ok.1 h
  cases h
  rfl

theorem fitTemplate_rotate_linear (hR : OrthonormalColumns R) (b : BuiltinSettings K n m) (hl : LstsqSpec b.lstsq)
    (region : Region K n) (hr : region.Free) (old old' : VectorModel K n m) (ho : RotatedModel R old old')
    (xs : Fin N → Vec K n) (y : Fin N → Fin m → XVal K) :
    SameOutcome (RotatedModel R) (builtinFitTemplate { b with modelType := .linear } region old xs y)
      (builtinFitTemplate { b with modelType := .linear } (region.rotate R) old' (fun t => rotate R (xs t)) y) := by
  obtain ⟨rfl, c, hc⟩ := ho
  have hrad : (region.rotate R).effectiveRadius b.cubeRadius = region.effectiveRadius b.cubeRadius := by
    rw [(hr.rotate (R := R)).effectiveRadius hR, hr.effectiveRadius hR]
    rfl
  simp only [builtinFitTemplate, hrad]
  by_cases h0 : ∃ i, region.effectiveRadius b.cubeRadius i = 0
  · rw [if_pos h0, if_pos h0]
    exact rfl
  · rw [if_neg h0, if_neg h0]
    have hu : ∀ t, (region.rotate R).mapToUnit b.cubeRadius (rotate R (xs t)) =
        rotate R (region.mapToUnit b.cubeRadius (xs t)) := fun t => hr.mapToUnit_rotate (xs t)
    simp only [hu, VectorModel.rotate_move hR old c hc region hr, VectorModel.rotate_predict hR]
    refine SameOutcome.bind (collectColumns_same (fun (u : Vec K (nCols n .linear)) =>
      (rotate (withIntercept R) u : Vec K (n + 1))) _ _
      (fun k => builtinFitter_rotate hR b hl _ _) rotate_zero) fun coef coef' _ hcc => ?_
    subst hcc
    rw [(hr.rotate (R := R)).effectiveCenter hR, hr.effectiveCenter hR,
      show (region.rotate R).center = rotate R region.center from rfl, modelOfCoef_rotate]
    cases b.residualize with
    | false => exact ⟨rfl, region.radius, hr.effectiveRadius hR⟩
    | true =>
      simp only [if_true]
      have hshift : (modelOfCoef .linear coef region.center (region.effectiveRadius b.cubeRadius)).shift =
          (old.move b.cubeRadius region).shift := by
        simp only [modelOfCoef, VectorModel.move, VectorModel.scaleBy, VectorModel.shiftBy, hr.effectiveCenter hR]
        funext i
        ring
      have := VectorModel.rotate_add (R := R) _ _ hshift
      have hs := VectorModel.add_scale (modelOfCoef .linear coef region.center (region.effectiveRadius b.cubeRadius))
        (old.move b.cubeRadius region)
      revert this hs
      cases (modelOfCoef .linear coef region.center (region.effectiveRadius b.cubeRadius)).add
        (old.move b.cubeRadius region) <;>
        cases ((modelOfCoef .linear coef region.center (region.effectiveRadius b.cubeRadius)).rotate R).add
          ((old.move b.cubeRadius region).rotate R)
      · exact fun h _ => h
      · exact fun h _ => h
      · exact fun h _ => h
      · exact fun h hs => ⟨h, region.radius, (hs _ rfl).trans (hr.effectiveRadius hR)⟩

theorem fitTemplate_rotate (hR : OrthonormalColumns R) (b : BuiltinSettings K n m) (hl : LstsqSpec b.lstsq)
    (hlin : b.modelType = .linear)
    (region : Region K n) (hr : region.Free) (old old' : VectorModel K n m) (ho : RotatedModel R old old')
    (xs : Fin N → Vec K n) (y : Fin N → Fin m → XVal K) :
    SameOutcome (RotatedModel R) (builtinFitTemplate b region old xs y)
      (builtinFitTemplate b (region.rotate R) old' (fun t => rotate R (xs t)) y) := by
  have := fitTemplate_rotate_linear hR b hl region hr old old' ho xs y
  rwa [show ({ b with modelType := .linear } : BuiltinSettings K n m) = b by rw [← hlin]] at this

/-! ### The components -/

theorem Log.rotateBack_rotate (hR : OrthonormalColumns R) (h : Log K n) : (h.rotate R).rotateBack R = h := by
  simp only [Log.rotate, Log.rotateBack, List.map_map, Function.comp_def, Tranquilo.rotateBack_rotate hR,
    List.map_id']


theorem keepCluster_rotate {nrm : Vec K n → K} (hn : ∀ v : Vec K n, nrm (rotate R v) = nrm v)
    (dimRoot : K → K) (strict : K) (shape : String) (radius : K) (target : Nat)
    (xs : List (Vec K n)) (is : List Nat) :
    SameOutcome (fun p p' => p' = (p.1.map (rotate R), p.2))
      (keepClusterCenters nrm dimRoot strict shape radius target xs is)
      (keepClusterCenters nrm dimRoot strict shape radius target (xs.map (rotate R)) is) := by
  simp only [keepClusterCenters, List.map_eq_nil_iff]
  split_ifs
  · exact rfl
  · exact rfl
  · have hx : ∀ i : Fin (xs.map (rotate R)).length, (xs.map (rotate R))[i] =
        rotate R xs[Fin.cast (List.length_map (as := xs) (rotate R)) i] := by
      intro i
      simp
    rcases cluster_cast (List.length_map (as := xs) (rotate R))
      (dist := fun i j => nrm fun k => xs[i] k - xs[j] k)
      (dist' := fun i j => nrm fun k => (xs.map (rotate R))[i] k - (xs.map (rotate R))[j] k)
      (e := radius * dimRoot (strict / (target : K))) (e' := radius * dimRoot (strict / (target : K)))
      (fun i j => by
        have := rotate_sub (R := R) xs[Fin.cast (List.length_map (as := xs) (rotate R)) i]
          xs[Fin.cast (List.length_map (as := xs) (rotate R)) j]
        rw [hx, hx, this, hn]) with
      ⟨c, c', h1, h2, h3⟩ | ⟨h1, h2⟩
    · rw [h1, h2]
      simp only [SameOutcome, ← h3, List.map_map, Function.comp_def, hx, Fin.val_cast]
    · split
      · rename_i c hc
        exact absurd hc (h1 c)
      · exact rfl

theorem solveSubproblem_rotate (hR : OrthonormalColumns R) {cr : K → K} {p q p' q' : SubSolver K n}
    (h1 : SolverRotationFree R p) (h3 : SolverRotationFree R p') (retry : Bool)
    (model : ScalarModel K n) (r : Region K n) (hr : r.Free) :
    SameOutcome (fun u u' => u'.x = rotate R u.x ∧ u'.expectedImprovement = u.expectedImprovement ∧
        u'.xUnit = rotate R u.xUnit)
      (solveSubproblem cr p q p' q' retry model r)
      (solveSubproblem cr p q p' q' retry (model.rotate R) (r.rotate R)) := by
  have hcenter : (r.rotate R).mapToUnit cr (r.rotate R).center =
      rotate R (r.mapToUnit cr r.center) := hr.mapToUnit_rotate r.center
  have hcall : ∀ u v : SubSolver K n, SolverRotationFree R u → SolverRotationFree R v → ∀ x,
      SameOutcome (fun a b => b.x = rotate R a.x) (callSolver retry u v model x)
        (callSolver retry u v (model.rotate R) (rotate R x)) := by
    intro u v hu hv x
    have h := hu model x
    simp only [callSolver]
    revert h
    cases u model x <;> cases u (model.rotate R) (rotate R x)
    · rename_i e e'
      intro h
      have h : e = e' := h
      subst h
      split_ifs
      · exact hv model x
      · exact rfl
    · exact fun h => h.elim
    · exact fun h => h.elim
    · exact fun h => h
  simp only [solveSubproblem, hcenter, hr.shape, (hr.rotate (R := R)).shape]
  have hraw := hcall _ _ h1 h3 (r.mapToUnit cr r.center)
  revert hraw
  cases callSolver retry p p' model (r.mapToUnit cr r.center) <;>
    cases callSolver retry p p' (model.rotate R) (rotate R (r.mapToUnit cr r.center))
  · exact fun h => h
  · exact fun h => h.elim
  · exact fun h => h.elim
  · rename_i a a'
    intro h
    have h : a'.x = rotate R a.x := h
    simp only [h, ScalarModel.rotate_predict hR]
    split_ifs
    · exact ⟨hr.mapFromUnit_rotate _, rfl, rfl⟩
    · exact ⟨rfl, rfl, rfl⟩

theorem sampleR_rotate (hR : OrthonormalColumns R) (b : BuiltinSettings K n m) (hs : SamplerRotationFree R b.sampler)
    (it round : Nat) (h : Log K n) (r : Region K n) (hr : r.Free) (k : Nat) (xs : List (Vec K n)) :
    SameOutcome (fun ys ys' => ys' = ys.map (rotate R)) (builtinSampleR b it round h r k xs)
      (builtinSampleR (b.rotate R) it round (h.rotate R) (r.rotate R) k (xs.map (rotate R))) := by
  have hrng : (b.rotate R).rng it round (h.rotate R) = (b.rng it round h).rotate R := by
    simp only [BuiltinSettings.rotate, Log.rotateBack_rotate hR]
  have hrows : ∀ x y : Except Err (List (Row K n)),
      SameOutcome (fun l l' => l' = rotateRows R l) x y →
      SameOutcome (fun ys ys' => ys' = ys.map (rotate R))
        (x >>= fun rows => match allRows rows with
          | some ys => pure ys
          | none => .error .valueError)
        (y >>= fun rows => match allRows rows with
          | some ys => pure ys
          | none => .error .valueError) := by
    intro x y hxy
    refine SameOutcome.bind hxy fun rows rows' _ hrows => ?_
    subst hrows
    rw [allRows_map]
    cases allRows rows <;> exact rfl
  simp only [builtinSampleR, hrng]
  simp only [BuiltinSettings.rotate]
  revert hs
  cases b.sampler with
  | randomInterior => exact fun _ => hrows _ _ (interiorSampler_rotate hR _ _ _ r hr k _)
  | randomHull d => exact fun hs => hrows _ _ (hullSampler_rotate hR _ _ r hr k _ d hs)
  | optimalHull o => exact fun hs => hrows _ _ (optimalSampler_rotate hR _ _ r hr k _ o hs xs)

theorem candidates_rotate {nrm : Vec K n → K} (hn : ∀ v : Vec K n, nrm (rotate R v) = nrm v) (f : K)
    (r : Region K n) (h : Log K n) :
    varianceCandidates nrm f (r.rotate R) (h.rotate R) = varianceCandidates nrm f r h :=
  Log.rotate_indicesInRegion hn h r.center _

theorem rhoNoise_rotate (hR : OrthonormalColumns R) (b : BuiltinSettings K n m) (hb : RotationFreeSettings R b) (it : Nat)
    (h : Log K n) (xs : List (Vec K n)) (vm vm' old old' : VectorModel K n m) (hvm : RotatedModel R vm vm')
    (hold : RotatedModel R old old') (r : Region K n) (hr : r.Free) :
    builtinRhoNoise (b.rotate R) it (h.rotate R) (xs.map (rotate R)) vm' old'
      (r.rotate R) = builtinRhoNoise b it h xs vm old r := by
  have hcov : estimateCovariance b.nrm b.noiseDistance b.noiseMinEvals b.covOfOne (r.rotate R)
      (h.rotate R) (b.fvecs h) =
      estimateCovariance b.nrm b.noiseDistance b.noiseMinEvals b.covOfOne r h (b.fvecs h) := by
    simp only [estimateCovariance, candidates_rotate hb.nrm]
    rfl
  simp only [builtinRhoNoise]
  rw [show (b.rotate R).fvecs (h.rotate R) = b.fvecs h by
    simp only [BuiltinSettings.rotate, Log.rotateBack_rotate hR]]
  rw [show (b.rotate R).draws it (h.rotate R) = b.draws it h by
    simp only [BuiltinSettings.rotate, Log.rotateBack_rotate hR]]
  simp only [show (b.rotate R).nrm = b.nrm from rfl,
    show (b.rotate R).noiseDistance = b.noiseDistance from rfl,
    show (b.rotate R).noiseMinEvals = b.noiseMinEvals from rfl,
    show (b.rotate R).covOfOne = b.covOfOne from rfl, hcov]
  congr 1
  funext cov
  cases finiteMat cov with
  | none => rfl
  | some cov =>
    simp only
    have key : ∀ (N' : Nat) (ys : Fin N' → Vec K n) (ds : Mat K m m → Nat → List (Fin N' → Vec K m)),
        simulateRhoNoise b.cubeRadius
          (fun xs y region old => builtinFitTemplate b region old xs fun s k => .fin (y s k))
          (aggregate b.aggregator)
          (solveSubproblem b.cubeRadius b.sphere b.cube b.fallbackSphere b.fallbackCube b.retry)
          ds b.nDraws b.ignoreCorrelation (fun t => rotate R (ys t)) vm' old'
          (r.rotate R) cov =
        simulateRhoNoise b.cubeRadius
          (fun xs y region old => builtinFitTemplate b region old xs fun s k => .fin (y s k))
          (aggregate b.aggregator)
          (solveSubproblem b.cubeRadius b.sphere b.cube b.fallbackSphere b.fallbackCube b.retry)
          ds b.nDraws b.ignoreCorrelation ys vm old r cov := by
      intro N' ys ds
      have hu : ∀ y, (r.rotate R).mapToUnit b.cubeRadius (rotate R y) =
          rotate R (r.mapToUnit b.cubeRadius y) := fun y =>
        hr.mapToUnit_rotate y
      simp only [simulateRhoNoise]
      refine SameOutcome.eq (SameOutcome.bind (by
        rw [hvm.1]
        exact aggregate_rotate b.aggregator vm) fun tm tm' _ htm => ?_)
      subst htm
      split_ifs
      · exact rfl
      · refine SameOutcome.refl_eq ?_
        congr 1
        funext draw
        refine SameOutcome.eq ?_
        simp only [simulateOneRho, hu, hvm.1, VectorModel.rotate_predict hR]
        refine SameOutcome.bind (fitTemplate_rotate hR b hb.lstsq hb.linear r hr old old' hold ys _)
          fun v v' _ hvv => ?_
        rw [hvv.1]
        refine SameOutcome.bind (aggregate_rotate b.aggregator v) fun sm sm' _ hsm => ?_
        subst hsm
        refine SameOutcome.bind (solveSubproblem_rotate hR hb.sphere hb.fallbackSphere b.retry sm r hr) fun u u' _ hu' => ?_
        have hcenter : (r.rotate R).mapToUnit b.cubeRadius (r.rotate R).center =
          rotate R (r.mapToUnit b.cubeRadius r.center) := hu r.center
        simp only [hcenter, hu'.2.1, hu'.2.2, ScalarModel.rotate_predict hR]
        exact rfl
    have gen : ∀ (N' : Nat) (hN : N' = xs.length) (ys : Fin N' → Vec K n),
        (∀ t, ys t = rotate R xs[Fin.cast hN t]) →
        simulateRhoNoise b.cubeRadius
          (fun xs y region old => builtinFitTemplate b region old xs fun s k => .fin (y s k))
          (aggregate b.aggregator)
          (solveSubproblem b.cubeRadius b.sphere b.cube b.fallbackSphere b.fallbackCube b.retry)
          (b.draws it h N') b.nDraws b.ignoreCorrelation ys vm' old'
          (r.rotate R) cov =
        simulateRhoNoise b.cubeRadius
          (fun xs y region old => builtinFitTemplate b region old xs fun s k => .fin (y s k))
          (aggregate b.aggregator)
          (solveSubproblem b.cubeRadius b.sphere b.cube b.fallbackSphere b.fallbackCube b.retry)
          (b.draws it h xs.length) b.nDraws b.ignoreCorrelation (fun t => xs[t]) vm old r cov := by
      intro N' hN ys hys
      subst hN
      rw [show ys = fun t => rotate R xs[t] from funext hys]
      exact key _ _ _
    exact gen _ (List.length_map (as := xs) (rotate R)) _ fun t => by simp

/-- For the built in components the directions of the parameters do not matter. -/
theorem builtin_rotate [FloorRing K] (hR : OrthonormalColumns R) (b : BuiltinSettings K n m) (hb : RotationFreeSettings R b)
    (noisy : Bool) :
    RotationRespected R noisy (RotatedModel R) (fun u u' => u' = u.rotate R)
      (builtinComponents b) (builtinComponents (b.rotate R)) where
  nrm := hb.nrm
  definite := hb.definite
  normZero := hb.normZero
  cubeRadius _ := rfl
  oracle k x := by
    simp only [builtinComponents, BuiltinSettings.rotate, rotateBack_rotate hR]
  filter t t' h size k xs is ht _ := by
    simp only [builtinComponents, builtinFilter, BuiltinSettings.rotate, ht.x, ht.index,
      ht.trustregion, show (t.trustregion.rotate R).radius = t.trustregion.radius from rfl]
    cases b.filter with
    | discardAll => exact rfl
    | keepAll => exact rfl
    | clustering st shape => exact keepCluster_rotate hb.nrm _ _ _ _ _ _ _
    | dropExcess f =>
      simp only [dropExcess, List.length_map]
      split_ifs
      · exact dropWorst_rotate hb.nrm _ _ _ _ _ _
      · exact rfl
  sample it round h r k xs hr := sampleR_rotate hR b hb.sampler it round h r hr k xs
  fit h is r vm vm' hr hvm := by
    have hxs : (fun t : Fin is.length => ((h.rotate R).xs[is[t]]?).getD (r.rotate R).center) =
        fun t => rotate R ((h.xs[is[t]]?).getD r.center) := by
      funext t
      simp only [Log.rotate_xs, List.getElem?_map]
      cases h.xs[is[t]]? <;> rfl
    have hdata : (b.rotate R).data (h.rotate R) = b.data h := by
      simp only [BuiltinSettings.rotate, Log.rotateBack_rotate hR]
    simp only [builtinComponents, builtinFit, hxs, hdata]
    exact fitTemplate_rotate hR b hb.lstsq hb.linear r hr vm vm' hvm _ _
  aggregate vm vm' hvm := by
    rw [hvm.1]
    exact aggregate_rotate b.aggregator vm
  solve sm sm' r hr h := by
    subst h
    have := solveSubproblem_rotate hR (cr := b.cubeRadius) (q := b.cube) (q' := b.fallbackCube) hb.sphere
      hb.fallbackSphere b.retry sm r hr
    simp only [builtinComponents, builtinSolve]
    revert this
    simp only [BuiltinSettings.rotate]
    cases solveSubproblem b.cubeRadius b.sphere b.cube b.fallbackSphere b.fallbackCube b.retry sm r <;>
      cases solveSubproblem b.cubeRadius b.sphere b.cube b.fallbackSphere b.fallbackCube b.retry
        (sm.rotate R) (r.rotate R)
    · exact fun h => h
    · exact fun h => h
    · exact fun h => h
    · exact fun h => ⟨h.1, h.2.1⟩
  initModel h r _ := by
    have : (b.rotate R).start (h.rotate R) = b.start h := by
      simp only [BuiltinSettings.rotate, Log.rotateBack_rotate hR]
    simp only [builtinComponents, builtinInit, this]
    refine ⟨?_, r.radius, rfl⟩
    simp only [VectorModel.rotate, VectorModel.mk.injEq, true_and, Option.map_some]
    refine ⟨?_, ?_, rfl, rfl⟩
    · exact funext fun k => rotate_zero.symm
    · simp only [Option.some.injEq]
      funext k i j
      simp [rotateHess]
  gradNorm sm sm' h := by
    subst h
    exact hb.nrm _
  noiseSigma _ h r _ := by
    simp only [builtinComponents, builtinNoiseSigma]
    congr 1
    simp only [estimateVariance, BuiltinSettings.rotate, candidates_rotate hb.nrm]
    rfl
  rhoNoise _ it h xs vm vm' old old' r hr hvm hold := by
    exact rhoNoise_rotate hR b hb it h xs vm vm' old old' hvm hold r hr

end Tranquilo
