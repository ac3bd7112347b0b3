import Verif.Lemmas.RelocateRun
import Verif.Spec.RelocateBuiltin
import Mathlib.Tactic.FieldSimp

/-!
# The built in components do not depend on origin and unit of the parameters
-/

namespace Tranquilo

variable {K : Type} [Field K] [LinearOrder K] [IsStrictOrderedRing K] {n m N : Nat}
variable {s : K} {a : Vec K n}

theorem SameOutcome.eq {α : Type} {x y : Except Err α} (h : SameOutcome (fun u v => v = u) x y) :
    y = x := by
  cases x <;> cases y
  · exact congrArg _ h.symm
  · exact h.elim
  · exact h.elim
  · exact congrArg _ h

/-! ### Regions -/

namespace Region

theorem relocate_shape (hs : 0 < s) (r : Region K n) : (r.relocate s a).shape = r.shape := by
  have h1 : lowerBinding (r.relocate s a).center (r.relocate s a).radius (r.relocate s a).bounds.lower =
      lowerBinding r.center r.radius r.bounds.lower := by
    simp only [lowerBinding, Region.relocate, Bounds.relocate, Tranquilo.relocate]
    refine decide_eq_decide.2 (exists_congr fun i => ?_)
    cases r.bounds.lower i with
    | none => simp
    | some l =>
      simp only [Option.map_some, Option.mem_def, Option.some.injEq, exists_eq_left',
        show s * r.center i + a i - (s * l + a i) = s * (r.center i - l) by ring,
        mul_le_mul_iff_right₀ hs]
  have h2 : upperBinding (r.relocate s a).center (r.relocate s a).radius (r.relocate s a).bounds.upper =
      upperBinding r.center r.radius r.bounds.upper := by
    simp only [upperBinding, Region.relocate, Bounds.relocate, Tranquilo.relocate]
    refine decide_eq_decide.2 (exists_congr fun i => ?_)
    cases r.bounds.upper i with
    | none => simp
    | some u =>
      simp only [Option.map_some, Option.mem_def, Option.some.injEq, exists_eq_left',
        show s * u + a i - (s * r.center i + a i) = s * (u - r.center i) by ring,
        mul_le_mul_iff_right₀ hs]
  simp only [shape, h1, h2]

variable {cr : K → K}

theorem relocate_cubeRadius (hs : 0 < s) (hcr : ∀ r, cr (s * r) = s * cr r) (r : Region K n) :
    (r.relocate s a).cubeRadius cr = s * r.cubeRadius cr := by
  simp only [cubeRadius, relocate_shape hs]
  cases r.shape
  · rfl
  · exact hcr _

theorem relocate_cubeLower (hs : 0 < s) (hcr : ∀ r, cr (s * r) = s * cr r) (r : Region K n) :
    (r.relocate s a).cubeLower cr = Tranquilo.relocate s a (r.cubeLower cr) := by
  funext i
  simp only [cubeLower, relocate_cubeRadius hs hcr]
  simp only [Region.relocate, Bounds.relocate, Tranquilo.relocate, cubeLower]
  cases r.bounds.lower i with
  | none => simp only [Option.map_none, clipLower]; ring
  | some l =>
    simp only [Option.map_some, clipLower]
    rw [mul_max_of_nonneg _ _ hs.le, ← max_add_add_right]
    congr 1
    ring

theorem relocate_cubeUpper (hs : 0 < s) (hcr : ∀ r, cr (s * r) = s * cr r) (r : Region K n) :
    (r.relocate s a).cubeUpper cr = Tranquilo.relocate s a (r.cubeUpper cr) := by
  funext i
  simp only [cubeUpper, relocate_cubeRadius hs hcr]
  simp only [Region.relocate, Bounds.relocate, Tranquilo.relocate, cubeUpper]
  cases r.bounds.upper i with
  | none => simp only [Option.map_none, clipUpper]; ring
  | some l =>
    simp only [Option.map_some, clipUpper]
    rw [mul_min_of_nonneg _ _ hs.le, ← min_add_add_right]
    congr 1
    ring

theorem relocate_effectiveCenter (hs : 0 < s) (hcr : ∀ r, cr (s * r) = s * cr r) (r : Region K n) :
    (r.relocate s a).effectiveCenter cr = Tranquilo.relocate s a (r.effectiveCenter cr) := by
  simp only [effectiveCenter, relocate_shape hs]
  cases r.shape with
  | sphere => rfl
  | cube =>
    funext i
    simp only [cubeCenter, relocate_cubeLower hs hcr, relocate_cubeUpper hs hcr, Tranquilo.relocate]
    ring

theorem relocate_effectiveRadius (hs : 0 < s) (hcr : ∀ r, cr (s * r) = s * cr r) (r : Region K n) :
    (r.relocate s a).effectiveRadius cr = fun i => s * r.effectiveRadius cr i := by
  funext i
  simp only [effectiveRadius, relocate_shape hs]
  cases r.shape with
  | sphere => rfl
  | cube =>
    simp only [relocate_cubeLower hs hcr, relocate_cubeUpper hs hcr, Tranquilo.relocate]
    ring

theorem relocate_mapToUnit (hs : 0 < s) (hcr : ∀ r, cr (s * r) = s * cr r) (r : Region K n)
    (x : Vec K n) : (r.relocate s a).mapToUnit cr (Tranquilo.relocate s a x) = r.mapToUnit cr x := by
  funext i
  simp only [mapToUnit, relocate_shape hs]
  cases r.shape with
  | sphere =>
    simp only [Region.relocate, Tranquilo.relocate]
    rw [show s * x i + a i - (s * r.center i + a i) = s * (x i - r.center i) by ring,
      mul_div_mul_left _ _ hs.ne']
  | cube =>
    simp only [relocate_cubeLower hs hcr, relocate_cubeUpper hs hcr, Tranquilo.relocate]
    rw [show 2 * (s * x i + a i - (s * r.cubeLower cr i + a i)) = s * (2 * (x i - r.cubeLower cr i)) by
      ring, show s * r.cubeUpper cr i + a i - (s * r.cubeLower cr i + a i) =
        s * (r.cubeUpper cr i - r.cubeLower cr i) by ring, mul_div_mul_left _ _ hs.ne']

theorem relocate_mapFromUnit (hs : 0 < s) (hcr : ∀ r, cr (s * r) = s * cr r) (r : Region K n)
    (u : Vec K n) : (r.relocate s a).mapFromUnit cr u = Tranquilo.relocate s a (r.mapFromUnit cr u) := by
  funext i
  simp only [mapFromUnit, relocate_shape hs]
  cases hsh : r.shape with
  | sphere =>
    simp only [Region.relocate, Tranquilo.relocate, mapFromUnit, hsh]
    ring
  | cube =>
    simp only [relocate_cubeLower hs hcr, relocate_cubeUpper hs hcr, Tranquilo.relocate, mapFromUnit,
      hsh, npClip]
    rw [mul_min_of_nonneg _ _ hs.le, mul_max_of_nonneg _ _ hs.le, ← min_add_add_right,
      ← max_add_add_right]
    congr 2
    ring

end Region

/-! ### Samplers -/

theorem allRows_map (f : Vec K n → Vec K n) (rows : List (Row K n)) :
    allRows (rows.map fun p => p.map f) = (allRows rows).map fun l => l.map f := by
  induction rows with
  | nil => rfl
  | cons p rows ih =>
    cases p with
    | none => rfl
    | some x =>
      simp only [List.map_cons, Option.map_some, allRows, ih]
      cases allRows rows <;> rfl

section Samplers

variable {cr : K → K} (hs : 0 < s) (hcr : ∀ r, cr (s * r) = s * cr r)
include hs hcr

theorem mapFromUnit_rows (r : Region K n) (rows : List (Row K n)) :
    (rows.map fun p => p.map ((r.relocate s a).mapFromUnit cr)) =
      (rows.map fun p => p.map (r.mapFromUnit cr)).map fun p => p.map (relocate s a) := by
  rw [List.map_map]
  refine List.map_congr_left fun p _ => ?_
  cases p with
  | none => rfl
  | some u =>
    simp only [Option.map_some, Function.comp, Region.relocate_mapFromUnit hs hcr]

theorem interiorSampler_relocate (root radial : K → K) (r : Region K n) (k : Int) (rng : SampleRng K n) :
    SameOutcome (fun l l' => l' = l.map fun p => p.map (relocate s a))
      (interiorSampler root radial cr r k rng) (interiorSampler root radial cr (r.relocate s a) k rng) := by
  simp only [interiorSampler, Region.relocate_shape hs]
  cases r.shape with
  | sphere =>
    simp only [ballSampler]
    split_ifs
    · exact rfl
    · have := mapFromUnit_rows (a := a) hs hcr r ((rng.normal k.toNat).map (ballRow root radial))
      simp only [List.map_map, Function.comp_def] at this
      simp only [SameOutcome, this, List.map_map, Function.comp_def]
  | cube =>
    simp only [boxSampler]
    split_ifs
    · exact rfl
    · simp only [SameOutcome, List.map_map]
      refine List.map_congr_left fun u _ => ?_
      simp only [Function.comp, Option.map_some, Option.some.injEq]
      funext i
      simp only [scaleUniform, Region.relocate_cubeLower hs hcr, Region.relocate_cubeUpper hs hcr, relocate]
      ring

theorem hullSampler_relocate (root : K → K) (r : Region K n) (k : Int) (rng : SampleRng K n)
    (d : Option String) :
    SameOutcome (fun l l' => l' = l.map fun p => p.map (relocate s a))
      (hullSampler root cr r k rng d) (hullSampler root cr (r.relocate s a) k rng d) := by
  simp only [hullSampler, Region.relocate_shape hs]
  split_ifs
  · exact rfl
  · cases drawRows (theDistribution d r.shape) rng k.toNat with
    | error e => exact rfl
    | ok raw => exact mapFromUnit_rows hs hcr r _

theorem existingUnit_relocate (root : K → K) (r : Region K n) (crit : SampleCriterion)
    (xs : List (Vec K n)) :
    existingUnit root cr (r.relocate s a) crit (some (xs.map (relocate s a))) =
      existingUnit root cr r crit (some xs) := by
  simp only [existingUnit, List.map_map, Function.comp_def, Region.relocate_mapToUnit hs hcr]

theorem optimalSampler_relocate (root : K → K) (r : Region K n) (k : Int) (rng : SampleRng K n)
    (o : OptimalSampler K n) (xs : List (Vec K n)) :
    SameOutcome (fun l l' => l' = l.map fun p => p.map (relocate s a))
      ((optimalHullSampler root cr r k rng o (some xs)).map Prod.fst)
      ((optimalHullSampler root cr (r.relocate s a) k rng o (some (xs.map (relocate s a)))).map
        Prod.fst) := by
  simp only [optimalHullSampler, Region.relocate_shape hs, existingUnit_relocate hs hcr]
  split_ifs
  · exact rfl
  · cases drawBlocks (theDistribution o.distribution r.shape) rng o.nPointsRandomsearch k.toNat with
    | error e => exact rfl
    | ok blocks =>
      simp only
      cases startSample root (existingUnit root cr r (theCriterion o.criterion k) (some xs)) r.shape
        o.nPointsRandomsearch (blocks.map fun b => projectHull root r.shape (b.map some)) with
      | error e => exact rfl
      | ok x0 =>
        simp only [optimizeSample, Region.relocate_shape hs, Except.map, SameOutcome]
        exact mapFromUnit_rows hs hcr r _

end Samplers

/-! ### Filters -/

theorem cluster_congr {dist dist' : Fin N → Fin N → K} {e e' : K}
    (h : ∀ i j, dist' i j ≤ e' ↔ dist i j ≤ e) (fuel : Nat) :
    clusterFuel dist' e' fuel = clusterFuel dist e fuel := by
  have h1 : nNeighbors dist' e' = nNeighbors dist e := by
    funext l i
    simp only [nNeighbors, h]
  have h2 : scanPoint dist' e' = scanPoint dist e := by
    funext c i
    simp only [scanPoint, h1]
  have h3 : clusterPass dist' e' = clusterPass dist e := by
    funext c
    simp only [clusterPass, h2, h]
  have h4 : ∀ c, clusterLoop dist' e' fuel c = clusterLoop dist e fuel c := by
    induction fuel with
    | zero => exact fun c => rfl
    | succ k ih =>
      intro c
      simp only [clusterLoop, h3, ih]
  exact h4 _

theorem cluster_cast {N' : Nat} (hN : N' = N) {dist : Fin N → Fin N → K} {dist' : Fin N' → Fin N' → K}
    {e e' : K} (h : ∀ i j, dist' i j ≤ e' ↔ dist (Fin.cast hN i) (Fin.cast hN j) ≤ e) :
    (∃ c c', clusterFuel dist e (N + 1) = some (.ok c) ∧ clusterFuel dist' e' (N' + 1) = some (.ok c') ∧
      c'.centers.map (Fin.cast hN) = c.centers) ∨
    ((∀ c, clusterFuel dist e (N + 1) ≠ some (.ok c)) ∧
      ∀ c, clusterFuel dist' e' (N' + 1) ≠ some (.ok c)) := by
  subst hN
  rw [cluster_congr (dist := dist) (e := e) h]
  by_cases hc : ∃ c, clusterFuel dist e (N' + 1) = some (.ok c)
  · obtain ⟨c, hc⟩ := hc
    exact .inl ⟨c, c, hc, hc, by simp⟩
  · push Not at hc
    exact .inr ⟨hc, hc⟩

theorem keepCluster_relocate (hs : 0 < s) {nrm : Vec K n → K}
    (hn : ∀ v : Vec K n, nrm (fun i => s * v i) = s * nrm v) (dimRoot : K → K) (strict : K)
    (shape : String) (radius : K) (target : Nat) (xs : List (Vec K n)) (is : List Nat) :
    SameOutcome (fun p p' => p' = (p.1.map (relocate s a), p.2))
      (keepClusterCenters nrm dimRoot strict shape radius target xs is)
      (keepClusterCenters nrm dimRoot strict shape (s * radius) target (xs.map (relocate s a)) is) := by
  simp only [keepClusterCenters, List.map_eq_nil_iff]
  split_ifs
  · exact rfl
  · exact rfl
  · have hx : ∀ i : Fin (xs.map (relocate s a)).length, (xs.map (relocate s a))[i] =
        relocate s a xs[Fin.cast (List.length_map (as := xs) (relocate s a)) i] := by
      intro i
      simp
    rcases cluster_cast (List.length_map (as := xs) (relocate s a))
      (dist := fun i j => nrm fun k => xs[i] k - xs[j] k)
      (dist' := fun i j => nrm fun k => (xs.map (relocate s a))[i] k - (xs.map (relocate s a))[j] k)
      (e := radius * dimRoot (strict / (target : K))) (e' := s * radius * dimRoot (strict / (target : K)))
      (fun i j => by
        have := relocate_sub (s := s) (a := a) xs[Fin.cast (List.length_map (as := xs) (relocate s a)) i]
          xs[Fin.cast (List.length_map (as := xs) (relocate s a)) j]
        rw [hx, hx, this, hn, mul_assoc, mul_le_mul_iff_right₀ hs]) with
      ⟨c, c', h1, h2, h3⟩ | ⟨h1, h2⟩
    · rw [h1, h2]
      simp only [SameOutcome, ← h3, List.map_map, Function.comp_def, hx, Fin.val_cast]
    · split
      · rename_i c hc
        exact absurd hc (h1 c)
      · exact rfl

/-! ### Models -/

/-- A vector model in the new coordinates: the same function on the unit region. -/
def VectorModel.relocate (s : K) (a : Vec K n) (v : VectorModel K n m) : VectorModel K n m :=
  { v with scale := fun i => s * v.scale i, shift := Tranquilo.relocate s a v.shift }

/-- A scalar model in the new coordinates. -/
def ScalarModel.relocate (s : K) (a : Vec K n) (v : ScalarModel K n) : ScalarModel K n :=
  { v with scale := fun i => s * v.scale i, shift := Tranquilo.relocate s a v.shift }

theorem aggregate_relocate (name : String) (v : VectorModel K n m) :
    SameOutcome (fun u u' => u' = u.relocate s a) (aggregate name v)
      (aggregate name (v.relocate s a)) := by
  simp only [aggregate, aggregatorIdentity, aggregatorSum, VectorModel.relocate]
  split_ifs
  · exact rfl
  · exact rfl
  · cases v.squareTerms <;> exact rfl
  · exact rfl
  · exact rfl
  · exact rfl

theorem VectorModel.relocate_predict (v : VectorModel K n m) :
    (v.relocate s a).predict = v.predict := rfl

theorem ScalarModel.relocate_predict (v : ScalarModel K n) :
    (v.relocate s a).predict = v.predict := rfl

theorem halfQuad_scale (t : K) (h : Mat K n n) (x : Vec K n) :
    halfQuad (fun i j => h i j / t ^ 2) (fun i => t * x i) = (t / t) ^ 2 * halfQuad h x := by
  simp only [halfQuad]
  rw [mul_div_assoc', Finset.mul_sum]
  congr 1
  refine Finset.sum_congr rfl fun j _ => ?_
  rw [Finset.sum_mul, Finset.sum_mul, Finset.mul_sum]
  refine Finset.sum_congr rfl fun i _ => ?_
  ring

theorem VectorModel.relocate_move (hs : 0 < s) {cr : K → K} (hcr : ∀ r, cr (s * r) = s * cr r)
    (v : VectorModel K n m) (new : Region K n) :
    (v.relocate s a).move cr (new.relocate s a) = (v.move cr new).relocate s a := by
  have hs' := hs.ne'
  have h0 : ∀ i, (new.relocate s a).effectiveCenter cr i - (v.relocate s a).shift i =
      s * (new.effectiveCenter cr i - v.shift i) := by
    intro i
    rw [Region.relocate_effectiveCenter hs hcr]
    simp only [VectorModel.relocate, Tranquilo.relocate]
    ring
  have h1 : ∀ i, 1 / (s * v.scale i) = 1 / v.scale i / s := by
    intro i
    rw [div_div, mul_comm]
  simp only [VectorModel.move, h0, Region.relocate_effectiveRadius hs hcr]
  cases hq : v.squareTerms with
  | none =>
    simp only [VectorModel.scaleBy, VectorModel.shiftBy, VectorModel.relocate, VectorModel.predict, hq,
      Option.map_none, h1, VectorModel.mk.injEq]
    refine ⟨?_, ?_, trivial, ?_, ?_⟩
    · funext k
      simp only [VectorModel.predict]
      refine congrArg₂ _ ?_ rfl
      refine Finset.sum_congr rfl fun i _ => ?_
      field_simp
    · funext k i
      field_simp
    · funext i
      field_simp
    · funext i
      simp only [Tranquilo.relocate]
      ring
  | some h =>
    simp only [VectorModel.scaleBy, VectorModel.shiftBy, VectorModel.relocate, VectorModel.predict, hq,
      Option.map_some, h1, VectorModel.mk.injEq]
    refine ⟨?_, ?_, ?_, ?_, ?_⟩
    · funext k
      refine congrArg₂ _ (congrArg₂ _ ?_ rfl) ?_
      · refine Finset.sum_congr rfl fun i _ => ?_
        field_simp
      · have := halfQuad_scale s (fun i j => h k i j * (1 / v.scale j) ^ 2)
          fun i => new.effectiveCenter cr i - v.shift i
        rw [div_self hs', one_pow, one_mul] at this
        rw [← this]
        congr 1
        funext i j
        ring
    · funext k j
      rw [show ∀ u w : K, (u + w) * (s * new.effectiveRadius cr j) =
        (s * u + s * w) * new.effectiveRadius cr j from fun u w => by ring]
      congr 1
      congr 1
      · field_simp
      · rw [Finset.mul_sum]
        refine Finset.sum_congr rfl fun i _ => ?_
        field_simp
    · congr 1
      funext k i j
      field_simp
    · funext i
      field_simp
    · funext i
      simp only [Tranquilo.relocate]
      ring

theorem allClose_self (x : Vec K n) : allClose x x = true := by
  simp only [allClose, sub_self, abs_zero, decide_eq_true_eq]
  intro i
  positivity

/-- Moved old models have shift and scale of the new region. -/
theorem VectorModel.move_place (cr : K → K) (v : VectorModel K n m) (hv : ∀ i, v.scale i ≠ 0)
    (new : Region K n) :
    (v.move cr new).shift = new.effectiveCenter cr ∧ (v.move cr new).scale = new.effectiveRadius cr := by
  constructor
  · funext i
    simp [VectorModel.move, VectorModel.scaleBy, VectorModel.shiftBy]
  · funext i
    simp [VectorModel.move, VectorModel.scaleBy, VectorModel.shiftBy, hv i]

theorem VectorModel.relocate_add (v w : VectorModel K n m) (h1 : v.shift = w.shift)
    (h2 : v.scale = w.scale) :
    SameOutcome (fun u u' => u' = u.relocate s a ∧ u.scale = v.scale) (v.add w)
      ((v.relocate s a).add (w.relocate s a)) := by
  simp only [VectorModel.add, VectorModel.relocate, h1, h2, allClose_self, Bool.not_true,
    Bool.false_eq_true, if_false]
  cases v.squareTerms <;> cases w.squareTerms
  · exact ⟨by simp only [h1, h2], rfl⟩
  · exact ⟨by simp only [h1, h2], rfl⟩
  · exact rfl
  · exact ⟨by simp only [h1, h2], rfl⟩

/-- Related vector models of two runs. -/
def MovedModel (s : K) (a : Vec K n) (v v' : VectorModel K n m) : Prop :=
  v' = v.relocate s a ∧ ∀ i, v.scale i ≠ 0

theorem fitTemplate_relocate (hs : 0 < s) (b : BuiltinSettings K n m)
    (hcr : ∀ r, b.cubeRadius (s * r) = s * b.cubeRadius r)
    (region : Region K n) (old old' : VectorModel K n m) (hold : MovedModel s a old old')
    (xs : Fin N → Vec K n) (y : Fin N → Fin m → XVal K) :
    SameOutcome (MovedModel s a) (builtinFitTemplate b region old xs y)
      (builtinFitTemplate b (region.relocate s a) old' (fun t => relocate s a (xs t)) y) := by
  obtain ⟨rfl, hsc⟩ := hold
  have hiff : (∃ i, (region.relocate s a).effectiveRadius b.cubeRadius i = 0) ↔
      ∃ i, region.effectiveRadius b.cubeRadius i = 0 := by
    simp only [Region.relocate_effectiveRadius hs hcr, mul_eq_zero, hs.ne', false_or]
  simp only [builtinFitTemplate, hiff]
  by_cases h0 : ∃ i, region.effectiveRadius b.cubeRadius i = 0
  · rw [if_pos h0, if_pos h0]
    exact rfl
  · rw [if_neg h0, if_neg h0]
    push Not at h0
    simp only [Region.relocate_mapToUnit hs hcr, VectorModel.relocate_move hs hcr,
      VectorModel.relocate_predict]
    refine SameOutcome.bind (SameOutcome.refl_eq rfl) fun coef' coef _ hc => ?_
    subst hc
    have hmodel : modelOfCoef b.modelType coef ((region.relocate s a).effectiveCenter b.cubeRadius)
        ((region.relocate s a).effectiveRadius b.cubeRadius) =
        (modelOfCoef b.modelType coef (region.effectiveCenter b.cubeRadius)
          (region.effectiveRadius b.cubeRadius)).relocate s a := by
      rw [Region.relocate_effectiveCenter hs hcr, Region.relocate_effectiveRadius hs hcr]
      rfl
    rw [hmodel]
    cases b.residualize with
    | false => exact ⟨rfl, h0⟩
    | true =>
      obtain ⟨h1, h2⟩ := VectorModel.move_place b.cubeRadius old hsc region
      refine SameOutcome.mono (VectorModel.relocate_add _ _ h1.symm h2.symm) fun u u' hu => ?_
      refine ⟨hu.1, fun i => ?_⟩
      rw [hu.2]
      exact h0 i

/-! ### The components -/

theorem Log.relocateBack_relocate (hs : 0 < s) (h : Log K n) :
    (h.relocate s a).relocateBack s a = h := by
  simp only [Log.relocate, Log.relocateBack, List.map_map, Function.comp_def,
    Tranquilo.relocateBack_relocate hs, List.map_id']

theorem solveSubproblem_relocate (hs : 0 < s) {cr : K → K} (hcr : ∀ r, cr (s * r) = s * cr r)
    {p q p' q' : SubSolver K n} (h1 : SolverPlaceFree p) (h2 : SolverPlaceFree q)
    (h3 : SolverPlaceFree p') (h4 : SolverPlaceFree q') (retry : Bool)
    (model : ScalarModel K n) (r : Region K n) :
    SameOutcome (fun u u' => u'.x = relocate s a u.x ∧ u'.expectedImprovement = u.expectedImprovement ∧
        u'.xUnit = u.xUnit)
      (solveSubproblem cr p q p' q' retry model r)
      (solveSubproblem cr p q p' q' retry (model.relocate s a) (r.relocate s a)) := by
  have hcenter : (r.relocate s a).mapToUnit cr (r.relocate s a).center = r.mapToUnit cr r.center :=
    Region.relocate_mapToUnit hs hcr r r.center
  have hcall : ∀ u v : SubSolver K n, SolverPlaceFree u → SolverPlaceFree v → ∀ x,
      callSolver retry u v (model.relocate s a) x = callSolver retry u v model x := by
    intro u v hu hv x
    simp only [callSolver, show u (model.relocate s a) x = u model x from hu model _ _ x,
      show v (model.relocate s a) x = v model x from hv model _ _ x]
  simp only [solveSubproblem, hcenter, Region.relocate_shape hs, hcall _ _ h1 h3, hcall _ _ h2 h4,
    ScalarModel.relocate_predict]
  split
  · exact rfl
  · split_ifs
    · exact ⟨Region.relocate_mapFromUnit hs hcr r _, rfl, rfl⟩
    · exact ⟨rfl, rfl, rfl⟩

theorem sampleR_relocate (hs : 0 < s) (b : BuiltinSettings K n m)
    (hcr : ∀ r, b.cubeRadius (s * r) = s * b.cubeRadius r) (it round : Nat) (h : Log K n)
    (r : Region K n) (k : Nat) (xs : List (Vec K n)) :
    SameOutcome (fun ys ys' => ys' = ys.map (relocate s a)) (builtinSampleR b it round h r k xs)
      (builtinSampleR (b.relocate s a) it round (h.relocate s a) (r.relocate s a) k
        (xs.map (relocate s a))) := by
  have hrng : (b.relocate s a).rng it round (h.relocate s a) = b.rng it round h := by
    simp only [BuiltinSettings.relocate, Log.relocateBack_relocate hs]
  have hrows : ∀ x y : Except Err (List (Row K n)),
      SameOutcome (fun l l' => l' = l.map fun p => p.map (relocate s a)) x y →
      SameOutcome (fun ys ys' => ys' = ys.map (relocate s a))
        (x >>= fun rows => match allRows rows with
          | some ys => pure ys
          | none => .error .valueError)
        (y >>= fun rows => match allRows rows with
          | some ys => pure ys
          | none => .error .valueError) := by
    intro x y hxy
    refine SameOutcome.bind hxy fun rows rows' _ hrows => ?_
    subst hrows
    rw [allRows_map]
    cases allRows rows <;> exact rfl
  simp only [builtinSampleR, hrng]
  simp only [BuiltinSettings.relocate]
  cases b.sampler with
  | randomInterior => exact hrows _ _ (interiorSampler_relocate hs hcr _ _ r k _)
  | randomHull d => exact hrows _ _ (hullSampler_relocate hs hcr _ r k _ d)
  | optimalHull o => exact hrows _ _ (optimalSampler_relocate hs hcr _ r k _ o xs)

theorem candidates_relocate (hs : 0 < s) {nrm : Vec K n → K}
    (hn : ∀ v : Vec K n, nrm (fun i => s * v i) = s * nrm v) (f : K) (r : Region K n) (h : Log K n) :
    varianceCandidates nrm f (r.relocate s a) (h.relocate s a) = varianceCandidates nrm f r h := by
  simp only [varianceCandidates]
  rw [show (r.relocate s a).radius * f = s * (r.radius * f) by simp only [Region.relocate]; ring]
  exact Log.relocate_indicesInRegion hs hn h r.center _

theorem rhoNoise_relocate (hs : 0 < s) (b : BuiltinSettings K n m)
    (hn : ∀ v : Vec K n, b.nrm (fun i => s * v i) = s * b.nrm v)
    (hcr : ∀ r, b.cubeRadius (s * r) = s * b.cubeRadius r)
    (h1 : SolverPlaceFree b.sphere) (h2 : SolverPlaceFree b.cube)
    (h3 : SolverPlaceFree b.fallbackSphere) (h4 : SolverPlaceFree b.fallbackCube) (it : Nat)
    (h : Log K n) (xs : List (Vec K n)) (vm vm' old old' : VectorModel K n m) (r : Region K n)
    (hvm : MovedModel s a vm vm') (hold : MovedModel s a old old') :
    builtinRhoNoise (b.relocate s a) it (h.relocate s a) (xs.map (relocate s a)) vm' old'
      (r.relocate s a) = builtinRhoNoise b it h xs vm old r := by
  have hcov : estimateCovariance b.nrm b.noiseDistance b.noiseMinEvals b.covOfOne (r.relocate s a)
      (h.relocate s a) (b.fvecs h) =
      estimateCovariance b.nrm b.noiseDistance b.noiseMinEvals b.covOfOne r h (b.fvecs h) := by
    simp only [estimateCovariance, candidates_relocate hs hn]
    rfl
  simp only [builtinRhoNoise]
  rw [show (b.relocate s a).fvecs (h.relocate s a) = b.fvecs h by
    simp only [BuiltinSettings.relocate, Log.relocateBack_relocate hs]]
  rw [show (b.relocate s a).draws it (h.relocate s a) = b.draws it h by
    simp only [BuiltinSettings.relocate, Log.relocateBack_relocate hs]]
  simp only [show (b.relocate s a).nrm = b.nrm from rfl,
    show (b.relocate s a).noiseDistance = b.noiseDistance from rfl,
    show (b.relocate s a).noiseMinEvals = b.noiseMinEvals from rfl,
    show (b.relocate s a).covOfOne = b.covOfOne from rfl, hcov]
  congr 1
  funext cov
  cases finiteMat cov with
  | none => rfl
  | some cov =>
    simp only
    obtain ⟨rfl, hv⟩ := hvm
    have key : ∀ (N' : Nat) (ys : Fin N' → Vec K n) (ds : Mat K m m → Nat → List (Fin N' → Vec K m)),
        simulateRhoNoise b.cubeRadius
          (fun xs y region old => builtinFitTemplate b region old xs fun s k => .fin (y s k))
          (aggregate b.aggregator)
          (solveSubproblem b.cubeRadius b.sphere b.cube b.fallbackSphere b.fallbackCube b.retry)
          ds b.nDraws b.ignoreCorrelation (fun t => relocate s a (ys t)) (vm.relocate s a) old'
          (r.relocate s a) cov =
        simulateRhoNoise b.cubeRadius
          (fun xs y region old => builtinFitTemplate b region old xs fun s k => .fin (y s k))
          (aggregate b.aggregator)
          (solveSubproblem b.cubeRadius b.sphere b.cube b.fallbackSphere b.fallbackCube b.retry)
          ds b.nDraws b.ignoreCorrelation ys vm old r cov := by
      intro N' ys ds
      simp only [simulateRhoNoise]
      refine SameOutcome.eq (SameOutcome.bind (aggregate_relocate b.aggregator vm) fun tm tm' _ htm => ?_)
      subst htm
      split_ifs
      · exact rfl
      · refine SameOutcome.refl_eq ?_
        congr 1
        funext draw
        refine SameOutcome.eq ?_
        simp only [simulateOneRho, Region.relocate_mapToUnit hs hcr, VectorModel.relocate_predict]
        refine SameOutcome.bind (fitTemplate_relocate hs b hcr r old old' hold ys _)
          fun v v' _ hvv => ?_
        obtain ⟨rfl, -⟩ := hvv
        refine SameOutcome.bind (aggregate_relocate b.aggregator v) fun sm sm' _ hsm => ?_
        subst hsm
        refine SameOutcome.bind (solveSubproblem_relocate hs hcr h1 h2 h3 h4 b.retry sm r)
          fun u u' _ hu => ?_
        have hcenter : (r.relocate s a).mapToUnit b.cubeRadius (r.relocate s a).center =
          r.mapToUnit b.cubeRadius r.center := Region.relocate_mapToUnit hs hcr r r.center
        simp only [hcenter, ScalarModel.relocate_predict, hu.2.1, hu.2.2]
        exact rfl
    have gen : ∀ (N' : Nat) (hN : N' = xs.length) (ys : Fin N' → Vec K n),
        (∀ t, ys t = relocate s a xs[Fin.cast hN t]) →
        simulateRhoNoise b.cubeRadius
          (fun xs y region old => builtinFitTemplate b region old xs fun s k => .fin (y s k))
          (aggregate b.aggregator)
          (solveSubproblem b.cubeRadius b.sphere b.cube b.fallbackSphere b.fallbackCube b.retry)
          (b.draws it h N') b.nDraws b.ignoreCorrelation ys (vm.relocate s a) old'
          (r.relocate s a) cov =
        simulateRhoNoise b.cubeRadius
          (fun xs y region old => builtinFitTemplate b region old xs fun s k => .fin (y s k))
          (aggregate b.aggregator)
          (solveSubproblem b.cubeRadius b.sphere b.cube b.fallbackSphere b.fallbackCube b.retry)
          (b.draws it h xs.length) b.nDraws b.ignoreCorrelation (fun t => xs[t]) vm old r cov := by
      intro N' hN ys hys
      subst hN
      rw [show ys = fun t => relocate s a xs[t] from funext hys]
      exact key _ _ _
    exact gen _ (List.length_map (as := xs) (relocate s a)) _ fun t => by simp

/-- The built in components respect a change of origin and unit. -/
theorem builtin_place [FloorRing K] (hs : 0 < s) (b : BuiltinSettings K n m)
    (hn : ∀ v : Vec K n, b.nrm (fun i => s * v i) = s * b.nrm v)
    (hcr : ∀ r, b.cubeRadius (s * r) = s * b.cubeRadius r)
    (h1 : SolverPlaceFree b.sphere) (h2 : SolverPlaceFree b.cube)
    (h3 : SolverPlaceFree b.fallbackSphere) (h4 : SolverPlaceFree b.fallbackCube) (noisy : Bool) :
    PlaceRespected s a noisy (MovedModel s a) (fun u u' => u' = u.relocate s a) (builtinComponents b)
      (builtinComponents (b.relocate s a)) where
  nrm := hn
  cubeRadius := hcr
  oracle k x := by
    simp only [builtinComponents, BuiltinSettings.relocate, relocateBack_relocate hs]
  filter t t' h size k xs is ht := by
    simp only [builtinComponents, builtinFilter, BuiltinSettings.relocate, ht.x, ht.index,
      ht.trustregion, show (t.trustregion.relocate s a).radius = s * t.trustregion.radius from rfl]
    cases b.filter with
    | discardAll => exact rfl
    | keepAll => exact rfl
    | clustering st shape => exact keepCluster_relocate hs hn _ _ _ _ _ _ _
    | dropExcess f =>
      simp only [dropExcess, List.length_map]
      split_ifs
      · exact dropWorst_relocate hs hn _ _ _ _ _ _
      · exact rfl
  sample it round h r k xs := sampleR_relocate hs b hcr it round h r k xs
  fit h is r vm vm' hvm := by
    have hxs : (fun t : Fin is.length => ((h.relocate s a).xs[is[t]]?).getD (r.relocate s a).center) =
        fun t => relocate s a ((h.xs[is[t]]?).getD r.center) := by
      funext t
      simp only [Log.relocate_xs, List.getElem?_map]
      cases h.xs[is[t]]? <;> rfl
    have hdata : (b.relocate s a).data (h.relocate s a) = b.data h := by
      simp only [BuiltinSettings.relocate, Log.relocateBack_relocate hs]
    simp only [builtinComponents, builtinFit, hxs, hdata]
    exact fitTemplate_relocate hs b hcr r vm vm' hvm _ _
  aggregate vm vm' hvm := by
    obtain ⟨rfl, -⟩ := hvm
    exact aggregate_relocate b.aggregator vm
  solve sm sm' r h := by
    subst h
    have := solveSubproblem_relocate (a := a) hs hcr h1 h2 h3 h4 b.retry sm r
    simp only [builtinComponents, builtinSolve]
    revert this
    simp only [BuiltinSettings.relocate]
    cases solveSubproblem b.cubeRadius b.sphere b.cube b.fallbackSphere b.fallbackCube b.retry sm r <;>
      cases solveSubproblem b.cubeRadius b.sphere b.cube b.fallbackSphere b.fallbackCube b.retry
        (sm.relocate s a) (r.relocate s a)
    · exact fun h => h
    · exact fun h => h
    · exact fun h => h
    · exact fun h => ⟨h.1, h.2.1⟩
  initModel h r hr := by
    refine ⟨?_, fun i => hr⟩
    have : (b.relocate s a).start (h.relocate s a) = b.start h := by
      simp only [BuiltinSettings.relocate, Log.relocateBack_relocate hs]
    simp only [builtinComponents, builtinInit, this]
    rfl
  gradNorm sm sm' h := by
    subst h
    rfl
  noiseSigma _ h r := by
    simp only [builtinComponents, builtinNoiseSigma]
    congr 1
    simp only [estimateVariance, BuiltinSettings.relocate, candidates_relocate hs hn]
    rfl
  rhoNoise _ it h xs vm vm' old old' r hvm hold :=
    rhoNoise_relocate hs b hn hcr h1 h2 h3 h4 it h xs vm vm' old old' r hvm hold

end Tranquilo
