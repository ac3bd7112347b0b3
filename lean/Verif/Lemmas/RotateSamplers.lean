import Verif.Lemmas.RotateFit

/-!
# The samplers in other coordinates
-/

namespace Tranquilo

variable {K : Type} [Field K] [LinearOrder K] [IsStrictOrderedRing K] {n m N : Nat}
variable {R : Mat K n n}

/-! ### Sums -/

theorem dot_rotate (hR : OrthonormalColumns R) (a b : Vec K n) : dot (rotate R a) (rotate R b) = dot a b :=
  rotate_inner hR a b

theorem norm2_rotate (hR : OrthonormalColumns R) (root : K → K) (v : Vec K n) :
    norm2 root (rotate R v) = norm2 root v := by
  simp only [norm2, dot_rotate hR]

theorem matVec_rotate (hR : OrthonormalColumns R) (h : Mat K n n) (d : Vec K n) :
    (fun i => ∑ j, rotateHess R h i j * rotate R d j) = rotate R fun a => ∑ b, h a b * d b := by
  funext i
  have h1 : ∀ j, rotateHess R h i j * rotate R d j =
      ∑ a, ∑ b, R i a * h a b * (R j b * rotate R d j) := by
    intro j
    simp only [rotateHess, Finset.sum_mul]
    exact Finset.sum_congr rfl fun a _ => Finset.sum_congr rfl fun b _ => by ring
  simp only [h1]
  rw [Finset.sum_comm]
  refine Finset.sum_congr rfl fun a _ => ?_
  rw [Finset.sum_comm, Finset.mul_sum]
  refine Finset.sum_congr rfl fun b _ => ?_
  rw [← Finset.mul_sum, show ∑ j, R j b * rotate R d j = rotateBack R (rotate R d) b from rfl,
    rotateBack_rotate hR]
  ring

/-! ### Regions -/

theorem Region.Free.mapToUnit_rotate {cr cr' : K → K} {r : Region K n} (hr : r.Free) (x : Vec K n) :
    (r.rotate R).mapToUnit cr' (Tranquilo.rotate R x) = Tranquilo.rotate R (r.mapToUnit cr x) := by
  have h : ∀ (s : Region K n) (c : K → K), s.Free → ∀ y, s.mapToUnit c y =
      fun i => s.radius⁻¹ * (y i - s.center i) := by
    intro s c hs y
    funext i
    unfold Region.mapToUnit
    rw [hs.shape]
    simp only
    ring
  rw [h _ _ hr.rotate, h _ _ hr, ← rotate_mul, ← rotate_sub]
  rfl

theorem Region.Free.mapFromUnit_rotate {cr cr' : K → K} {r : Region K n} (hr : r.Free) (x : Vec K n) :
    (r.rotate R).mapFromUnit cr' (Tranquilo.rotate R x) = Tranquilo.rotate R (r.mapFromUnit cr x) := by
  have h : ∀ (s : Region K n) (c : K → K), s.Free → ∀ y, s.mapFromUnit c y =
      fun i => s.radius * y i + s.center i := by
    intro s c hs y
    funext i
    unfold Region.mapFromUnit
    rw [hs.shape]
    simp only
    ring
  rw [h _ _ hr.rotate, h _ _ hr, ← rotate_add, ← rotate_mul]
  rfl

/-! ### Samplers -/

theorem hullNorm_rotate (hR : OrthonormalColumns R) (root : K → K) (v : Vec K n) :
    hullNorm root .sphere (rotate R v) = hullNorm root .sphere v := norm2_rotate hR root v

/-- Rotated rows. -/
abbrev rotateRows (R : Mat K n n) (rows : List (Row K n)) : List (Row K n) :=
  rows.map fun p => p.map (rotate R)

section

variable (hR : OrthonormalColumns R)
include hR

theorem projectHull_rotate (root : K → K) (rows : List (Row K n)) :
    projectHull root .sphere (rotateRows R rows) = rotateRows R (projectHull root .sphere rows) := by
  simp only [projectHull, rotateRows, List.map_map]
  refine List.map_congr_left fun p _ => ?_
  cases p with
  | none => rfl
  | some v =>
    simp only [Function.comp, Option.map_some, projectRow, hullNorm_rotate hR]
    split_ifs
    · rfl
    · simp only [Option.map_some, Option.some.injEq, div_eq_inv_mul]
      exact rotate_mul _ _

theorem mapFromUnit_rotateRows {cr : K → K} (r : Region K n) (hr : r.Free) (rows : List (Row K n)) :
    ((rotateRows R rows).map fun p => p.map ((r.rotate R).mapFromUnit cr)) =
      rotateRows R (rows.map fun p => p.map (r.mapFromUnit cr)) := by
  simp only [rotateRows, List.map_map]
  refine List.map_congr_left fun p _ => ?_
  cases p with
  | none => rfl
  | some u => simp only [Function.comp, Option.map_some, hr.mapFromUnit_rotate (cr := cr) (cr' := cr)]

theorem interiorSampler_rotate (root radial cr : K → K) (r : Region K n) (hr : r.Free) (k : Int)
    (rng : SampleRng K n) :
    SameOutcome (fun l l' => l' = rotateRows R l)
      (interiorSampler root radial cr r k rng)
      (interiorSampler root radial cr (r.rotate R) k (rng.rotate R)) := by
  simp only [interiorSampler, hr.shape, (hr.rotate (R := R)).shape]
  simp only [ballSampler]
  split_ifs
  · exact rfl
  · have hrow : ∀ v : Vec K n, ballRow root radial (rotate R v) =
        (ballRow root radial v).map (rotate R) := by
      intro v
      simp only [ballRow, norm2_rotate hR]
      split_ifs
      · rfl
      · simp only [Option.map_some, Option.some.injEq]
        rw [← show (fun i => radial (norm2 root v) / norm2 root v * v i) =
          fun i => v i * (radial (norm2 root v) / norm2 root v) from funext fun i => mul_comm _ _, ← rotate_mul]
        exact funext fun i => mul_comm _ _
    have := mapFromUnit_rotateRows (R := R) hR (cr := cr) r hr
      ((rng.normal k.toNat).map (ballRow root radial))
    simp only [rotateRows, List.map_map, Function.comp_def] at this
    simp only [SameOutcome, SampleRng.rotate, rotateRows, List.map_map, Function.comp_def, hrow, this]

theorem drawRows_rotate (d : String) (hd : d ≠ "uniform") (rng : SampleRng K n) (k : Nat) :
    SameOutcome (fun l l' => l' = l.map (rotate R)) (drawRows d rng k) (drawRows d (rng.rotate R) k) := by
  simp only [drawRows]
  split_ifs
  · exact rfl
  · exact rfl

theorem drawBlocks_rotate (d : String) (hd : d ≠ "uniform") (rng : SampleRng K n) (m k : Nat) :
    SameOutcome (fun l l' => l' = l.map fun b => b.map (rotate R)) (drawBlocks d rng m k)
      (drawBlocks d (rng.rotate R) m k) := by
  simp only [drawBlocks]
  split_ifs
  · exact rfl
  · exact rfl

theorem hullSampler_rotate (root cr : K → K) (r : Region K n) (hr : r.Free) (k : Int) (rng : SampleRng K n)
    (d : Option String) (hd : theDistribution d .sphere ≠ "uniform") :
    SameOutcome (fun l l' => l' = rotateRows R l)
      (hullSampler root cr r k rng d) (hullSampler root cr (r.rotate R) k (rng.rotate R) d) := by
  simp only [hullSampler, hr.shape, (hr.rotate (R := R)).shape]
  split_ifs
  · exact rfl
  · have := drawRows_rotate (R := R) hR (theDistribution d .sphere) hd rng k.toNat
    revert this
    cases drawRows (theDistribution d .sphere) rng k.toNat <;>
      cases drawRows (theDistribution d .sphere) (rng.rotate R) k.toNat
    · exact fun h => h
    · exact fun h => h
    · exact fun h => h
    · rename_i raw raw'
      intro h
      have h : raw' = raw.map (rotate R) := h
      subst h
      have e : (raw.map (rotate R)).map some = rotateRows R (raw.map some) := by
        simp [rotateRows, Function.comp_def]
      simp only [SameOutcome, e, projectHull_rotate hR, mapFromUnit_rotateRows hR r hr]

theorem determinantOnHull_rotate (root : K → K) (existing : Option (List (Vec K n))) 
    (x : List (Row K n)) :
    determinantOnHull root (existing.map fun l => l.map (rotate R)) .sphere (rotateRows R x) =
      determinantOnHull root existing .sphere x := by
  simp only [determinantOnHull, projectHull_rotate hR]
  rw [show rotateRows R (projectHull root .sphere x) = (projectHull root .sphere x).map fun p =>
    p.map (rotate R) from rfl, allRows_map]
  cases allRows (projectHull root .sphere x) with
  | none => rfl
  | some p =>
    simp only [Option.map_some]
    congr 1
    have he : (existing.map fun l => l.map (rotate R)).getD [] = (existing.getD []).map (rotate R) := by
      cases existing <;> rfl
    have hd : designMatrix (p.map (rotate R) ++ (existing.map fun l => l.map (rotate R)).getD [])
        (rotateRows R x).length = Matrix.of R * designMatrix (p ++ existing.getD []) x.length *
          (Matrix.of R).transpose := by
      funext i j
      rw [he, ← List.map_append]
      simp only [Matrix.mul_apply, Matrix.transpose_apply, Matrix.of_apply]
      simp only [designMatrix, rotateRows, List.length_map, List.map_map, Function.comp_def]
      have : ∀ l : List (Vec K n), (l.map fun x => rotate R x i * rotate R x j).sum =
          ∑ b, (∑ a, R i a * (l.map fun x => x a * x b).sum) * R j b := by
        intro l
        induction l with
        | nil => simp
        | cons v l ih =>
          simp only [List.map_cons, List.sum_cons, ih, mul_add, Finset.sum_add_distrib, add_mul]
          congr 1
          simp only [rotate, Finset.sum_mul, Finset.mul_sum]
          exact Finset.sum_congr rfl fun b _ => Finset.sum_congr rfl fun a _ => by ring
      rw [this, Finset.sum_div]
      refine Finset.sum_congr rfl fun b _ => ?_
      rw [Finset.sum_mul, Finset.sum_mul, Finset.sum_div]
      exact Finset.sum_congr rfl fun a _ => by ring
    have hdet : (Matrix.of R).det * (Matrix.of R).transpose.det = 1 := by
      rw [← Matrix.det_mul, show Matrix.of R * (Matrix.of R).transpose = 1 by
        ext a b
        simp only [Matrix.mul_apply, Matrix.transpose_apply, Matrix.of_apply, Matrix.one_apply]
        exact hR.rows a b, Matrix.det_one]
    rw [hd, Matrix.det_mul, Matrix.det_mul, mul_right_comm, hdet, one_mul]

theorem pdistSq_rotate (l : List (Vec K n)) : pdistSq (l.map (rotate R)) = pdistSq l := by
  induction l with
  | nil => rfl
  | cons x l ih =>
    simp only [List.map_cons, pdistSq, ih, List.map_map]
    congr 1
    refine List.map_congr_left fun y _ => ?_
    have := rotate_inner hR (fun i => x i - y i) fun i => x i - y i
    rw [← rotate_sub] at this
    simpa only [pow_two, Function.comp] using this

theorem hullDistances_rotate (existing : Option (List (Vec K n))) (p : List (Vec K n)) :
    hullDistances (existing.map fun l => l.map (rotate R)) (p.map (rotate R)) =
      hullDistances existing p := by
  cases existing with
  | none => exact pdistSq_rotate hR p
  | some e =>
    simp only [hullDistances, Option.map_some, ← List.map_append, pdistSq_rotate hR, List.length_map]

theorem sampleObjective_rotate (root : K → K)  (k : Int) (o : OptimalSampler K n)
    (existing : Option (List (Vec K n))) (x : List (Row K n)) :
    sampleObjective root .sphere k o (existing.map fun l => l.map (rotate R)) (rotateRows R x) =
      sampleObjective root .sphere k o existing x := by
  simp only [sampleObjective, determinantOnHull_rotate hR]
  cases theCriterion o.criterion k with
  | determinant => rfl
  | distance =>
    simp only [distanceOnHull, projectHull_rotate hR]
    rw [show rotateRows R (projectHull root .sphere x) = (projectHull root .sphere x).map fun p =>
      p.map (rotate R) from rfl, allRows_map]
    cases allRows (projectHull root .sphere x) with
    | none => rfl
    | some p => simp only [Option.map_some, hullDistances_rotate hR]

theorem existingUnit_rotate (root cr : K → K) (r : Region K n) (hr : r.Free) (crit : SampleCriterion)
    (xs : List (Vec K n)) :
    existingUnit root cr (r.rotate R) crit (some (xs.map (rotate R))) =
      (existingUnit root cr r crit (some xs)).map fun l => l.map (rotate R) := by
  have h : (xs.map (rotate R)).map ((r.rotate R).mapToUnit cr) =
      (xs.map (r.mapToUnit cr)).map (rotate R) := by
    simp only [List.map_map]
    exact List.map_congr_left fun x _ => hr.mapToUnit_rotate x
  simp only [existingUnit, h]
  cases crit with
  | determinant => rfl
  | distance =>
    have hf : (((xs.map (r.mapToUnit cr)).map (rotate R)).filter
        fun u => decide (1 / 10 ≤ norm2 root u)) =
        ((xs.map (r.mapToUnit cr)).filter fun u => decide (1 / 10 ≤ norm2 root u)).map (rotate R) := by
      rw [List.filter_map]
      simp only [Function.comp_def, norm2_rotate hR]
    simp only [hf, List.map_eq_nil_iff]
    split_ifs <;> rfl

theorem startSample_rotate (root : K → K) (existing : Option (List (Vec K n))) 
    (k : Nat) (cands : List (List (Row K n))) :
    SameOutcome (fun l l' => l' = rotateRows R l) (startSample root existing .sphere k cands)
      (startSample root (existing.map fun l => l.map (rotate R)) .sphere k
        (cands.map (rotateRows R))) := by
  simp only [startSample, List.map_map, Function.comp_def, determinantOnHull_rotate hR]
  split_ifs
  · cases cands <;> exact rfl
  · cases npArgmax (cands.map (determinantOnHull root existing .sphere)) with
    | error e => exact rfl
    | ok i =>
      simp only [SameOutcome, List.getD_eq_getElem?_getD, List.getElem?_map]
      cases cands[i]? <;> rfl

theorem optimalSampler_rotate (root cr : K → K) (r : Region K n) (hr : r.Free) (k : Int) (rng : SampleRng K n)
    (o : OptimalSampler K n) (ho : SamplerRotationFree R (.optimalHull o)) (xs : List (Vec K n)) :
    SameOutcome (fun l l' => l' = rotateRows R l)
      ((optimalHullSampler root cr r k rng o (some xs)).map Prod.fst)
      ((optimalHullSampler root cr (r.rotate R) k (rng.rotate R) o
        (some (xs.map (rotate R)))).map Prod.fst) := by
  simp only [optimalHullSampler, hr.shape, (hr.rotate (R := R)).shape, existingUnit_rotate hR root cr r hr]
  generalize existingUnit root cr r (theCriterion o.criterion k) (some xs) = eu
  split_ifs
  · exact rfl
  · have hd := drawBlocks_rotate (R := R) hR (theDistribution o.distribution .sphere) ho.1 rng
      o.nPointsRandomsearch k.toNat
    revert hd
    cases drawBlocks (theDistribution o.distribution .sphere) rng o.nPointsRandomsearch k.toNat <;>
      cases drawBlocks (theDistribution o.distribution .sphere) (rng.rotate R) o.nPointsRandomsearch
        k.toNat
    · exact fun h => h
    · exact fun h => h.elim
    · exact fun h => h.elim
    · rename_i blocks blocks'
      intro h
      have h : blocks' = blocks.map fun b => b.map (rotate R) := h
      subst h
      have e : ((blocks.map fun b => b.map (rotate R)).map fun b =>
          projectHull root .sphere (b.map some)) =
          (blocks.map fun b => projectHull root .sphere (b.map some)).map (rotateRows R) := by
        simp only [List.map_map]
        refine List.map_congr_left fun b _ => ?_
        simp only [Function.comp, ← projectHull_rotate hR]
        simp [rotateRows, Function.comp_def]
      simp only [e]
      have hs := startSample_rotate (R := R) hR root eu o.nPointsRandomsearch
        (blocks.map fun b => projectHull root .sphere (b.map some))
      revert hs
      cases startSample root eu .sphere o.nPointsRandomsearch
        (blocks.map fun b => projectHull root .sphere (b.map some)) <;>
        cases startSample root (eu.map fun l => l.map (rotate R)) .sphere o.nPointsRandomsearch
          ((blocks.map fun b => projectHull root .sphere (b.map some)).map (rotateRows R))
      · exact fun h => h
      · exact fun h => h.elim
      · exact fun h => h.elim
      · rename_i x0 x0'
        intro h
        have h : x0' = rotateRows R x0 := h
        subst h
        have hopt : optimizerResult root .sphere k o (eu.map fun l => l.map (rotate R))
            (rotateRows R x0) = rotateRows R (optimizerResult root .sphere k o eu x0) := by
          simp only [optimizerResult, Option.map_eq_none_iff]
          split_ifs
          · rfl
          · exact ho.2 _ _ (fun x => sampleObjective_rotate hR root k o eu x) x0
        simp only [optimizeSample, hr.shape, (hr.rotate (R := R)).shape, Except.map, SameOutcome, hopt,
          determinantOnHull_rotate hR]
        rw [← mapFromUnit_rotateRows hR r hr, ← projectHull_rotate hR]
        split_ifs <;> rfl

end

end Tranquilo
