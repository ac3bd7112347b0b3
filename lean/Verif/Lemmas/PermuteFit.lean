import Verif.Lemmas.PermuteRun
import Verif.Lemmas.RescaleFit
import Verif.Lemmas.RelocateFit
import Verif.Lemmas.FitModels
import Verif.Spec.PermuteBuiltin
import Mathlib.Data.List.NodupEquivFin

/-!
# The built in components treat all parameters alike
-/

namespace Tranquilo

variable {K : Type} [Field K] [LinearOrder K] [IsStrictOrderedRing K] {n m N : Nat}
variable {σ : Equiv.Perm (Fin n)}

/-! ### Sums -/

theorem dot_permute (a b : Vec K n) : dot (permute σ a) (permute σ b) = dot a b :=
  Equiv.sum_comp σ fun i => a i * b i

theorem norm2_permute (root : K → K) (v : Vec K n) : norm2 root (permute σ v) = norm2 root v := by
  simp only [norm2, dot_permute]

theorem halfQuad_permute (h : Mat K n n) (x : Vec K n) :
    halfQuad (fun i j => h (σ i) (σ j)) (permute σ x) = halfQuad h x := by
  simp only [halfQuad, permute]
  congr 1
  rw [← Equiv.sum_comp σ fun j => (∑ i, x i * h i j) * x j]
  refine Finset.sum_congr rfl fun j _ => ?_
  congr 1
  exact Equiv.sum_comp σ fun i => x i * h i (σ j)

theorem vecMax_permute (v : Vec K n) : vecMax (permute σ v) = vecMax v := by
  simp only [vecMax]
  split_ifs with h
  · refine le_antisymm (Finset.sup'_le _ _ fun i _ => ?_) (Finset.sup'_le _ _ fun i _ => ?_)
    · exact Finset.le_sup' v (Finset.mem_univ (σ i))
    · have := Finset.le_sup' (permute σ v) (Finset.mem_univ (σ.symm i))
      rwa [show permute σ v (σ.symm i) = v i by simp [permute]] at this
  · rfl

/-! ### Samplers -/

theorem hullNorm_permute (root : K → K) (shape : Shape) (v : Vec K n) :
    hullNorm root shape (permute σ v) = hullNorm root shape v := by
  cases shape with
  | sphere => exact norm2_permute root v
  | cube => exact vecMax_permute fun i => |v i|

/-- Rows in the new order. -/
abbrev permuteRows (σ : Equiv.Perm (Fin n)) (rows : List (Row K n)) : List (Row K n) :=
  rows.map fun p => p.map (permute σ)

theorem projectHull_permute (root : K → K) (shape : Shape) (rows : List (Row K n)) :
    projectHull root shape (permuteRows σ rows) = permuteRows σ (projectHull root shape rows) := by
  simp only [projectHull, permuteRows, List.map_map]
  refine List.map_congr_left fun p _ => ?_
  cases p with
  | none => rfl
  | some v =>
    simp only [Function.comp, Option.map_some, projectRow, hullNorm_permute]
    split_ifs <;> rfl

theorem mapFromUnit_permuteRows {cr : K → K} (r : Region K n) (rows : List (Row K n)) :
    ((permuteRows σ rows).map fun p => p.map ((r.permute σ).mapFromUnit cr)) =
      permuteRows σ (rows.map fun p => p.map (r.mapFromUnit cr)) := by
  simp only [permuteRows, List.map_map]
  refine List.map_congr_left fun p _ => ?_
  cases p with
  | none => rfl
  | some u => simp only [Function.comp, Option.map_some, Region.permute_mapFromUnit fun _ => rfl]

theorem interiorSampler_permute (root radial cr : K → K) (r : Region K n) (k : Int)
    (rng : SampleRng K n) :
    SameOutcome (fun l l' => l' = permuteRows σ l)
      (interiorSampler root radial cr r k rng)
      (interiorSampler root radial cr (r.permute σ) k (rng.permute σ)) := by
  simp only [interiorSampler, Region.permute_shape]
  cases r.shape with
  | sphere =>
    simp only [ballSampler]
    split_ifs
    · exact rfl
    · have hrow : ∀ v : Vec K n, ballRow root radial (permute σ v) =
          (ballRow root radial v).map (permute σ) := by
        intro v
        simp only [ballRow, norm2_permute]
        split_ifs <;> rfl
      have := mapFromUnit_permuteRows (σ := σ) (cr := cr) r
        ((rng.normal k.toNat).map (ballRow root radial))
      simp only [permuteRows, List.map_map, Function.comp_def] at this
      simp only [SameOutcome, SampleRng.permute, permuteRows, List.map_map, Function.comp_def, hrow, this]
  | cube =>
    simp only [boxSampler]
    split_ifs
    · exact rfl
    · simp only [SameOutcome, SampleRng.permute, permuteRows, List.map_map]
      refine List.map_congr_left fun u _ => ?_
      simp only [Function.comp, Option.map_some, Option.some.injEq]
      rw [Region.permute_cubeLower fun _ => rfl, Region.permute_cubeUpper fun _ => rfl]
      rfl

theorem drawRows_permute (d : String) (rng : SampleRng K n) (k : Nat) :
    SameOutcome (fun l l' => l' = l.map (permute σ)) (drawRows d rng k) (drawRows d (rng.permute σ) k) := by
  simp only [drawRows]
  split_ifs
  · exact rfl
  · simp only [SameOutcome, SampleRng.permute, List.map_map]
    rfl
  · exact rfl

theorem drawBlocks_permute (d : String) (rng : SampleRng K n) (m k : Nat) :
    SameOutcome (fun l l' => l' = l.map fun b => b.map (permute σ)) (drawBlocks d rng m k)
      (drawBlocks d (rng.permute σ) m k) := by
  simp only [drawBlocks]
  split_ifs
  · exact rfl
  · simp only [SameOutcome, SampleRng.permute, List.map_map, Function.comp_def]
    rfl
  · exact rfl

theorem hullSampler_permute (root cr : K → K) (r : Region K n) (k : Int) (rng : SampleRng K n)
    (d : Option String) :
    SameOutcome (fun l l' => l' = permuteRows σ l)
      (hullSampler root cr r k rng d) (hullSampler root cr (r.permute σ) k (rng.permute σ) d) := by
  simp only [hullSampler, Region.permute_shape]
  split_ifs
  · exact rfl
  · have := drawRows_permute (σ := σ) (theDistribution d r.shape) rng k.toNat
    revert this
    cases drawRows (theDistribution d r.shape) rng k.toNat <;>
      cases drawRows (theDistribution d r.shape) (rng.permute σ) k.toNat
    · exact fun h => h
    · exact fun h => h
    · exact fun h => h
    · rename_i raw raw'
      intro h
      have h : raw' = raw.map (permute σ) := h
      subst h
      have e : (raw.map (permute σ)).map some = permuteRows σ (raw.map some) := by
        simp [permuteRows, Function.comp_def]
      simp only [SameOutcome, e, projectHull_permute, mapFromUnit_permuteRows]

theorem determinantOnHull_permute (root : K → K) (existing : Option (List (Vec K n))) (shape : Shape)
    (x : List (Row K n)) :
    determinantOnHull root (existing.map fun l => l.map (permute σ)) shape (permuteRows σ x) =
      determinantOnHull root existing shape x := by
  simp only [determinantOnHull, projectHull_permute]
  rw [show permuteRows σ (projectHull root shape x) = (projectHull root shape x).map fun p =>
    p.map (permute σ) from rfl, allRows_map]
  cases allRows (projectHull root shape x) with
  | none => rfl
  | some p =>
    simp only [Option.map_some]
    congr 1
    rw [← Matrix.det_submatrix_equiv_self σ (designMatrix (p ++ existing.getD []) x.length)]
    congr 1
    funext i j
    simp only [designMatrix, Matrix.submatrix_apply, permuteRows, List.length_map]
    have : (existing.map fun l => l.map (permute σ)).getD [] = (existing.getD []).map (permute σ) := by
      cases existing <;> rfl
    rw [this, ← List.map_append, List.map_map]
    rfl

theorem pdistSq_permute (l : List (Vec K n)) : pdistSq (l.map (permute σ)) = pdistSq l := by
  induction l with
  | nil => rfl
  | cons x l ih =>
    simp only [List.map_cons, pdistSq, ih, List.map_map]
    congr 1
    refine List.map_congr_left fun y _ => ?_
    exact Equiv.sum_comp σ fun i => (x i - y i) ^ 2

theorem hullDistances_permute (existing : Option (List (Vec K n))) (p : List (Vec K n)) :
    hullDistances (existing.map fun l => l.map (permute σ)) (p.map (permute σ)) =
      hullDistances existing p := by
  cases existing with
  | none => exact pdistSq_permute p
  | some e =>
    simp only [hullDistances, Option.map_some, ← List.map_append, pdistSq_permute, List.length_map]

theorem sampleObjective_permute (root : K → K) (shape : Shape) (k : Int) (o : OptimalSampler K n)
    (existing : Option (List (Vec K n))) (x : List (Row K n)) :
    sampleObjective root shape k o (existing.map fun l => l.map (permute σ)) (permuteRows σ x) =
      sampleObjective root shape k o existing x := by
  simp only [sampleObjective, determinantOnHull_permute]
  cases theCriterion o.criterion k with
  | determinant => rfl
  | distance =>
    simp only [distanceOnHull, projectHull_permute]
    rw [show permuteRows σ (projectHull root shape x) = (projectHull root shape x).map fun p =>
      p.map (permute σ) from rfl, allRows_map]
    cases allRows (projectHull root shape x) with
    | none => rfl
    | some p => simp only [Option.map_some, hullDistances_permute]

theorem existingUnit_permute (root cr : K → K) (r : Region K n) (crit : SampleCriterion)
    (xs : List (Vec K n)) :
    existingUnit root cr (r.permute σ) crit (some (xs.map (permute σ))) =
      (existingUnit root cr r crit (some xs)).map fun l => l.map (permute σ) := by
  have h : (xs.map (permute σ)).map ((r.permute σ).mapToUnit cr) =
      (xs.map (r.mapToUnit cr)).map (permute σ) := by
    simp only [List.map_map]
    exact List.map_congr_left fun x _ => Region.permute_mapToUnit (fun _ => rfl) r x
  simp only [existingUnit, h]
  cases crit with
  | determinant => rfl
  | distance =>
    have hf : (((xs.map (r.mapToUnit cr)).map (permute σ)).filter
        fun u => decide (1 / 10 ≤ norm2 root u)) =
        ((xs.map (r.mapToUnit cr)).filter fun u => decide (1 / 10 ≤ norm2 root u)).map (permute σ) := by
      rw [List.filter_map]
      simp only [Function.comp_def, norm2_permute]
    simp only [hf, List.map_eq_nil_iff]
    split_ifs <;> rfl

theorem startSample_permute (root : K → K) (existing : Option (List (Vec K n))) (shape : Shape)
    (k : Nat) (cands : List (List (Row K n))) :
    SameOutcome (fun l l' => l' = permuteRows σ l) (startSample root existing shape k cands)
      (startSample root (existing.map fun l => l.map (permute σ)) shape k
        (cands.map (permuteRows σ))) := by
  simp only [startSample, List.map_map, Function.comp_def, determinantOnHull_permute]
  split_ifs
  · cases cands <;> exact rfl
  · cases npArgmax (cands.map (determinantOnHull root existing shape)) with
    | error e => exact rfl
    | ok i =>
      simp only [SameOutcome, List.getD_eq_getElem?_getD, List.getElem?_map]
      cases cands[i]? <;> rfl

theorem optimalSampler_permute (root cr : K → K) (r : Region K n) (k : Int) (rng : SampleRng K n)
    (o : OptimalSampler K n) (ho : SamplerOrderFree σ (.optimalHull o)) (xs : List (Vec K n)) :
    SameOutcome (fun l l' => l' = permuteRows σ l)
      ((optimalHullSampler root cr r k rng o (some xs)).map Prod.fst)
      ((optimalHullSampler root cr (r.permute σ) k (rng.permute σ) o
        (some (xs.map (permute σ)))).map Prod.fst) := by
  simp only [optimalHullSampler, Region.permute_shape, existingUnit_permute]
  generalize existingUnit root cr r (theCriterion o.criterion k) (some xs) = eu
  split_ifs
  · exact rfl
  · have hd := drawBlocks_permute (σ := σ) (theDistribution o.distribution r.shape) rng
      o.nPointsRandomsearch k.toNat
    revert hd
    cases drawBlocks (theDistribution o.distribution r.shape) rng o.nPointsRandomsearch k.toNat <;>
      cases drawBlocks (theDistribution o.distribution r.shape) (rng.permute σ) o.nPointsRandomsearch
        k.toNat
    · exact fun h => h
    · exact fun h => h.elim
    · exact fun h => h.elim
    · rename_i blocks blocks'
      intro h
      have h : blocks' = blocks.map fun b => b.map (permute σ) := h
      subst h
      have e : ((blocks.map fun b => b.map (permute σ)).map fun b =>
          projectHull root r.shape (b.map some)) =
          (blocks.map fun b => projectHull root r.shape (b.map some)).map (permuteRows σ) := by
        simp only [List.map_map]
        refine List.map_congr_left fun b _ => ?_
        simp only [Function.comp, ← projectHull_permute]
        simp [permuteRows, Function.comp_def]
      simp only [e]
      have hs := startSample_permute (σ := σ) root eu r.shape o.nPointsRandomsearch
        (blocks.map fun b => projectHull root r.shape (b.map some))
      revert hs
      cases startSample root eu r.shape o.nPointsRandomsearch
        (blocks.map fun b => projectHull root r.shape (b.map some)) <;>
        cases startSample root (eu.map fun l => l.map (permute σ)) r.shape o.nPointsRandomsearch
          ((blocks.map fun b => projectHull root r.shape (b.map some)).map (permuteRows σ))
      · exact fun h => h
      · exact fun h => h.elim
      · exact fun h => h.elim
      · rename_i x0 x0'
        intro h
        have h : x0' = permuteRows σ x0 := h
        subst h
        have hopt : optimizerResult root r.shape k o (eu.map fun l => l.map (permute σ))
            (permuteRows σ x0) = permuteRows σ (optimizerResult root r.shape k o eu x0) := by
          simp only [optimizerResult, Option.map_eq_none_iff]
          split_ifs
          · rfl
          · exact ho _ _ (fun x => sampleObjective_permute root r.shape k o eu x) x0
        simp only [optimizeSample, Region.permute_shape, Except.map, SameOutcome, hopt,
          determinantOnHull_permute]
        rw [← mapFromUnit_permuteRows, ← projectHull_permute]
        split_ifs <;> rfl

end Tranquilo
