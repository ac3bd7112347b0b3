import Verif.Lemmas.MirrorRun
import Verif.Lemmas.RescaleFit
import Verif.Lemmas.RelocateFit
import Verif.Lemmas.FitModels
import Verif.Spec.MirrorBuiltin
import Verif.Lemmas.PermuteBuiltin
import Mathlib.Data.List.NodupEquivFin
import Mathlib.Tactic.LinearCombination

/-!
# The samplers in mirrored parameters
-/

namespace Tranquilo

variable {K : Type} [Field K] [LinearOrder K] [IsStrictOrderedRing K] {n m N : Nat}
variable {σ : Fin n → Bool}

/-! ### Sums -/

theorem dot_mirror (a b : Vec K n) : dot (mirror σ a) (mirror σ b) = dot a b :=
  Finset.sum_congr rfl fun i _ => by
    rw [mirror_apply, mirror_apply]
    linear_combination (a i * b i) * sgn_mul_self (K := K) (σ := σ) i

theorem mirror_hess (h : Mat K n n) (i j : Fin n) :
    (if σ i = σ j then h i j else -h i j) = sgn σ i * sgn σ j * h i j := by
  unfold sgn
  cases σ i <;> cases σ j <;> simp

theorem norm2_mirror (root : K → K) (v : Vec K n) : norm2 root (mirror σ v) = norm2 root v := by
  simp only [norm2, dot_mirror]

theorem halfQuad_mirror (h : Mat K n n) (x : Vec K n) :
    halfQuad (fun i j => if σ i = σ j then h i j else -h i j) (mirror σ x) = halfQuad h x := by
  simp only [halfQuad, mirror_hess]
  congr 1
  refine Finset.sum_congr rfl fun j _ => ?_
  rw [Finset.sum_mul, Finset.sum_mul]
  refine Finset.sum_congr rfl fun i _ => ?_
  rw [mirror_apply, mirror_apply]
  linear_combination (x i * h i j * x j) * (sgn_mul_self (K := K) (σ := σ) i) +
    (sgn σ i * sgn σ i * x i * h i j * x j) * (sgn_mul_self (K := K) (σ := σ) j)

/-! ### Samplers -/

theorem hullNorm_mirror (root : K → K) (shape : Shape) (v : Vec K n) :
    hullNorm root shape (mirror σ v) = hullNorm root shape v := by
  cases shape with
  | sphere => exact norm2_mirror root v
  | cube => simp only [hullNorm, mirror_abs]

/-- Mirrored rows. -/
abbrev mirrorRows (σ : Fin n → Bool) (rows : List (Row K n)) : List (Row K n) :=
  rows.map fun p => p.map (mirror σ)

theorem projectHull_mirror (root : K → K) (shape : Shape) (rows : List (Row K n)) :
    projectHull root shape (mirrorRows σ rows) = mirrorRows σ (projectHull root shape rows) := by
  simp only [projectHull, mirrorRows, List.map_map]
  refine List.map_congr_left fun p _ => ?_
  cases p with
  | none => rfl
  | some v =>
    simp only [Function.comp, Option.map_some, projectRow, hullNorm_mirror]
    split_ifs
    · rfl
    · simp only [Option.map_some, Option.some.injEq]
      funext i
      simp only [mirror_apply]
      ring

theorem mapFromUnit_mirrorRows {cr : K → K} (r : Region K n) (hr : r.Proper cr) (rows : List (Row K n)) :
    ((mirrorRows σ rows).map fun p => p.map ((r.mirror σ).mapFromUnit cr)) =
      mirrorRows σ (rows.map fun p => p.map (r.mapFromUnit cr)) := by
  simp only [mirrorRows, List.map_map]
  refine List.map_congr_left fun p _ => ?_
  cases p with
  | none => rfl
  | some u => simp only [Function.comp, Option.map_some, Region.mirror_mapFromUnit (fun _ => rfl) r hr]

theorem scaleUniform_mirror (lo up lo' up' : Vec K n) (hlo : ∀ i, lo' i = if σ i then -up i else lo i)
    (hup : ∀ i, up' i = if σ i then -lo i else up i) (u : Vec K n) :
    scaleUniform lo' up' (mirror01 σ u) = mirror σ (scaleUniform lo up u) := by
  funext i
  simp only [scaleUniform, mirror01, mirror, hlo, hup]
  split_ifs <;> ring

theorem interiorSampler_mirror (root radial cr : K → K) (r : Region K n) (hr : r.Proper cr) (k : Int)
    (rng : SampleRng K n) :
    SameOutcome (fun l l' => l' = mirrorRows σ l)
      (interiorSampler root radial cr r k rng)
      (interiorSampler root radial cr (r.mirror σ) k (rng.mirror σ)) := by
  simp only [interiorSampler, Region.mirror_shape]
  cases r.shape with
  | sphere =>
    simp only [ballSampler]
    split_ifs
    · exact rfl
    · have hrow : ∀ v : Vec K n, ballRow root radial (mirror σ v) =
          (ballRow root radial v).map (mirror σ) := by
        intro v
        simp only [ballRow, norm2_mirror]
        split_ifs
        · rfl
        · simp only [Option.map_some, Option.some.injEq]
          funext i
          simp only [mirror_apply]
          ring
      have := mapFromUnit_mirrorRows (σ := σ) (cr := cr) r hr
        ((rng.normal k.toNat).map (ballRow root radial))
      simp only [mirrorRows, List.map_map, Function.comp_def] at this
      simp only [SameOutcome, SampleRng.mirror, mirrorRows, List.map_map, Function.comp_def, hrow, this]
  | cube =>
    simp only [boxSampler]
    split_ifs
    · exact rfl
    · simp only [SameOutcome, SampleRng.mirror, mirrorRows, List.map_map]
      refine List.map_congr_left fun u _ => ?_
      simp only [Function.comp, Option.map_some, Option.some.injEq]
      exact scaleUniform_mirror _ _ _ _ (fun i => Region.mirror_cubeLower (fun _ => rfl) r i)
        (fun i => Region.mirror_cubeUpper (fun _ => rfl) r i) u

theorem drawRows_mirror (d : String) (rng : SampleRng K n) (k : Nat) :
    SameOutcome (fun l l' => l' = l.map (mirror σ)) (drawRows d rng k) (drawRows d (rng.mirror σ) k) := by
  simp only [drawRows]
  split_ifs
  · exact rfl
  · simp only [SameOutcome, SampleRng.mirror, List.map_map]
    refine List.map_congr_left fun u _ => ?_
    exact scaleUniform_mirror _ _ _ _ (fun i => by simp) (fun i => by simp) u
  · exact rfl

theorem drawBlocks_mirror (d : String) (rng : SampleRng K n) (m k : Nat) :
    SameOutcome (fun l l' => l' = l.map fun b => b.map (mirror σ)) (drawBlocks d rng m k)
      (drawBlocks d (rng.mirror σ) m k) := by
  simp only [drawBlocks]
  split_ifs
  · exact rfl
  · simp only [SameOutcome, SampleRng.mirror, List.map_map]
    refine List.map_congr_left fun b _ => ?_
    simp only [Function.comp_def, List.map_map]
    refine List.map_congr_left fun u _ => ?_
    exact scaleUniform_mirror _ _ _ _ (fun i => by simp) (fun i => by simp) u
  · exact rfl

theorem hullSampler_mirror (root cr : K → K) (r : Region K n) (hr : r.Proper cr) (k : Int) (rng : SampleRng K n)
    (d : Option String) :
    SameOutcome (fun l l' => l' = mirrorRows σ l)
      (hullSampler root cr r k rng d) (hullSampler root cr (r.mirror σ) k (rng.mirror σ) d) := by
  simp only [hullSampler, Region.mirror_shape]
  split_ifs
  · exact rfl
  · have := drawRows_mirror (σ := σ) (theDistribution d r.shape) rng k.toNat
    revert this
    cases drawRows (theDistribution d r.shape) rng k.toNat <;>
      cases drawRows (theDistribution d r.shape) (rng.mirror σ) k.toNat
    · exact fun h => h
    · exact fun h => h
    · exact fun h => h
    · rename_i raw raw'
      intro h
      have h : raw' = raw.map (mirror σ) := h
      subst h
      have e : (raw.map (mirror σ)).map some = mirrorRows σ (raw.map some) := by
        simp [mirrorRows, Function.comp_def]
      simp only [SameOutcome, e, projectHull_mirror, mapFromUnit_mirrorRows r hr]

theorem determinantOnHull_mirror (root : K → K) (existing : Option (List (Vec K n))) (shape : Shape)
    (x : List (Row K n)) :
    determinantOnHull root (existing.map fun l => l.map (mirror σ)) shape (mirrorRows σ x) =
      determinantOnHull root existing shape x := by
  simp only [determinantOnHull, projectHull_mirror]
  rw [show mirrorRows σ (projectHull root shape x) = (projectHull root shape x).map fun p =>
    p.map (mirror σ) from rfl, allRows_map]
  cases allRows (projectHull root shape x) with
  | none => rfl
  | some p =>
    simp only [Option.map_some]
    congr 1
    have he : (existing.map fun l => l.map (mirror σ)).getD [] = (existing.getD []).map (mirror σ) := by
      cases existing <;> rfl
    have hd : designMatrix (p.map (mirror σ) ++ (existing.map fun l => l.map (mirror σ)).getD [])
        (mirrorRows σ x).length = Matrix.diagonal (sgn σ) *
          designMatrix (p ++ existing.getD []) x.length * Matrix.diagonal (sgn σ) := by
      funext i j
      rw [Matrix.mul_diagonal, Matrix.diagonal_mul, he, ← List.map_append]
      simp only [designMatrix, mirrorRows, List.length_map, List.map_map, Function.comp_def, mirror_apply]
      have : ∀ l : List (Vec K n), (l.map fun x => sgn σ i * x i * (sgn σ j * x j)).sum =
          sgn σ i * sgn σ j * (l.map fun x => x i * x j).sum := by
        intro l
        induction l with
        | nil => simp
        | cons a l ih =>
          simp only [List.map_cons, List.sum_cons, ih]
          ring
      rw [this]
      ring
    rw [hd, Matrix.det_mul, Matrix.det_mul, mul_right_comm, ← Matrix.det_mul, Matrix.diagonal_mul_diagonal]
    simp [sgn_mul_self]

theorem pdistSq_mirror (l : List (Vec K n)) : pdistSq (l.map (mirror σ)) = pdistSq l := by
  induction l with
  | nil => rfl
  | cons x l ih =>
    simp only [List.map_cons, pdistSq, ih, List.map_map]
    congr 1
    refine List.map_congr_left fun y _ => ?_
    refine Finset.sum_congr rfl fun i _ => ?_
    rw [mirror_apply, mirror_apply]
    linear_combination ((x i - y i) ^ 2) * sgn_mul_self (K := K) (σ := σ) i

theorem hullDistances_mirror (existing : Option (List (Vec K n))) (p : List (Vec K n)) :
    hullDistances (existing.map fun l => l.map (mirror σ)) (p.map (mirror σ)) =
      hullDistances existing p := by
  cases existing with
  | none => exact pdistSq_mirror p
  | some e =>
    simp only [hullDistances, Option.map_some, ← List.map_append, pdistSq_mirror, List.length_map]

theorem sampleObjective_mirror (root : K → K) (shape : Shape) (k : Int) (o : OptimalSampler K n)
    (existing : Option (List (Vec K n))) (x : List (Row K n)) :
    sampleObjective root shape k o (existing.map fun l => l.map (mirror σ)) (mirrorRows σ x) =
      sampleObjective root shape k o existing x := by
  simp only [sampleObjective, determinantOnHull_mirror]
  cases theCriterion o.criterion k with
  | determinant => rfl
  | distance =>
    simp only [distanceOnHull, projectHull_mirror]
    rw [show mirrorRows σ (projectHull root shape x) = (projectHull root shape x).map fun p =>
      p.map (mirror σ) from rfl, allRows_map]
    cases allRows (projectHull root shape x) with
    | none => rfl
    | some p => simp only [Option.map_some, hullDistances_mirror]

theorem existingUnit_mirror (root cr : K → K) (r : Region K n) (hr : r.Proper cr) (crit : SampleCriterion)
    (xs : List (Vec K n)) :
    existingUnit root cr (r.mirror σ) crit (some (xs.map (mirror σ))) =
      (existingUnit root cr r crit (some xs)).map fun l => l.map (mirror σ) := by
  have h : (xs.map (mirror σ)).map ((r.mirror σ).mapToUnit cr) =
      (xs.map (r.mapToUnit cr)).map (mirror σ) := by
    simp only [List.map_map]
    exact List.map_congr_left fun x _ => Region.mirror_mapToUnit (fun _ => rfl) r hr x
  simp only [existingUnit, h]
  cases crit with
  | determinant => rfl
  | distance =>
    have hf : (((xs.map (r.mapToUnit cr)).map (mirror σ)).filter
        fun u => decide (1 / 10 ≤ norm2 root u)) =
        ((xs.map (r.mapToUnit cr)).filter fun u => decide (1 / 10 ≤ norm2 root u)).map (mirror σ) := by
      rw [List.filter_map]
      simp only [Function.comp_def, norm2_mirror]
    simp only [hf, List.map_eq_nil_iff]
    split_ifs <;> rfl

theorem startSample_mirror (root : K → K) (existing : Option (List (Vec K n))) (shape : Shape)
    (k : Nat) (cands : List (List (Row K n))) :
    SameOutcome (fun l l' => l' = mirrorRows σ l) (startSample root existing shape k cands)
      (startSample root (existing.map fun l => l.map (mirror σ)) shape k
        (cands.map (mirrorRows σ))) := by
  simp only [startSample, List.map_map, Function.comp_def, determinantOnHull_mirror]
  split_ifs
  · cases cands <;> exact rfl
  · cases npArgmax (cands.map (determinantOnHull root existing shape)) with
    | error e => exact rfl
    | ok i =>
      simp only [SameOutcome, List.getD_eq_getElem?_getD, List.getElem?_map]
      cases cands[i]? <;> rfl

theorem optimalSampler_mirror (root cr : K → K) (r : Region K n) (hr : r.Proper cr) (k : Int) (rng : SampleRng K n)
    (o : OptimalSampler K n) (ho : SamplerMirrorFree σ (.optimalHull o)) (xs : List (Vec K n)) :
    SameOutcome (fun l l' => l' = mirrorRows σ l)
      ((optimalHullSampler root cr r k rng o (some xs)).map Prod.fst)
      ((optimalHullSampler root cr (r.mirror σ) k (rng.mirror σ) o
        (some (xs.map (mirror σ)))).map Prod.fst) := by
  simp only [optimalHullSampler, Region.mirror_shape, existingUnit_mirror root cr r hr]
  generalize existingUnit root cr r (theCriterion o.criterion k) (some xs) = eu
  split_ifs
  · exact rfl
  · have hd := drawBlocks_mirror (σ := σ) (theDistribution o.distribution r.shape) rng
      o.nPointsRandomsearch k.toNat
    revert hd
    cases drawBlocks (theDistribution o.distribution r.shape) rng o.nPointsRandomsearch k.toNat <;>
      cases drawBlocks (theDistribution o.distribution r.shape) (rng.mirror σ) o.nPointsRandomsearch
        k.toNat
    · exact fun h => h
    · exact fun h => h.elim
    · exact fun h => h.elim
    · rename_i blocks blocks'
      intro h
      have h : blocks' = blocks.map fun b => b.map (mirror σ) := h
      subst h
      have e : ((blocks.map fun b => b.map (mirror σ)).map fun b =>
          projectHull root r.shape (b.map some)) =
          (blocks.map fun b => projectHull root r.shape (b.map some)).map (mirrorRows σ) := by
        simp only [List.map_map]
        refine List.map_congr_left fun b _ => ?_
        simp only [Function.comp, ← projectHull_mirror]
        simp [mirrorRows, Function.comp_def]
      simp only [e]
      have hs := startSample_mirror (σ := σ) root eu r.shape o.nPointsRandomsearch
        (blocks.map fun b => projectHull root r.shape (b.map some))
      revert hs
      cases startSample root eu r.shape o.nPointsRandomsearch
        (blocks.map fun b => projectHull root r.shape (b.map some)) <;>
        cases startSample root (eu.map fun l => l.map (mirror σ)) r.shape o.nPointsRandomsearch
          ((blocks.map fun b => projectHull root r.shape (b.map some)).map (mirrorRows σ))
      · exact fun h => h
      · exact fun h => h.elim
      · exact fun h => h.elim
      · rename_i x0 x0'
        intro h
        have h : x0' = mirrorRows σ x0 := h
        subst h
        have hopt : optimizerResult root r.shape k o (eu.map fun l => l.map (mirror σ))
            (mirrorRows σ x0) = mirrorRows σ (optimizerResult root r.shape k o eu x0) := by
          simp only [optimizerResult, Option.map_eq_none_iff]
          split_ifs
          · rfl
          · exact ho _ _ (fun x => sampleObjective_mirror root r.shape k o eu x) x0
        simp only [optimizeSample, Region.mirror_shape, Except.map, SameOutcome, hopt,
          determinantOnHull_mirror]
        rw [← mapFromUnit_mirrorRows r hr, ← projectHull_mirror]
        split_ifs <;> rfl

end Tranquilo
