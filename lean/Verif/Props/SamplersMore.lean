import Verif.Props.Samplers

/-!
# C91 (what the optimal sampler maximizes), C92 (symmetry of random samples)
-/

namespace Tranquilo

variable {K : Type} [Field K] [LinearOrder K] [IsStrictOrderedRing K] {n : Nat}

/-! ## C91 -/

/-- `k` rows without NaN and without zero rows, as `scipy.optimize.minimize` gets and returns them. -/
def NonzeroRows (k : Nat) (x : List (Row K n)) : Prop :=
  x.length = k ∧ ∀ p ∈ x, ∃ v, p = some v ∧ v ≠ fun _ => 0

/-- An optimizer that finds the global minimum over all samples of the given size whenever there is
one. -/
structure GlobalMinimize (minimize : (List (Row K n) → XVal K) → List (Row K n) → List (Row K n)) :
    Prop where
  shape : MinimizeSpec minimize
  best : ∀ (f : List (Row K n) → XVal K) (k : Nat) (x0 : List (Row K n)), NonzeroRows k x0 →
    (∃ x, NonzeroRows k x ∧ ∀ y, NonzeroRows k y → f x ≤ f y) →
    ∀ y, NonzeroRows k y → f (minimize f x0) ≤ f y

theorem nonzeroRows_of_unit {shape : Shape} {us : List (Vec K n)} (h : ∀ u ∈ us, OnUnitHull shape u) :
    NonzeroRows us.length (us.map some) := by
  refine ⟨by simp, ?_⟩
  intro p hp
  obtain ⟨u, hu, rfl⟩ := List.mem_map.1 hp
  exact ⟨u, rfl, onUnitHull_ne_zero (h u hu)⟩

/-- Rows on the hull behind nonzero rows. -/
theorem NonzeroRows.project {root : K → K} (hroot : SqrtSpec root) (shape : Shape) {k : Nat}
    {x : List (Row K n)} (h : NonzeroRows k x) :
    ∃ us : List (Vec K n), projectHull root shape x = us.map some ∧ us.length = k ∧
      ∀ u ∈ us, OnUnitHull shape u := by
  obtain ⟨us, hus, hu⟩ := exists_unit_list (projectHull_unitRows hroot shape h.2)
  refine ⟨us, hus, ?_, hu⟩
  have := congrArg List.length hus
  rw [List.length_map, projectHull, List.length_map, h.1] at this
  exact this.symm

/-- The result of the optimal sampler: the images of points on the unit hull that either come from a
draw or from the optimizer, whose determinant is at least that of the optimizer's result. -/
theorem optimalHullSampler_choice (root cr : K → K) (hroot : SqrtSpec root) (r : Region K n)
    (rng : SampleRng K n) (hrng : RngSpec rng) (o : OptimalSampler K n)
    (hd : ValidDistribution o.distribution) (hm : 1 ≤ o.nPointsRandomsearch)
    (hmin : MinimizeSpec o.minimize) (existing : Option (List (Vec K n))) (k : Nat) (hk : 1 ≤ k) :
    ∃ us info x0 opt us0 usOpt,
      optimalHullSampler root cr r k rng o existing
        = .ok (us.map fun u => some (r.mapFromUnit cr u), some info) ∧
      NonzeroRows k x0 ∧ NonzeroRows k opt ∧
      opt = optimizerResult root r.shape k o
        (existingUnit root cr r (theCriterion o.criterion k) existing) x0 ∧
      projectHull root r.shape x0 = us0.map some ∧ projectHull root r.shape opt = usOpt.map some ∧
      (∀ u ∈ us0, OnUnitHull r.shape u) ∧ (∀ u ∈ usOpt, OnUnitHull r.shape u) ∧
      us0.length = k ∧ usOpt.length = k ∧
      ((us = us0 ∧ dOptimality usOpt
          ((existingUnit root cr r (theCriterion o.criterion k) existing).getD [])
          ≤ dOptimality us0
          ((existingUnit root cr r (theCriterion o.criterion k) existing).getD [])) ∨ us = usOpt) ∧
      ∃ blocks, drawBlocks (theDistribution o.distribution r.shape) rng o.nPointsRandomsearch k
          = .ok blocks ∧
        ∃ b ∈ blocks, projectHull root r.shape (b.map some) = us0.map some := by
  obtain ⟨blocks, hb1, hb2, hb3⟩ := drawBlocks_ok hrng (theDistribution_valid hd r.shape)
    o.nPointsRandomsearch k
  set eu := existingUnit root cr r (theCriterion o.criterion k) existing with heu
  set cands := blocks.map fun b => projectHull root r.shape (b.map some) with hcands
  have hcu : ∀ b ∈ cands, b.length = k ∧ UnitRows r.shape b := by
    intro b hb
    obtain ⟨b', hb', rfl⟩ := List.mem_map.1 hb
    refine ⟨by simp [projectHull, (hb3 b' hb').1], projectHull_unitRows hroot r.shape ?_⟩
    intro p hp
    obtain ⟨v, hv, rfl⟩ := List.mem_map.1 hp
    exact ⟨v, rfl, (hb3 b' hb').2 v hv⟩
  obtain ⟨x0, hx0, hx0m, -⟩ := startSample_spec hroot eu r.shape hm
    (by rw [hcands, List.length_map, hb2]) hcu
  obtain ⟨hx0k, hx0u⟩ := hcu x0 hx0m
  have hx0n : NonzeroRows k x0 := by
    refine ⟨hx0k, fun p hp => ?_⟩
    obtain ⟨u, hu, hu2⟩ := hx0u p hp
    exact ⟨u, hu, onUnitHull_ne_zero hu2⟩
  have hoptn : NonzeroRows k (optimizerResult root r.shape k o eu x0) := by
    rw [optimizerResult]
    split
    · exact hx0n
    · obtain ⟨h1, h2⟩ := hmin (sampleObjective root r.shape k o eu) x0 hx0n.2
      exact ⟨h1.trans hx0k, h2⟩
  obtain ⟨us0, hus0, hus0k, hus0u⟩ := hx0n.project hroot r.shape
  obtain ⟨usOpt, husOpt, husOptk, husOptu⟩ := hoptn.project hroot r.shape
  have hk0 : ¬ ((k : Int) ≤ 0) := by omega
  have hrun : optimalHullSampler root cr r k rng o existing
      = .ok ((optimizeSample root cr r k o eu x0).1, some (optimizeSample root cr r k o eu x0).2) := by
    simp only [optimalHullSampler, if_neg hk0, Int.toNat_natCast, hb1]
    rw [← heu, ← hcands, hx0]
  have hblock : ∃ blocks, drawBlocks (theDistribution o.distribution r.shape) rng o.nPointsRandomsearch k
      = .ok blocks ∧ ∃ b ∈ blocks, projectHull root r.shape (b.map some) = us0.map some := by
    refine ⟨blocks, hb1, ?_⟩
    obtain ⟨b, hb, hbx⟩ := List.mem_map.1 hx0m
    refine ⟨b, hb, ?_⟩
    rw [← hus0, projectHull_of_unitRows hroot hx0u, hbx]
  by_cases hle : determinantOnHull root eu r.shape (optimizerResult root r.shape k o eu x0)
      ≤ determinantOnHull root eu r.shape x0
  · refine ⟨us0, (optimizeSample root cr r k o eu x0).2, x0, _, us0, usOpt, ?_, hx0n, hoptn, rfl, hus0, husOpt, hus0u, husOptu, hus0k,
      husOptk, Or.inl ⟨rfl, ?_⟩, hblock⟩
    · rw [hrun]
      simp only [optimizeSample, if_pos hle, hus0, List.map_map]
      rfl
    · rw [determinantOnHull_project hroot eu hoptn.2, husOpt, determinantOnHull_unit hroot eu husOptu,
        determinantOnHull_project hroot eu hx0n.2, hus0, determinantOnHull_unit hroot eu hus0u] at hle
      exact hle
  · refine ⟨usOpt, (optimizeSample root cr r k o eu x0).2, x0, _, us0, usOpt, ?_, hx0n, hoptn, rfl, hus0, husOpt, hus0u, husOptu, hus0k,
      husOptk, Or.inr rfl, hblock⟩
    rw [hrun]
    simp only [optimizeSample, if_neg hle, husOpt, List.map_map]
    rfl

omit [IsStrictOrderedRing K] in
/-- A single point has the same criterion everywhere on the hull. -/
theorem dOptimality_single (u : Vec K n) (hn : 2 ≤ n) : dOptimality [u] [] = 0 := by
  have : Nontrivial (Fin n) := Fin.nontrivial_iff_two_le.2 hn
  have h : (Matrix.of fun i j : Fin n => ((([u] : List (Vec K n)) ++ []).map
      fun (x : Vec K n) => x i * x j).sum
      / (([u] : List (Vec K n)).length : K)) = Matrix.vecMulVec u u := by
    ext i j
    simp [Matrix.vecMulVec]
  rw [dOptimality, h, Matrix.det_vecMulVec]

theorem dOptimality_single_eq {shape : Shape} {u v : Vec K n} (hu : OnUnitHull shape u)
    (hv : OnUnitHull shape v) : dOptimality [u] [] = dOptimality [v] [] := by
  rcases Nat.lt_or_ge n 2 with hn | hn
  · have hne : n ≠ 0 := by
      rintro rfl
      exact onUnitHull_ne_zero hu (funext fun i => i.elim0)
    obtain rfl : n = 1 := by omega
    have key : ∀ w : Vec K 1, OnUnitHull shape w → w 0 * w 0 = 1 := by
      intro w hw
      cases shape with
      | sphere => simpa [OnUnitHull, sumSq, sq] using hw
      | cube =>
        obtain ⟨-, i, hi⟩ := hw
        obtain rfl : i = 0 := Subsingleton.elim _ _
        rw [← abs_mul_abs_self, hi, one_mul]
    simp only [dOptimality, Matrix.det_unique, Matrix.of_apply, List.append_nil, List.map_cons,
      List.map_nil, List.sum_cons, List.sum_nil, add_zero, Fin.default_eq_zero, Fin.isValue]
    rw [key u hu, key v hv]
    simp
  · rw [dOptimality_single u hn, dOptimality_single v hn]

/-- C91, determinant criterion: with an optimizer that finds global optima, the returned sample has the
largest D-optimality (next to the existing points) among all samples of the size on the hull, if there
is a largest one. -/
theorem C91_maximizes_determinant (root cr : K → K) (hroot : SqrtSpec root) (r : Region K n)
    (rng : SampleRng K n) (hrng : RngSpec rng) (o : OptimalSampler K n)
    (hd : ValidDistribution o.distribution) (hm : 1 ≤ o.nPointsRandomsearch)
    (hmin : GlobalMinimize o.minimize) (existing : Option (List (Vec K n))) (k : Nat) (hk : 1 ≤ k)
    (hcrit : o.criterion = some .determinant ∨ (o.criterion = none ∧ k = 1))
    (hex : ∃ best : List (Vec K n), best.length = k ∧ (∀ u ∈ best, OnUnitHull r.shape u) ∧
      ∀ vs : List (Vec K n), vs.length = k → (∀ u ∈ vs, OnUnitHull r.shape u) →
        dOptimality vs ((existing.getD []).map (r.mapToUnit cr))
          ≤ dOptimality best ((existing.getD []).map (r.mapToUnit cr))) :
    ∃ us info, optimalHullSampler root cr r k rng o existing
        = .ok (us.map fun u => some (r.mapFromUnit cr u), some info) ∧
      us.length = k ∧ (∀ u ∈ us, OnUnitHull r.shape u) ∧
      ∀ vs : List (Vec K n), vs.length = k → (∀ u ∈ vs, OnUnitHull r.shape u) →
        dOptimality vs ((existing.getD []).map (r.mapToUnit cr))
          ≤ dOptimality us ((existing.getD []).map (r.mapToUnit cr)) := by
  have hc : theCriterion o.criterion (k : Int) = .determinant := by
    rcases hcrit with h | ⟨h, rfl⟩ <;> simp [theCriterion, h]
  obtain ⟨us, info, x0, opt, us0, usOpt, hrun, hx0, hopt, hopteq, hus0, husOpt, hu0, huOpt, hl0, hlOpt,
    hcase, -⟩ := optimalHullSampler_choice root cr hroot r rng hrng o hd hm hmin.shape existing k hk
  have heu : (existingUnit root cr r (theCriterion o.criterion k) existing).getD []
      = (existing.getD []).map (r.mapToUnit cr) := by
    rw [hc]
    cases existing <;> simp [existingUnit]
  have hnone : existingUnit root cr r (theCriterion o.criterion k) existing = none ↔ existing = none := by
    rw [hc]
    cases existing <;> simp [existingUnit]
  rw [heu] at hcase
  set eu := existingUnit root cr r (theCriterion o.criterion k) existing with heudef
  set E := (existing.getD []).map (r.mapToUnit cr) with hE
  have hD : ∀ {x : List (Row K n)} {vs : List (Vec K n)}, NonzeroRows k x →
      projectHull root r.shape x = vs.map some → (∀ u ∈ vs, OnUnitHull r.shape u) →
      determinantOnHull root eu r.shape x = .fin (dOptimality vs E) := by
    intro x vs hx hp hv
    rw [determinantOnHull_project hroot eu hx.2, hp, determinantOnHull_unit hroot eu hv, heu]
  have hobj : ∀ x, sampleObjective root r.shape k o eu x = -determinantOnHull root eu r.shape x := by
    intro x
    simp only [sampleObjective, hc]
  -- the result of the optimizer is best
  have hbest : ∀ vs : List (Vec K n), vs.length = k → (∀ u ∈ vs, OnUnitHull r.shape u) →
      dOptimality vs E ≤ dOptimality usOpt E := by
    intro vs hvk hvu
    by_cases hsp : eu = none ∧ (k : Int) = 1
    · obtain ⟨h1, h2⟩ := hsp
      have hk1 : k = 1 := by omega
      subst hk1
      obtain ⟨v, rfl⟩ := List.length_eq_one_iff.1 hvk
      obtain ⟨u, rfl⟩ := List.length_eq_one_iff.1 hlOpt
      have : E = [] := by rw [hE, hnone.1 h1]; rfl
      rw [this]
      exact (dOptimality_single_eq (hvu v (by simp)) (huOpt u (by simp))).le
    · have hval : ∀ {vs : List (Vec K n)}, vs.length = k → (∀ u ∈ vs, OnUnitHull r.shape u) →
          NonzeroRows k (vs.map some) ∧
          sampleObjective root r.shape k o eu (vs.map some) = .fin (-dOptimality vs E) := by
        intro vs hvk hvu
        have hn := hvk ▸ nonzeroRows_of_unit hvu
        refine ⟨hn, ?_⟩
        rw [hobj, determinantOnHull_unit hroot eu hvu, heu]
        rfl
      obtain ⟨b, hbk, hbu, hbb⟩ := hex
      have hmin' := hmin.best (sampleObjective root r.shape k o eu) k x0 hx0 ⟨b.map some,
        (hval hbk hbu).1, fun y hy => by
          obtain ⟨ys, hys, hysk, hysu⟩ := hy.project hroot r.shape
          rw [(hval hbk hbu).2, hobj, hD hy hys hysu]
          exact neg_le_neg (hbb ys hysk hysu)⟩ (vs.map some) (hval hvk hvu).1
      rw [(hval hvk hvu).2, hobj] at hmin'
      have hoe : opt = o.minimize (sampleObjective root r.shape k o eu) x0 := by
        rw [hopteq, optimizerResult, if_neg hsp]
      rw [← hoe, hD hopt husOpt huOpt] at hmin'
      exact neg_le_neg_iff.1 hmin'
  rcases hcase with ⟨rfl, hle⟩ | rfl
  · exact ⟨us, info, hrun, hl0, hu0, fun vs h1 h2 => (hbest vs h1 h2).trans hle⟩
  · exact ⟨us, info, hrun, hlOpt, huOpt, hbest⟩

omit [LinearOrder K] [IsStrictOrderedRing K] in
theorem hullDistances_getD (e : Option (List (Vec K n))) (p : List (Vec K n)) :
    hullDistances e p = hullDistances (some (e.getD [])) p := by
  cases e with
  | none => simp [hullDistances]
  | some e => rfl

/-- C91, distance criterion: with an optimizer that finds global optima, the returned sample is one of
the random samples, or it has the largest soft minimum of the distances of pairs with a new point (all
pairs if there are no existing points) among all samples of the size on the hull, if there is a
largest one. -/
theorem C91_maximizes_distance (root cr : K → K) (hroot : SqrtSpec root) (r : Region K n)
    (rng : SampleRng K n) (hrng : RngSpec rng) (o : OptimalSampler K n)
    (hd : ValidDistribution o.distribution) (hm : 1 ≤ o.nPointsRandomsearch)
    (hmin : GlobalMinimize o.minimize) (existing : Option (List (Vec K n))) (k : Nat) (hk : 2 ≤ k)
    (hcrit : o.criterion = some .distance ∨ o.criterion = none) :
    let softMin : List (Vec K n) → K := fun vs => -(o.logsumexp ((hullDistances
      (some (relevantExisting root cr r .distance (existing.getD []))) vs).map fun d => -o.hardness * d))
    (∃ best : List (Vec K n), best.length = k ∧ (∀ u ∈ best, OnUnitHull r.shape u) ∧
      ∀ vs : List (Vec K n), vs.length = k → (∀ u ∈ vs, OnUnitHull r.shape u) →
        softMin vs ≤ softMin best) →
    ∃ us info, optimalHullSampler root cr r k rng o existing
        = .ok (us.map fun u => some (r.mapFromUnit cr u), some info) ∧
      us.length = k ∧ (∀ u ∈ us, OnUnitHull r.shape u) ∧
      ((∃ blocks, drawBlocks (theDistribution o.distribution r.shape) rng o.nPointsRandomsearch k
          = .ok blocks ∧ ∃ b ∈ blocks, projectHull root r.shape (b.map some) = us.map some) ∨
        ∀ vs : List (Vec K n), vs.length = k → (∀ u ∈ vs, OnUnitHull r.shape u) →
          softMin vs ≤ softMin us) := by
  intro softMin hex
  have hc : theCriterion o.criterion (k : Int) = .distance := by
    rcases hcrit with h | h
    · simp [theCriterion, h]
    · have : k ≠ 1 := by omega
      simp [theCriterion, h, this]
  obtain ⟨us, info, x0, opt, us0, usOpt, hrun, hx0, hopt, hopteq, hus0, husOpt, hu0, huOpt, hl0, hlOpt,
    hcase, hblock⟩ := optimalHullSampler_choice root cr hroot r rng hrng o hd hm hmin.shape existing k
      (by omega)
  have heu := existingUnit_getD root cr r (theCriterion o.criterion k) existing
  rw [hc] at heu hopteq
  set eu := existingUnit root cr r .distance existing with heudef
  have hD : ∀ {x : List (Row K n)} {vs : List (Vec K n)}, 
      projectHull root r.shape x = vs.map some →
      sampleObjective root r.shape k o eu x = .fin (-softMin vs) := by
    intro x vs hp
    simp only [sampleObjective, hc, distanceOnHull, hp, allRows_map_some]
    rw [hullDistances_getD, heu]
    rfl
  rcases hcase with ⟨rfl, -⟩ | rfl
  · exact ⟨us, info, hrun, hl0, hu0, Or.inl hblock⟩
  · refine ⟨us, info, hrun, hlOpt, huOpt, Or.inr fun vs hvk hvu => ?_⟩
    have hproj : ∀ {vs : List (Vec K n)}, (∀ u ∈ vs, OnUnitHull r.shape u) →
        projectHull root r.shape (vs.map some) = vs.map some := by
      intro vs hv
      refine projectHull_of_unitRows hroot ?_
      intro p hp
      obtain ⟨u, hu, rfl⟩ := List.mem_map.1 hp
      exact ⟨u, rfl, hv u hu⟩
    obtain ⟨b, hbk, hbu, hbb⟩ := hex
    have hmin' := hmin.best (sampleObjective root r.shape k o eu) k x0 hx0 ⟨b.map some,
      hbk ▸ nonzeroRows_of_unit hbu, fun y hy => by
        obtain ⟨ys, hys, hysk, hysu⟩ := hy.project hroot r.shape
        rw [hD (hproj hbu), hD hys]
        exact neg_le_neg (hbb ys hysk hysu)⟩ (vs.map some) (hvk ▸ nonzeroRows_of_unit hvu)
    have hoe : opt = o.minimize (sampleObjective root r.shape k o eu) x0 := by
      rw [hopteq, optimizerResult, if_neg]
      rintro ⟨-, h⟩
      omega
    rw [← hoe, hD (hproj hvu), hD husOpt] at hmin'
    exact neg_le_neg_iff.1 hmin'

/-! ## C92 -/

/-- Orthogonal matrices preserve inner products. -/
def Orthogonal (q : Mat K n n) : Prop := ∀ x y : Vec K n, dot (fun i => ∑ j, q i j * x j)
  (fun i => ∑ j, q i j * y j) = dot x y

/-- Rotation around a point. -/
def rotateAround (q : Mat K n n) (c x : Vec K n) : Vec K n := fun i => c i + ∑ j, q i j * (x j - c j)

omit [IsStrictOrderedRing K] in
theorem rotate_mapFromUnit (cr : K → K) (r : Region K n) (hs : r.shape = .sphere) (q : Mat K n n)
    (u : Vec K n) : r.mapFromUnit cr (fun i => ∑ j, q i j * u j)
      = rotateAround q r.center (r.mapFromUnit cr u) := by
  funext i
  simp only [Region.mapFromUnit, hs, rotateAround, add_sub_cancel_right, Finset.sum_mul, add_comm]
  congr 1
  exact Finset.sum_congr rfl fun j _ => by ring

omit [IsStrictOrderedRing K] in
/-- C92 in a ball: if all normal draws are rotated, the random points (in the interior or on the hull,
with the default distribution) are rotated around the center. As the normal distribution does not
prefer a direction, neither do the points. -/
theorem C92_rotation (root radial cr : K → K) (r : Region K n) (hs : r.shape = .sphere)
    (q : Mat K n n) (hq : Orthogonal q) (rng rng' : SampleRng K n) (k : Int)
    (hrot : ∀ m, rng'.normal m = (rng.normal m).map fun x i => ∑ j, q i j * x j) :
    interiorSampler root radial cr r k rng' = (interiorSampler root radial cr r k rng).map
      (List.map (Option.map (rotateAround q r.center))) ∧
    hullSampler root cr r k rng' none = (hullSampler root cr r k rng none).map
      (List.map (Option.map (rotateAround q r.center))) := by
  have hnorm : ∀ x : Vec K n, norm2 root (fun i => ∑ j, q i j * x j) = norm2 root x := fun x => by
    rw [norm2, hq x x, norm2]
  constructor
  · simp only [interiorSampler, hs, ballSampler]
    split
    · rfl
    · simp only [Except.map, hrot, List.map_map]
      congr 1
      refine List.map_congr_left fun x _ => ?_
      simp only [Function.comp, ballRow, hnorm]
      split
      · rfl
      · simp only [Option.map_some]
        rw [← rotate_mapFromUnit cr r hs]
        congr 2
        funext i
        rw [Finset.sum_mul]
        exact Finset.sum_congr rfl fun j _ => by ring
  · simp only [hullSampler, hs, theDistribution, Option.getD_none, drawRows]
    split
    · rfl
    · simp only [if_true, Except.map, hrot, List.map_map, projectHull]
      congr 1
      refine List.map_congr_left fun x _ => ?_
      simp only [Function.comp, projectRow, hullNorm, hnorm]
      by_cases h0 : norm2 root x = 0
      · simp only [h0, if_true, Option.map_none]
      · simp only [h0, if_false, Option.map_some]
        rw [← rotate_mapFromUnit cr r hs]
        congr 2
        funext i
        rw [Finset.sum_div]
        exact Finset.sum_congr rfl fun j _ => by ring

/-- Reflection of the coordinates in `s` in the box. -/
def reflectIn (lower upper : Vec K n) (s : Fin n → Bool) (x : Vec K n) : Vec K n := fun i =>
  if s i then lower i + upper i - x i else x i

theorem npClip_reflect (l u v : K) (h : l ≤ u) : npClip (l + u - v) l u = l + u - npClip v l u := by
  unfold npClip
  rcases le_total v l with h1 | h1 <;> rcases le_total v u with h2 | h2 <;>
    rcases le_total (l + u - v) l with h3 | h3 <;> rcases le_total (l + u - v) u with h4 | h4 <;>
    simp only [max_eq_left, max_eq_right, min_eq_left, min_eq_right, h, h1, h2, h3, h4] <;> linarith

/-- C92 in a box: if the uniform draws are mirrored in some coordinates, the random points (in the
interior or on the hull, with the default distribution) are mirrored in the box. So the
points prefer none of two opposite directions, also where the box is cut off by bounds. -/
theorem C92_reflection (root radial cr : K → K) (r : Region K n) (hs : r.shape = .cube)
    (hbox : ∀ i, r.cubeLower cr i ≤ r.cubeUpper cr i) (s : Fin n → Bool) (rng rng' : SampleRng K n)
    (k : Int) (href : ∀ m, rng'.uniform01 m = (rng.uniform01 m).map fun x i => if s i then 1 - x i else x i) :
    interiorSampler root radial cr r k rng' = (interiorSampler root radial cr r k rng).map
      (List.map (Option.map (reflectIn (r.cubeLower cr) (r.cubeUpper cr) s))) ∧
    hullSampler root cr r k rng' none = (hullSampler root cr r k rng none).map
      (List.map (Option.map (reflectIn (r.cubeLower cr) (r.cubeUpper cr) s))) := by
  constructor
  · simp only [interiorSampler, hs, boxSampler]
    split
    · rfl
    · simp only [Except.map, href, List.map_map]
      congr 1
      refine List.map_congr_left fun x _ => ?_
      simp only [Function.comp, Option.map_some]
      congr 1
      funext i
      simp only [scaleUniform, reflectIn]
      split <;> ring
  · simp only [hullSampler, hs, theDistribution, Option.getD_none, drawRows]
    split
    · rfl
    · simp only [if_true, Except.map, href, List.map_map, projectHull,
        show ("uniform" = "normal") = False by simp, if_false]
      congr 1
      refine List.map_congr_left fun x _ => ?_
      have habs : (fun i => |scaleUniform (fun _ => -1) (fun _ => (1 : K))
            (fun i => if s i then 1 - x i else x i) i|)
          = fun i => |scaleUniform (fun _ => -1) (fun _ => (1 : K)) x i| := by
        funext i
        simp only [scaleUniform]
        split
        · rw [← abs_neg]; congr 1; ring
        · rfl
      simp only [Function.comp, projectRow, hullNorm, habs]
      by_cases h0 : vecMax (fun i => |scaleUniform (fun _ => -1) (fun _ => (1 : K)) x i|) = 0
      · simp only [h0, if_true, Option.map_none]
      · simp only [h0, if_false, Option.map_some]
        congr 1
        funext i
        simp only [Region.mapFromUnit, hs, reflectIn]
        split
        · rename_i hsi
          rw [← npClip_reflect _ _ _ (hbox i)]
          congr 1
          simp only [scaleUniform, hsi, if_true]
          ring
        · rename_i hsi
          simp only [scaleUniform, hsi]
          rfl

/-! ## The hypotheses can be met -/

omit [IsStrictOrderedRing K] in
/-- C91: there is an optimizer that finds global minima. -/
theorem globalMinimize_exists :
    ∃ minimize : (List (Row K n) → XVal K) → List (Row K n) → List (Row K n),
      GlobalMinimize minimize := by
  classical
  refine ⟨fun f x0 => if h : ∃ x, NonzeroRows x0.length x ∧ ∀ y, NonzeroRows x0.length y → f x ≤ f y
    then h.choose else x0, ?_, ?_⟩
  · intro f x0 hx0
    dsimp only
    split
    · rename_i h
      exact h.choose_spec.1
    · exact ⟨rfl, hx0⟩
  · intro f k x0 hx0 hex y hy
    obtain rfl := hx0.1
    rw [dif_pos hex]
    exact hex.choose_spec.2 y hy

/-- C91: on the line, both end points have the largest criterion. -/
example : ∃ best : List (Vec ℚ 1), best.length = 1 ∧ (∀ u ∈ best, OnUnitHull .sphere u) ∧
    ∀ vs : List (Vec ℚ 1), vs.length = 1 → (∀ u ∈ vs, OnUnitHull .sphere u) →
      dOptimality vs [] ≤ dOptimality best [] := by
  have h1 : OnUnitHull .sphere (fun _ : Fin 1 => (1 : ℚ)) := by simp [OnUnitHull, sumSq]
  refine ⟨[fun _ => 1], rfl, by simpa using h1, ?_⟩
  intro vs hl hv
  obtain ⟨v, rfl⟩ := List.length_eq_one_iff.1 hl
  exact (dOptimality_single_eq (hv v (by simp)) h1).le

/-- C92: a quarter turn. -/
example : Orthogonal (![![0, -1], ![1, 0]] : Mat ℚ 2 2) := by
  intro x y
  simp only [dot, Fin.sum_univ_two, Matrix.cons_val_zero, Matrix.cons_val_one]
  ring

end Tranquilo
