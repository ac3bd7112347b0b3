import Verif.Spec.Mirror
import Verif.Lemmas.Relocate
import Verif.Props.Region

/-!
# Mirrored parameters go through every part of a run
-/

namespace Tranquilo

variable {K : Type} [Field K] [LinearOrder K] [IsStrictOrderedRing K] {n : Nat} {VM SM : Type}
variable {σ : Fin n → Bool}

/-- The sign of a mirrored parameter. -/
def sgn (σ : Fin n → Bool) (i : Fin n) : K := if σ i then -1 else 1

theorem sgn_mul_self (i : Fin n) : (sgn σ i : K) * sgn σ i = 1 := by
  unfold sgn
  split_ifs <;> ring

theorem mirror_apply (x : Vec K n) (i : Fin n) : mirror σ x i = sgn σ i * x i := by
  unfold mirror sgn
  split_ifs <;> ring

theorem max_neg_neg' (a b : K) : max (-a) (-b) = -min a b := by
  rcases le_total a b with h | h
  · rw [min_eq_left h, max_eq_left (neg_le_neg h)]
  · rw [min_eq_right h, max_eq_right (neg_le_neg h)]

theorem min_neg_neg' (a b : K) : min (-a) (-b) = -max a b := by
  rcases le_total a b with h | h
  · rw [max_eq_right h, min_eq_right (neg_le_neg h)]
  · rw [max_eq_left h, min_eq_left (neg_le_neg h)]

theorem mirror_sub (x y : Vec K n) :
    (fun i => mirror σ x i - mirror σ y i) = mirror σ fun i => x i - y i := by
  funext i
  simp only [mirror_apply]
  ring

theorem mirror_mirror (x : Vec K n) : mirror σ (mirror σ x) = x := by
  funext i
  unfold mirror
  split_ifs <;> simp

theorem mirror_abs (x : Vec K n) (i : Fin n) : |mirror σ x i| = |x i| := by
  unfold mirror
  split_ifs <;> simp

/-! ### The history -/

namespace Log

theorem mirror_xs (h : Log K n) : (h.mirror σ).xs = h.xs.map (Tranquilo.mirror σ) := rfl

theorem mirror_fvals (h : Log K n) (i : Nat) : (h.mirror σ).fvals i = h.fvals i := rfl

theorem mirror_nFun (h : Log K n) : (h.mirror σ).nFun = h.nFun := rfl

theorem mirror_mirror (h : Log K n) : (h.mirror σ).mirror σ = h := by
  simp only [Log.mirror, List.map_map, Function.comp_def, Tranquilo.mirror_mirror, List.map_id']

theorem mirror_addXs (h : Log K n) (rows : List (Vec K n)) :
    (h.mirror σ).addXs (rows.map (Tranquilo.mirror σ)) =
      ((h.addXs rows).1.mirror σ, (h.addXs rows).2) := by
  simp [addXs, Log.mirror]

theorem mirror_addX (h : Log K n) (x : Vec K n) :
    (h.mirror σ).addX (Tranquilo.mirror σ x) =
      ((h.addX x).1.mirror σ, (h.addX x).2) := by
  simp [addX, Log.mirror]

theorem mirror_evaluate {o o' : Oracle K n} (ho : ∀ k x, o' k (Tranquilo.mirror σ x) = o k x)
    (h : Log K n) (q : List (Nat × Nat)) :
    (h.mirror σ).evaluate o' q = (h.evaluate o q).mirror σ := by
  simp only [evaluate]
  generalize (q.flatMap fun p => List.replicate p.2 p.1) = l
  induction l generalizing h with
  | nil => rfl
  | cons i l ih =>
    simp only [List.foldl_cons]
    rw [← ih]
    congr 1
    simp only [evalOne, mirror_xs, List.getElem?_map]
    cases h.xs[i]? with
    | none => rfl
    | some x => simp [Log.mirror, ho]

theorem mirror_getXs (h : Log K n) (is : List Nat) :
    (h.mirror σ).getXs is = (h.getXs is).map (Tranquilo.mirror σ) := by
  simp only [getXs, mirror_xs, List.getElem?_map]
  induction is with
  | nil => rfl
  | cons i is ih =>
    simp only [List.filterMap_cons]
    cases h.xs[i]? with
    | none => exact ih
    | some x => simp only [Option.map_some, List.map_cons, ih]

theorem mirror_indicesInRegion {nrm nrm' : Vec K n → K}
    (hn : ∀ v : Vec K n, nrm' (Tranquilo.mirror σ v) = nrm v) (h : Log K n) (center : Vec K n)
    (radius : K) :
    (h.mirror σ).indicesInRegion nrm' (Tranquilo.mirror σ center) radius =
      h.indicesInRegion nrm center radius := by
  simp only [indicesInRegion, mirror_xs, List.getElem?_map, List.length_map,
    show (h.mirror σ).evals = h.evals from rfl]
  congr 1
  refine List.filter_congr fun i _ => ?_
  cases h.xs[i]? with
  | none => rfl
  | some x => simp only [Option.map_some, mirror_sub, hn]

end Log

theorem mirror_additional (h : Log K n) (is : List Nat) (k : Int) :
    additionalEvalInfo (h.mirror σ) is k = additionalEvalInfo h is k := rfl

/-! ### Dropping points -/

/-- Points in the new order. -/
def Points.mirror (σ : Fin n → Bool) (p : Points K n) : Points K n where
  xs := p.xs.map (Tranquilo.mirror σ)
  indices := p.indices
  dists := p.dists

theorem Points.mirror_delete (p : Points K n) (k : Nat) :
    (p.mirror σ).delete k = (p.delete k).mirror σ := by
  simp only [Points.delete, Points.mirror, eraseIdx_map']

theorem dropOutside_mirror (radius : K) (k : Nat) :
    ∀ p : Points K n, dropOutside radius k (p.mirror σ) =
      ((dropOutside radius k p).1.mirror σ, (dropOutside radius k p).2) := by
  induction k with
  | zero => exact fun p => rfl
  | succ k ih =>
    intro p
    simp only [dropOutside, show (p.mirror σ).dists = p.dists from rfl, Points.mirror_delete]
    split_ifs
    · exact ih _
    · rfl

theorem pairDists_mirror {nrm nrm' : Vec K n → K}
    (hn : ∀ v : Vec K n, nrm' (mirror σ v) = nrm v) (xs : List (Vec K n)) :
    pairDists nrm' (xs.map (mirror σ)) = pairDists nrm xs := by
  simp only [pairDists, List.mapIdx_eq_zipIdx_map, List.zipIdx_map, List.map_map]
  refine List.map_congr_left fun p _ => ?_
  simp only [Function.comp_def, Prod.map, id]
  refine List.map_congr_left fun q _ => ?_
  split_ifs
  · rfl
  · rw [mirror_sub, hn]

theorem dropClose_mirror (index : Nat) (k : Nat) :
    ∀ (p : Points K n) (m : List (List (Option K))),
      SameOutcome (fun q q' => q' = q.mirror σ) (dropClose index k p m)
        (dropClose index k (p.mirror σ) m) := by
  induction k with
  | zero => exact fun p m => rfl
  | succ k ih =>
    intro p m
    have hc : chooseDrop index (p.mirror σ) m = chooseDrop index p m := rfl
    simp only [dropClose, hc, Points.mirror_delete]
    split_ifs
    · exact rfl
    · exact ih _ _

theorem dropWorst_mirror {nrm nrm' : Vec K n → K}
    (hn : ∀ v : Vec K n, nrm' (mirror σ v) = nrm v) (x : Vec K n) (index : Nat) (radius : K)
    (xs : List (Vec K n)) (is : List Nat) (k : Nat) :
    SameOutcome (fun p p' => p' = (p.1.map (mirror σ), p.2)) (dropWorst nrm x index radius xs is k)
      (dropWorst nrm' (mirror σ x) index radius (xs.map (mirror σ)) is k) := by
  have hp : (⟨xs.map (mirror σ), is, (xs.map (mirror σ)).map fun y =>
      nrm' fun i => y i - mirror σ x i⟩ : Points K n) =
      (⟨xs, is, xs.map fun y => nrm fun i => y i - x i⟩ : Points K n).mirror σ := by
    simp only [Points.mirror, List.map_map, Function.comp_def, mirror_sub, hn]
  simp only [dropWorst, hp, dropOutside_mirror]
  split_ifs
  · generalize (dropOutside radius k _) = q
    rw [show (q.1.mirror σ).xs = q.1.xs.map (mirror σ) from rfl, pairDists_mirror hn]
    refine SameOutcome.bind (dropClose_mirror index _ _ _) fun u u' _ hu => ?_
    subst hu
    exact rfl
  · exact rfl
  · exact rfl

/-! ### Regions -/

theorem npClip_neg (x l u : K) (h : l ≤ u) : npClip (-x) (-u) (-l) = -npClip x l u := by
  unfold npClip
  rw [max_neg_neg', min_neg_neg', min_max_distrib_right, min_eq_left h]

namespace Bounds

theorem mirror_mirror (b : Bounds K n) : (b.mirror σ).mirror σ = b := by
  obtain ⟨l, u⟩ := b
  simp only [Bounds.mirror, Bounds.mk.injEq]
  constructor
  · funext i
    by_cases hi : σ i = true
    · cases h : l i <;> simp [hi, h]
    · simp [hi]
  · funext i
    by_cases hi : σ i = true
    · cases h : u i <;> simp [hi, h]
    · simp [hi]

end Bounds

namespace Region

theorem mirror_mirror (r : Region K n) : (r.mirror σ).mirror σ = r := by
  simp only [Region.mirror, Bounds.mirror_mirror, Tranquilo.mirror_mirror]

theorem mirror_shape (r : Region K n) : (r.mirror σ).shape = r.shape := by
  have key : ∀ r : Region K n, r.shape = .cube → (r.mirror σ).shape = .cube := by
    intro r hr
    rw [shape_eq_cube_iff] at hr ⊢
    rcases hr with ⟨i, l, hl, h⟩ | ⟨i, u, hu, h⟩
    · by_cases hi : σ i = true
      · refine Or.inr ⟨i, -l, ?_, ?_⟩
        · simp [Region.mirror, Bounds.mirror, hi, hl]
        · simp only [Region.mirror, Tranquilo.mirror, hi, if_true]
          linarith
      · refine Or.inl ⟨i, l, ?_, ?_⟩
        · simp [Region.mirror, Bounds.mirror, hi, hl]
        · simpa [Region.mirror, Tranquilo.mirror, hi] using h
    · by_cases hi : σ i = true
      · refine Or.inl ⟨i, -u, ?_, ?_⟩
        · simp [Region.mirror, Bounds.mirror, hi, hu]
        · simp only [Region.mirror, Tranquilo.mirror, hi, if_true]
          linarith
      · refine Or.inr ⟨i, u, ?_, ?_⟩
        · simp [Region.mirror, Bounds.mirror, hi, hu]
        · simpa [Region.mirror, Tranquilo.mirror, hi] using h
  cases hs : r.shape with
  | cube => exact key r hs
  | sphere =>
    cases hs' : (r.mirror σ).shape with
    | sphere => rfl
    | cube =>
      have := key _ hs'
      rw [mirror_mirror, hs] at this
      cases this

variable {cr cr' : K → K} (hcr : ∀ r, cr' r = cr r)
include hcr

theorem mirror_cubeRadius (r : Region K n) : (r.mirror σ).cubeRadius cr' = r.cubeRadius cr := by
  simp only [cubeRadius, mirror_shape, hcr]
  rfl

theorem mirror_cubeLower (r : Region K n) (i : Fin n) :
    (r.mirror σ).cubeLower cr' i = if σ i then -r.cubeUpper cr i else r.cubeLower cr i := by
  simp only [cubeLower, cubeUpper, mirror_cubeRadius hcr]
  simp only [Region.mirror, Bounds.mirror, Tranquilo.mirror]
  by_cases hi : σ i = true
  · simp only [hi, if_true]
    cases r.bounds.upper i with
    | none => simp only [Option.map_none, clipLower, clipUpper]; ring
    | some u =>
      simp only [Option.map_some, clipLower, clipUpper]
      rw [← max_neg_neg']
      congr 1
      ring
  · simp [hi]

theorem mirror_cubeUpper (r : Region K n) (i : Fin n) :
    (r.mirror σ).cubeUpper cr' i = if σ i then -r.cubeLower cr i else r.cubeUpper cr i := by
  simp only [cubeLower, cubeUpper, mirror_cubeRadius hcr]
  simp only [Region.mirror, Bounds.mirror, Tranquilo.mirror]
  by_cases hi : σ i = true
  · simp only [hi, if_true]
    cases r.bounds.lower i with
    | none => simp only [Option.map_none, clipLower, clipUpper]; ring
    | some u =>
      simp only [Option.map_some, clipLower, clipUpper]
      rw [← min_neg_neg']
      congr 1
      ring
  · simp [hi]

theorem mirror_effectiveCenter (r : Region K n) :
    (r.mirror σ).effectiveCenter cr' = Tranquilo.mirror σ (r.effectiveCenter cr) := by
  simp only [effectiveCenter, mirror_shape]
  cases r.shape with
  | sphere => rfl
  | cube =>
    funext i
    simp only [cubeCenter, mirror_cubeLower hcr, mirror_cubeUpper hcr, Tranquilo.mirror]
    split_ifs
    · ring
    · rfl

theorem mirror_effectiveRadius (r : Region K n) :
    (r.mirror σ).effectiveRadius cr' = r.effectiveRadius cr := by
  funext i
  simp only [effectiveRadius, mirror_shape]
  cases r.shape with
  | sphere => rfl
  | cube =>
    simp only [mirror_cubeLower hcr, mirror_cubeUpper hcr]
    split_ifs
    · ring
    · rfl

theorem mirror_mapToUnit (r : Region K n) (hr : r.Proper cr) (x : Vec K n) :
    (r.mirror σ).mapToUnit cr' (Tranquilo.mirror σ x) = Tranquilo.mirror σ (r.mapToUnit cr x) := by
  funext i
  unfold mapToUnit
  rw [mirror_shape]
  cases hs : r.shape with
  | sphere =>
    simp only [Region.mirror, mirror_apply]
    ring
  | cube =>
    have h : r.cubeUpper cr i - r.cubeLower cr i ≠ 0 := (sub_pos.2 (hr hs i)).ne'
    simp only [mirror_cubeLower hcr, mirror_cubeUpper hcr, Tranquilo.mirror]
    by_cases hi : σ i = true
    · simp only [hi, if_true]
      rw [show -r.cubeLower cr i - -r.cubeUpper cr i = r.cubeUpper cr i - r.cubeLower cr i by ring]
      field_simp
      ring
    · simp [hi]

theorem mirror_mapFromUnit (r : Region K n) (hr : r.Proper cr) (u : Vec K n) :
    (r.mirror σ).mapFromUnit cr' (Tranquilo.mirror σ u) =
      Tranquilo.mirror σ (r.mapFromUnit cr u) := by
  funext i
  unfold mapFromUnit
  rw [mirror_shape]
  cases hs : r.shape with
  | sphere =>
    simp only [Region.mirror, mirror_apply]
    ring
  | cube =>
    have h := (hr hs i).le
    simp only [mirror_cubeLower hcr, mirror_cubeUpper hcr, Tranquilo.mirror]
    by_cases hi : σ i = true
    · simp only [hi, if_true]
      rw [← npClip_neg _ _ _ h]
      congr 1
      ring
    · simp [hi]

end Region

theorem isClose_neg (a b rtol : K) : isClose (-a) (-b) rtol = isClose a b rtol := by
  unfold isClose
  rw [abs_neg, neg_sub_neg, abs_sub_comm]

theorem isOnBorder_mirror {nrm nrm' : Vec K n → K} (hn : ∀ v : Vec K n, nrm' (mirror σ v) = nrm v)
    {cr cr' : K → K} (hcr : ∀ r, cr' r = cr r) (r : Region K n) (x : Vec K n) (rtol : K) :
    isOnBorder nrm' cr' (r.mirror σ) (mirror σ x) rtol = isOnBorder nrm cr r x rtol := by
  unfold isOnBorder
  rw [Region.mirror_shape]
  cases r.shape with
  | sphere =>
    simp only
    rw [show (fun i => mirror σ x i - (r.mirror σ).center i) = mirror σ fun i => x i - r.center i
      from mirror_sub _ _, hn]
    rfl
  | cube =>
    have key : ∀ (r : Region K n) (x : Vec K n) (i : Fin n),
        (isClose (mirror σ x i) ((r.mirror σ).cubeLower cr' i) rtol = true ∨
          isClose (mirror σ x i) ((r.mirror σ).cubeUpper cr' i) rtol = true) ↔
        (isClose (x i) (r.cubeLower cr i) rtol = true ∨ isClose (x i) (r.cubeUpper cr i) rtol = true) := by
      intro r x i
      rw [Region.mirror_cubeLower hcr, Region.mirror_cubeUpper hcr]
      by_cases hi : σ i = true
      · simp only [mirror, hi, if_true, isClose_neg]
        exact or_comm
      · simp [mirror, hi]
    simp only
    rw [Bool.eq_iff_iff, Bool.or_eq_true, Bool.or_eq_true, decide_eq_true_eq, decide_eq_true_eq, decide_eq_true_eq,
      decide_eq_true_eq, ← exists_or, ← exists_or]
    exact exists_congr fun i => key r x i

end Tranquilo
