import Verif.Spec.Permute
import Verif.Lemmas.Relocate

/-!
# Another order of the parameters goes through every part of a run
-/

namespace Tranquilo

variable {K : Type} [Field K] [LinearOrder K] [IsStrictOrderedRing K] {n : Nat} {VM SM : Type}
variable {σ : Equiv.Perm (Fin n)}

theorem permute_sub (x y : Vec K n) :
    (fun i => permute σ x i - permute σ y i) = permute σ fun i => x i - y i := rfl

theorem permute_symm (x : Vec K n) : permute σ.symm (permute σ x) = x := by
  funext i
  simp [permute]

theorem symm_permute (x : Vec K n) : permute σ (permute σ.symm x) = x := by
  funext i
  simp [permute]

/-! ### The history -/

namespace Log

theorem permute_xs (h : Log K n) : (h.permute σ).xs = h.xs.map (Tranquilo.permute σ) := rfl

theorem permute_fvals (h : Log K n) (i : Nat) : (h.permute σ).fvals i = h.fvals i := rfl

theorem permute_nFun (h : Log K n) : (h.permute σ).nFun = h.nFun := rfl

theorem permute_symm (h : Log K n) : (h.permute σ).permute σ.symm = h := by
  simp only [Log.permute, List.map_map, Function.comp_def, Tranquilo.permute_symm, List.map_id']

theorem permute_addXs (h : Log K n) (rows : List (Vec K n)) :
    (h.permute σ).addXs (rows.map (Tranquilo.permute σ)) =
      ((h.addXs rows).1.permute σ, (h.addXs rows).2) := by
  simp [addXs, Log.permute]

theorem permute_addX (h : Log K n) (x : Vec K n) :
    (h.permute σ).addX (Tranquilo.permute σ x) =
      ((h.addX x).1.permute σ, (h.addX x).2) := by
  simp [addX, Log.permute]

theorem permute_evaluate {o o' : Oracle K n} (ho : ∀ k x, o' k (Tranquilo.permute σ x) = o k x)
    (h : Log K n) (q : List (Nat × Nat)) :
    (h.permute σ).evaluate o' q = (h.evaluate o q).permute σ := by
  simp only [evaluate]
  generalize (q.flatMap fun p => List.replicate p.2 p.1) = l
  induction l generalizing h with
  | nil => rfl
  | cons i l ih =>
    simp only [List.foldl_cons]
    rw [← ih]
    congr 1
    simp only [evalOne, permute_xs, List.getElem?_map]
    cases h.xs[i]? with
    | none => rfl
    | some x => simp [Log.permute, ho]

theorem permute_getXs (h : Log K n) (is : List Nat) :
    (h.permute σ).getXs is = (h.getXs is).map (Tranquilo.permute σ) := by
  simp only [getXs, permute_xs, List.getElem?_map]
  induction is with
  | nil => rfl
  | cons i is ih =>
    simp only [List.filterMap_cons]
    cases h.xs[i]? with
    | none => exact ih
    | some x => simp only [Option.map_some, List.map_cons, ih]

theorem permute_indicesInRegion {nrm nrm' : Vec K n → K}
    (hn : ∀ v : Vec K n, nrm' (Tranquilo.permute σ v) = nrm v) (h : Log K n) (center : Vec K n)
    (radius : K) :
    (h.permute σ).indicesInRegion nrm' (Tranquilo.permute σ center) radius =
      h.indicesInRegion nrm center radius := by
  simp only [indicesInRegion, permute_xs, List.getElem?_map, List.length_map,
    show (h.permute σ).evals = h.evals from rfl]
  congr 1
  refine List.filter_congr fun i _ => ?_
  cases h.xs[i]? with
  | none => rfl
  | some x => simp only [Option.map_some, permute_sub, hn]

end Log

theorem permute_additional (h : Log K n) (is : List Nat) (k : Int) :
    additionalEvalInfo (h.permute σ) is k = additionalEvalInfo h is k := rfl

/-! ### Dropping points -/

/-- Points in the new order. -/
def Points.permute (σ : Equiv.Perm (Fin n)) (p : Points K n) : Points K n where
  xs := p.xs.map (Tranquilo.permute σ)
  indices := p.indices
  dists := p.dists

theorem Points.permute_delete (p : Points K n) (k : Nat) :
    (p.permute σ).delete k = (p.delete k).permute σ := by
  simp only [Points.delete, Points.permute, eraseIdx_map']

theorem dropOutside_permute (radius : K) (k : Nat) :
    ∀ p : Points K n, dropOutside radius k (p.permute σ) =
      ((dropOutside radius k p).1.permute σ, (dropOutside radius k p).2) := by
  induction k with
  | zero => exact fun p => rfl
  | succ k ih =>
    intro p
    simp only [dropOutside, show (p.permute σ).dists = p.dists from rfl, Points.permute_delete]
    split_ifs
    · exact ih _
    · rfl

theorem pairDists_permute {nrm nrm' : Vec K n → K}
    (hn : ∀ v : Vec K n, nrm' (permute σ v) = nrm v) (xs : List (Vec K n)) :
    pairDists nrm' (xs.map (permute σ)) = pairDists nrm xs := by
  simp only [pairDists, List.mapIdx_eq_zipIdx_map, List.zipIdx_map, List.map_map]
  refine List.map_congr_left fun p _ => ?_
  simp only [Function.comp_def, Prod.map, id]
  refine List.map_congr_left fun q _ => ?_
  split_ifs
  · rfl
  · rw [permute_sub, hn]

theorem dropClose_permute (index : Nat) (k : Nat) :
    ∀ (p : Points K n) (m : List (List (Option K))),
      SameOutcome (fun q q' => q' = q.permute σ) (dropClose index k p m)
        (dropClose index k (p.permute σ) m) := by
  induction k with
  | zero => exact fun p m => rfl
  | succ k ih =>
    intro p m
    have hc : chooseDrop index (p.permute σ) m = chooseDrop index p m := rfl
    simp only [dropClose, hc, Points.permute_delete]
    split_ifs
    · exact rfl
    · exact ih _ _

theorem dropWorst_permute {nrm nrm' : Vec K n → K}
    (hn : ∀ v : Vec K n, nrm' (permute σ v) = nrm v) (x : Vec K n) (index : Nat) (radius : K)
    (xs : List (Vec K n)) (is : List Nat) (k : Nat) :
    SameOutcome (fun p p' => p' = (p.1.map (permute σ), p.2)) (dropWorst nrm x index radius xs is k)
      (dropWorst nrm' (permute σ x) index radius (xs.map (permute σ)) is k) := by
  have hp : (⟨xs.map (permute σ), is, (xs.map (permute σ)).map fun y =>
      nrm' fun i => y i - permute σ x i⟩ : Points K n) =
      (⟨xs, is, xs.map fun y => nrm fun i => y i - x i⟩ : Points K n).permute σ := by
    simp only [Points.permute, List.map_map, Function.comp_def, permute_sub, hn]
  simp only [dropWorst, hp, dropOutside_permute]
  split_ifs
  · generalize (dropOutside radius k _) = q
    rw [show (q.1.permute σ).xs = q.1.xs.map (permute σ) from rfl, pairDists_permute hn]
    refine SameOutcome.bind (dropClose_permute index _ _ _) fun u u' _ hu => ?_
    subst hu
    exact rfl
  · exact rfl
  · exact rfl

/-! ### Regions -/

namespace Region

theorem permute_shape (r : Region K n) : (r.permute σ).shape = r.shape := by
  have h1 : lowerBinding (r.permute σ).center (r.permute σ).radius (r.permute σ).bounds.lower =
      lowerBinding r.center r.radius r.bounds.lower :=
    decide_eq_decide.2 (σ.exists_congr_left.trans <| by
      simp [Region.permute, Bounds.permute, Tranquilo.permute])
  have h2 : upperBinding (r.permute σ).center (r.permute σ).radius (r.permute σ).bounds.upper =
      upperBinding r.center r.radius r.bounds.upper :=
    decide_eq_decide.2 (σ.exists_congr_left.trans <| by
      simp [Region.permute, Bounds.permute, Tranquilo.permute])
  simp only [shape, h1, h2]

variable {cr cr' : K → K} (hcr : ∀ r, cr' r = cr r)
include hcr

theorem permute_cubeRadius (r : Region K n) : (r.permute σ).cubeRadius cr' = r.cubeRadius cr := by
  simp only [cubeRadius, permute_shape, hcr]
  rfl

theorem permute_cubeLower (r : Region K n) :
    (r.permute σ).cubeLower cr' = Tranquilo.permute σ (r.cubeLower cr) := by
  funext i
  simp only [cubeLower, permute_cubeRadius hcr]
  rfl

theorem permute_cubeUpper (r : Region K n) :
    (r.permute σ).cubeUpper cr' = Tranquilo.permute σ (r.cubeUpper cr) := by
  funext i
  simp only [cubeUpper, permute_cubeRadius hcr]
  rfl

theorem permute_effectiveCenter (r : Region K n) :
    (r.permute σ).effectiveCenter cr' = Tranquilo.permute σ (r.effectiveCenter cr) := by
  simp only [effectiveCenter, permute_shape]
  cases r.shape with
  | sphere => rfl
  | cube =>
    funext i
    simp only [cubeCenter, permute_cubeLower hcr, permute_cubeUpper hcr]
    rfl

theorem permute_effectiveRadius (r : Region K n) :
    (r.permute σ).effectiveRadius cr' = Tranquilo.permute σ (r.effectiveRadius cr) := by
  funext i
  simp only [effectiveRadius, permute_shape, Tranquilo.permute]
  cases r.shape with
  | sphere => rfl
  | cube => simp only [permute_cubeLower hcr, permute_cubeUpper hcr, Tranquilo.permute]

theorem permute_mapToUnit (r : Region K n) (x : Vec K n) :
    (r.permute σ).mapToUnit cr' (Tranquilo.permute σ x) = Tranquilo.permute σ (r.mapToUnit cr x) := by
  funext i
  simp only [mapToUnit, permute_shape, Tranquilo.permute]
  cases r.shape with
  | sphere => rfl
  | cube => simp only [permute_cubeLower hcr, permute_cubeUpper hcr, Tranquilo.permute]

theorem permute_mapFromUnit (r : Region K n) (u : Vec K n) :
    (r.permute σ).mapFromUnit cr' (Tranquilo.permute σ u) =
      Tranquilo.permute σ (r.mapFromUnit cr u) := by
  funext i
  simp only [mapFromUnit, permute_shape, Tranquilo.permute]
  cases r.shape with
  | sphere => rfl
  | cube => simp only [permute_cubeLower hcr, permute_cubeUpper hcr, Tranquilo.permute]

end Region

theorem isOnBorder_permute {nrm nrm' : Vec K n → K} (hn : ∀ v : Vec K n, nrm' (permute σ v) = nrm v)
    {cr cr' : K → K} (hcr : ∀ r, cr' r = cr r) (r : Region K n) (x : Vec K n) (rtol : K) :
    isOnBorder nrm' cr' (r.permute σ) (permute σ x) rtol = isOnBorder nrm cr r x rtol := by
  simp only [isOnBorder, Region.permute_shape]
  cases r.shape with
  | sphere =>
    simp only
    rw [show (fun i => permute σ x i - (r.permute σ).center i) = permute σ fun i => x i - r.center i
      from rfl, hn]
    rfl
  | cube =>
    simp only [Region.permute_cubeLower hcr, Region.permute_cubeUpper hcr]
    congr 1
    · exact decide_eq_decide.2 (σ.exists_congr_left.trans <| by simp [permute])
    · exact decide_eq_decide.2 (σ.exists_congr_left.trans <| by simp [permute])

end Tranquilo
