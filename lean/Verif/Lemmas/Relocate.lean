import Verif.Spec.Relocate
import Verif.Lemmas.Rescale

/-!
# A change of origin and unit of the parameters goes through every part of a run
-/

namespace Tranquilo

variable {K : Type} [Field K] [LinearOrder K] [IsStrictOrderedRing K] {n : Nat} {VM SM : Type}
variable {s : K} {a : Vec K n}

theorem relocate_sub (x y : Vec K n) :
    (fun i => relocate s a x i - relocate s a y i) = fun i => s * (x i - y i) := by
  funext i
  simp only [relocate]
  ring

theorem relocateBack_relocate (hs : 0 < s) (x : Vec K n) : relocateBack s a (relocate s a x) = x := by
  funext i
  simp only [relocate, relocateBack, add_sub_cancel_right]
  rw [mul_div_cancel_left₀ _ hs.ne']

theorem relocate_relocateBack (hs : 0 < s) (y : Vec K n) : relocate s a (relocateBack s a y) = y := by
  funext i
  simp only [relocate, relocateBack]
  rw [mul_div_cancel₀ _ hs.ne', sub_add_cancel]

theorem divFin_mul (hs : 0 < s) (u v : K) : XVal.divFin (s * u) (s * v) = XVal.divFin u v := by
  have h0 : s * v = 0 ↔ v = 0 := by simp [hs.ne']
  have h1 : s * u < 0 ↔ u < 0 := by simp only [← not_le, mul_nonneg_iff_of_pos_left hs]
  simp only [XVal.divFin, h0, mul_pos_iff_of_pos_left hs, h1, mul_div_mul_left _ _ hs.ne']

/-! ### The history -/

namespace Log

theorem relocate_xs (h : Log K n) : (h.relocate s a).xs = h.xs.map (Tranquilo.relocate s a) := rfl

theorem relocate_fvals (h : Log K n) (i : Nat) : (h.relocate s a).fvals i = h.fvals i := rfl

theorem relocate_nFun (h : Log K n) : (h.relocate s a).nFun = h.nFun := rfl

theorem relocate_addXs (h : Log K n) (rows : List (Vec K n)) :
    (h.relocate s a).addXs (rows.map (Tranquilo.relocate s a)) =
      ((h.addXs rows).1.relocate s a, (h.addXs rows).2) := by
  simp [addXs, Log.relocate]

theorem relocate_addX (h : Log K n) (x : Vec K n) :
    (h.relocate s a).addX (Tranquilo.relocate s a x) =
      ((h.addX x).1.relocate s a, (h.addX x).2) := by
  simp [addX, Log.relocate]

theorem relocate_evaluate {o o' : Oracle K n} (ho : ∀ k x, o' k (Tranquilo.relocate s a x) = o k x)
    (h : Log K n) (q : List (Nat × Nat)) :
    (h.relocate s a).evaluate o' q = (h.evaluate o q).relocate s a := by
  simp only [evaluate]
  generalize (q.flatMap fun p => List.replicate p.2 p.1) = l
  induction l generalizing h with
  | nil => rfl
  | cons i l ih =>
    simp only [List.foldl_cons]
    rw [← ih]
    congr 1
    simp only [evalOne, relocate_xs, List.getElem?_map]
    cases h.xs[i]? with
    | none => rfl
    | some x => simp [Log.relocate, ho]

theorem relocate_getXs (h : Log K n) (is : List Nat) :
    (h.relocate s a).getXs is = (h.getXs is).map (Tranquilo.relocate s a) := by
  simp only [getXs, relocate_xs, List.getElem?_map]
  induction is with
  | nil => rfl
  | cons i is ih =>
    simp only [List.filterMap_cons]
    cases h.xs[i]? with
    | none => exact ih
    | some x => simp only [Option.map_some, List.map_cons, ih]

theorem relocate_indicesInRegion (hs : 0 < s) {nrm nrm' : Vec K n → K}
    (hn : ∀ v : Vec K n, nrm' (fun i => s * v i) = s * nrm v) (h : Log K n) (center : Vec K n)
    (radius : K) :
    (h.relocate s a).indicesInRegion nrm' (Tranquilo.relocate s a center) (s * radius) =
      h.indicesInRegion nrm center radius := by
  simp only [indicesInRegion, relocate_xs, List.getElem?_map, List.length_map,
    show (h.relocate s a).evals = h.evals from rfl]
  congr 1
  refine List.filter_congr fun i _ => ?_
  cases h.xs[i]? with
  | none => rfl
  | some x => simp only [Option.map_some, relocate_sub, hn, mul_le_mul_iff_right₀ hs]

end Log

theorem relocate_additional (h : Log K n) (is : List Nat) (k : Int) :
    additionalEvalInfo (h.relocate s a) is k = additionalEvalInfo h is k := rfl

/-! ### Dropping points -/

theorem argFirst_map {α β : Type} (f : α → β) (better : α → α → Bool) (better' : β → β → Bool)
    (h : ∀ x y, better' (f x) (f y) = better x y) (l : List α) :
    argFirst better' (l.map f) = argFirst better l := by
  induction l with
  | nil => rfl
  | cons x l ih =>
    simp only [List.map_cons, argFirst, ih, List.getElem?_map]
    cases l[argFirst better l]? with
    | none => rfl
    | some y => simp only [Option.map_some, h]

theorem argMax_mul (hs : 0 < s) (l : List K) : argMax (l.map fun d => s * d) = argMax l :=
  argFirst_map _ _ _ (fun x y => by simp only [mul_lt_mul_iff_right₀ hs]) l

/-- Points in the new coordinates. -/
def Points.relocate (s : K) (a : Vec K n) (p : Points K n) : Points K n where
  xs := p.xs.map (Tranquilo.relocate s a)
  indices := p.indices
  dists := p.dists.map fun d => s * d

theorem eraseIdx_map' {α β : Type} (f : α → β) (l : List α) (k : Nat) :
    (l.map f).eraseIdx k = (l.eraseIdx k).map f := by
  induction l generalizing k with
  | nil => rfl
  | cons x l ih => cases k <;> simp [ih]

theorem Points.relocate_delete (p : Points K n) (k : Nat) :
    (p.relocate s a).delete k = (p.delete k).relocate s a := by
  simp only [Points.delete, Points.relocate, eraseIdx_map']

theorem dropOutside_relocate (hs : 0 < s) (radius : K) (k : Nat) :
    ∀ p : Points K n, dropOutside (s * radius) k (p.relocate s a) =
      ((dropOutside radius k p).1.relocate s a, (dropOutside radius k p).2) := by
  induction k with
  | zero => exact fun p => rfl
  | succ k ih =>
    intro p
    have h1 : ((p.relocate s a).dists.any fun d => decide (s * radius < d)) =
        p.dists.any fun d => decide (radius < d) := by
      simp only [Points.relocate, List.any_map, Function.comp_def, mul_lt_mul_iff_right₀ hs]
    have h2 : argMax (p.relocate s a).dists = argMax p.dists := argMax_mul hs _
    simp only [dropOutside, h1, h2, Points.relocate_delete]
    split_ifs
    · exact ih _
    · rfl

theorem pairDists_relocate {nrm nrm' : Vec K n → K}
    (hn : ∀ v : Vec K n, nrm' (fun i => s * v i) = s * nrm v) (xs : List (Vec K n)) :
    pairDists nrm' (xs.map (relocate s a)) =
      (pairDists nrm xs).map fun row => row.map fun d => d.map fun d => s * d := by
  simp only [pairDists, List.mapIdx_eq_zipIdx_map, List.zipIdx_map, List.map_map]
  refine List.map_congr_left fun p _ => ?_
  simp only [Function.comp_def, List.map_map]
  refine List.map_congr_left fun q _ => ?_
  simp only [Function.comp_def, Prod.map, id]
  split_ifs
  · rfl
  · rw [relocate_sub, hn]
    rfl

theorem chooseDrop_relocate (hs : 0 < s) (index : Nat) (p : Points K n) (m : List (List (Option K))) :
    chooseDrop index (p.relocate s a) (m.map fun row => row.map fun d => d.map fun d => s * d) =
      chooseDrop index p m := by
  have h1 : argMinPair (m.map fun row => row.map fun d => d.map fun d => s * d) = argMinPair m := by
    simp only [argMinPair, List.length_map]
    rw [← List.map_flatten, argFirst_map _ distLt distLt]
    intro x y
    cases x <;> cases y <;> simp [distLt, mul_lt_mul_iff_right₀ hs]
  have h2 : ∀ i, (p.relocate s a).dists.getD i 0 = s * p.dists.getD i 0 := by
    intro i
    simp only [Points.relocate, List.getD_eq_getElem?_getD, List.getElem?_map]
    cases p.dists[i]? <;> simp
  simp only [chooseDrop, h1, h2, mul_lt_mul_iff_right₀ hs]
  rfl

theorem dropClose_relocate (hs : 0 < s) (index : Nat) (k : Nat) :
    ∀ (p : Points K n) (m : List (List (Option K))),
      SameOutcome (fun q q' => q' = q.relocate s a) (dropClose index k p m)
        (dropClose index k (p.relocate s a) (m.map fun row => row.map fun d => d.map fun d => s * d)) := by
  induction k with
  | zero => exact fun p m => rfl
  | succ k ih =>
    intro p m
    simp only [dropClose, List.map_eq_nil_iff, chooseDrop_relocate hs, Points.relocate_delete]
    split_ifs
    · exact rfl
    · have : deleteCross (m.map fun row => row.map fun d => d.map fun d => s * d) (chooseDrop index p m) =
          (deleteCross m (chooseDrop index p m)).map fun row => row.map fun d => d.map fun d => s * d := by
        simp only [deleteCross, eraseIdx_map', List.map_map, Function.comp_def]
      rw [this]
      exact ih _ _

theorem dropWorst_relocate (hs : 0 < s) {nrm nrm' : Vec K n → K}
    (hn : ∀ v : Vec K n, nrm' (fun i => s * v i) = s * nrm v) (x : Vec K n) (index : Nat) (radius : K)
    (xs : List (Vec K n)) (is : List Nat) (k : Nat) :
    SameOutcome (fun p p' => p' = (p.1.map (relocate s a), p.2)) (dropWorst nrm x index radius xs is k)
      (dropWorst nrm' (relocate s a x) index (s * radius) (xs.map (relocate s a)) is k) := by
  have hp : (⟨xs.map (relocate s a), is, (xs.map (relocate s a)).map fun y =>
      nrm' fun i => y i - relocate s a x i⟩ : Points K n) =
      (⟨xs, is, xs.map fun y => nrm fun i => y i - x i⟩ : Points K n).relocate s a := by
    simp only [Points.relocate, List.map_map, Function.comp_def, relocate_sub, hn]
  simp only [dropWorst, hp, dropOutside_relocate hs]
  split_ifs
  · generalize (dropOutside radius k _) = q
    rw [show (q.1.relocate s a).xs = q.1.xs.map (relocate s a) from rfl, pairDists_relocate hn]
    refine SameOutcome.bind (dropClose_relocate hs index _ _ _) fun u u' _ hu => ?_
    subst hu
    exact rfl
  · exact rfl
  · exact rfl

end Tranquilo
