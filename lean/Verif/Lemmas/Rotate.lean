import Verif.Spec.Rotate
import Verif.Lemmas.Relocate
import Verif.Props.Region
import Mathlib.LinearAlgebra.Matrix.NonsingularInverse

/-!
# Rotated parameters go through every part of a run
-/

namespace Tranquilo

variable {K : Type} [Field K] [LinearOrder K] [IsStrictOrderedRing K] {n : Nat} {VM SM : Type}
variable {R : Mat K n n}

theorem rotate_sub (x y : Vec K n) :
    (fun i => rotate R x i - rotate R y i) = rotate R fun i => x i - y i := by
  funext i
  simp only [rotate, mul_sub, Finset.sum_sub_distrib]

theorem rotate_add (x y : Vec K n) :
    (fun i => rotate R x i + rotate R y i) = rotate R fun i => x i + y i := by
  funext i
  simp only [rotate, mul_add, Finset.sum_add_distrib]

theorem rotate_mul (c : K) (x : Vec K n) :
    (fun i => c * rotate R x i) = rotate R fun i => c * x i := by
  funext i
  simp only [rotate, Finset.mul_sum]
  exact Finset.sum_congr rfl fun j _ => by ring

theorem rotate_zero : (rotate R fun _ => 0) = fun _ => 0 := by
  funext i
  simp [rotate]

/-- The rows of a square matrix with orthonormal columns are orthonormal. -/
theorem OrthonormalColumns.rows (hR : OrthonormalColumns R) (i j : Fin n) :
    ∑ k, R i k * R j k = if i = j then 1 else 0 := by
  have h1 : (Matrix.of R).transpose * Matrix.of R = 1 := by
    ext a b
    simp only [Matrix.mul_apply, Matrix.transpose_apply, Matrix.of_apply, Matrix.one_apply]
    exact hR a b
  have h2 := mul_eq_one_comm.1 h1
  have := congrFun (congrFun h2 i) j
  simpa only [Matrix.mul_apply, Matrix.transpose_apply, Matrix.of_apply, Matrix.one_apply] using this

theorem rotateBack_rotate (hR : OrthonormalColumns R) (x : Vec K n) : rotateBack R (rotate R x) = x := by
  funext i
  have h : ∀ j, ∑ k, R k i * R k j = if i = j then 1 else 0 := hR i
  simp only [rotateBack, rotate, Finset.mul_sum]
  rw [Finset.sum_comm]
  simp only [← mul_assoc, ← Finset.sum_mul, h, ite_mul, one_mul, zero_mul, Finset.sum_ite_eq,
    Finset.mem_univ, if_true]

theorem rotate_rotateBack (hR : OrthonormalColumns R) (x : Vec K n) : rotate R (rotateBack R x) = x := by
  funext i
  simp only [rotateBack, rotate, Finset.mul_sum]
  rw [Finset.sum_comm]
  simp only [← mul_assoc, ← Finset.sum_mul, hR.rows, ite_mul, one_mul, zero_mul, Finset.sum_ite_eq,
    Finset.mem_univ, if_true]

theorem rotate_inj (hR : OrthonormalColumns R) {x y : Vec K n} (h : rotate R x = rotate R y) : x = y := by
  rw [← rotateBack_rotate hR x, h, rotateBack_rotate hR]

theorem rotate_inner (hR : OrthonormalColumns R) (x y : Vec K n) :
    ∑ i, rotate R x i * rotate R y i = ∑ i, x i * y i := by
  have : ∀ i, rotate R x i * rotate R y i = ∑ j, x j * (R i j * rotate R y i) := by
    intro i
    simp only [rotate, Finset.sum_mul]
    exact Finset.sum_congr rfl fun j _ => by ring
  simp only [this]
  rw [Finset.sum_comm]
  simp only [← Finset.mul_sum]
  exact Finset.sum_congr rfl fun j _ => by
    rw [show ∑ i, R i j * rotate R y i = rotateBack R (rotate R y) j from rfl, rotateBack_rotate hR]

/-! ### The history -/

namespace Log

theorem rotate_xs (h : Log K n) : (h.rotate R).xs = h.xs.map (Tranquilo.rotate R) := rfl

theorem rotate_fvals (h : Log K n) (i : Nat) : (h.rotate R).fvals i = h.fvals i := rfl

theorem rotate_nFun (h : Log K n) : (h.rotate R).nFun = h.nFun := rfl

theorem rotate_addXs (h : Log K n) (rows : List (Vec K n)) :
    (h.rotate R).addXs (rows.map (Tranquilo.rotate R)) =
      ((h.addXs rows).1.rotate R, (h.addXs rows).2) := by
  simp [addXs, Log.rotate]

theorem rotate_addX (h : Log K n) (x : Vec K n) :
    (h.rotate R).addX (Tranquilo.rotate R x) =
      ((h.addX x).1.rotate R, (h.addX x).2) := by
  simp [addX, Log.rotate]

theorem rotate_evaluate {o o' : Oracle K n} (ho : ∀ k x, o' k (Tranquilo.rotate R x) = o k x)
    (h : Log K n) (q : List (Nat × Nat)) :
    (h.rotate R).evaluate o' q = (h.evaluate o q).rotate R := by
  simp only [evaluate]
  generalize (q.flatMap fun p => List.replicate p.2 p.1) = l
  induction l generalizing h with
  | nil => rfl
  | cons i l ih =>
    simp only [List.foldl_cons]
    rw [← ih]
    congr 1
    simp only [evalOne, rotate_xs, List.getElem?_map]
    cases h.xs[i]? with
    | none => rfl
    | some x => simp [Log.rotate, ho]

theorem rotate_getXs (h : Log K n) (is : List Nat) :
    (h.rotate R).getXs is = (h.getXs is).map (Tranquilo.rotate R) := by
  simp only [getXs, rotate_xs, List.getElem?_map]
  induction is with
  | nil => rfl
  | cons i is ih =>
    simp only [List.filterMap_cons]
    cases h.xs[i]? with
    | none => exact ih
    | some x => simp only [Option.map_some, List.map_cons, ih]

theorem rotate_indicesInRegion {nrm nrm' : Vec K n → K}
    (hn : ∀ v : Vec K n, nrm' (Tranquilo.rotate R v) = nrm v) (h : Log K n) (center : Vec K n)
    (radius : K) :
    (h.rotate R).indicesInRegion nrm' (Tranquilo.rotate R center) radius =
      h.indicesInRegion nrm center radius := by
  simp only [indicesInRegion, rotate_xs, List.getElem?_map, List.length_map,
    show (h.rotate R).evals = h.evals from rfl]
  congr 1
  refine List.filter_congr fun i _ => ?_
  cases h.xs[i]? with
  | none => rfl
  | some x => simp only [Option.map_some, rotate_sub, hn]

end Log

theorem rotate_additional (h : Log K n) (is : List Nat) (k : Int) :
    additionalEvalInfo (h.rotate R) is k = additionalEvalInfo h is k := rfl

/-! ### Dropping points -/

/-- Points in the new order. -/
def Points.rotate (R : Mat K n n) (p : Points K n) : Points K n where
  xs := p.xs.map (Tranquilo.rotate R)
  indices := p.indices
  dists := p.dists

theorem Points.rotate_delete (p : Points K n) (k : Nat) :
    (p.rotate R).delete k = (p.delete k).rotate R := by
  simp only [Points.delete, Points.rotate, eraseIdx_map']

theorem dropOutside_rotate (radius : K) (k : Nat) :
    ∀ p : Points K n, dropOutside radius k (p.rotate R) =
      ((dropOutside radius k p).1.rotate R, (dropOutside radius k p).2) := by
  induction k with
  | zero => exact fun p => rfl
  | succ k ih =>
    intro p
    simp only [dropOutside, show (p.rotate R).dists = p.dists from rfl, Points.rotate_delete]
    split_ifs
    · exact ih _
    · rfl

theorem pairDists_rotate {nrm nrm' : Vec K n → K}
    (hn : ∀ v : Vec K n, nrm' (rotate R v) = nrm v) (xs : List (Vec K n)) :
    pairDists nrm' (xs.map (rotate R)) = pairDists nrm xs := by
  simp only [pairDists, List.mapIdx_eq_zipIdx_map, List.zipIdx_map, List.map_map]
  refine List.map_congr_left fun p _ => ?_
  simp only [Function.comp_def, Prod.map, id]
  refine List.map_congr_left fun q _ => ?_
  split_ifs
  · rfl
  · rw [rotate_sub, hn]

theorem dropClose_rotate (index : Nat) (k : Nat) :
    ∀ (p : Points K n) (m : List (List (Option K))),
      SameOutcome (fun q q' => q' = q.rotate R) (dropClose index k p m)
        (dropClose index k (p.rotate R) m) := by
  induction k with
  | zero => exact fun p m => rfl
  | succ k ih =>
    intro p m
    have hc : chooseDrop index (p.rotate R) m = chooseDrop index p m := rfl
    simp only [dropClose, hc, Points.rotate_delete]
    split_ifs
    · exact rfl
    · exact ih _ _

theorem dropWorst_rotate {nrm nrm' : Vec K n → K}
    (hn : ∀ v : Vec K n, nrm' (rotate R v) = nrm v) (x : Vec K n) (index : Nat) (radius : K)
    (xs : List (Vec K n)) (is : List Nat) (k : Nat) :
    SameOutcome (fun p p' => p' = (p.1.map (rotate R), p.2)) (dropWorst nrm x index radius xs is k)
      (dropWorst nrm' (rotate R x) index radius (xs.map (rotate R)) is k) := by
  have hp : (⟨xs.map (rotate R), is, (xs.map (rotate R)).map fun y =>
      nrm' fun i => y i - rotate R x i⟩ : Points K n) =
      (⟨xs, is, xs.map fun y => nrm fun i => y i - x i⟩ : Points K n).rotate R := by
    simp only [Points.rotate, List.map_map, Function.comp_def, rotate_sub, hn]
  simp only [dropWorst, hp, dropOutside_rotate]
  split_ifs
  · generalize (dropOutside radius k _) = q
    rw [show (q.1.rotate R).xs = q.1.xs.map (rotate R) from rfl, pairDists_rotate hn]
    refine SameOutcome.bind (dropClose_rotate index _ _ _) fun u u' _ hu => ?_
    subst hu
    exact rfl
  · exact rfl
  · exact rfl

/-! ### Regions -/

namespace Region

theorem Free.shape {r : Region K n} (hr : r.Free) : r.shape = .sphere := by
  cases h : r.shape with
  | sphere => rfl
  | cube =>
    rw [shape_eq_cube_iff] at h
    rcases h with ⟨i, l, hl, _⟩ | ⟨i, l, hl, _⟩ <;> simp [show r.bounds = _ from hr] at hl

theorem Free.rotate {r : Region K n} (hr : r.Free) : (r.rotate R).Free := hr

end Region

theorem isOnBorder_rotate {nrm nrm' : Vec K n → K} (hn : ∀ v : Vec K n, nrm' (rotate R v) = nrm v)
    {cr cr' : K → K} (r : Region K n) (hr : r.Free) (x : Vec K n) (rtol : K) :
    isOnBorder nrm' cr' (r.rotate R) (rotate R x) rtol = isOnBorder nrm cr r x rtol := by
  unfold isOnBorder
  rw [hr.shape, (hr.rotate (R := R)).shape]
  simp only
  rw [show (fun i => rotate R x i - (r.rotate R).center i) = rotate R fun i => x i - r.center i
    from rotate_sub _ _, hn]
  rfl

end Tranquilo
