import Verif.Model.Visualize
import Verif.Props.Limits
import Mathlib.Analysis.Matrix.PosDef
import Mathlib.LinearAlgebra.Matrix.SchurComplement
import Mathlib.LinearAlgebra.Matrix.ToLinearEquiv
import Mathlib.Analysis.SpecificLimits.Basic
import Mathlib.Algebra.Order.Star.Real

/-!
# C100: the criterion of D-optimality; C101: the data of the diagnostic plots
-/

namespace Tranquilo

open Matrix

variable {n : Nat}

/-! ## C100 -/

/-- The sample in unit coordinates, one row for every point. -/
noncomputable def unitMatrix (cr : ℝ → ℝ) (r : Region ℝ n) (sample : List (Vec ℝ n)) :
    Matrix (Fin sample.length) (Fin n) ℝ := fun s => r.mapToUnit cr sample[s]

theorem gramMatrix_eq (cr : ℝ → ℝ) (r : Region ℝ n) (sample : List (Vec ℝ n)) :
    gramMatrix (sample.map (r.mapToUnit cr)) = (unitMatrix cr r sample)ᵀ * unitMatrix cr r sample := by
  ext i j
  simp only [gramMatrix, List.map_map, Matrix.mul_apply, Matrix.transpose_apply, unitMatrix]
  exact (Fin.sum_univ_fun_getElem sample fun x => r.mapToUnit cr x i * r.mapToUnit cr x j).symm

theorem gram_posSemidef {m : Type} [Fintype m] (X : Matrix m (Fin n) ℝ) : (Xᵀ * X).PosSemidef := by
  have := Matrix.posSemidef_conjTranspose_mul_self X
  rwa [Matrix.conjTranspose_eq_transpose_of_trivial] at this

/-- The logarithm with the value minus infinity at zero. -/
noncomputable def extLog (a : ℝ) : XVal ℝ := if a = 0 then .ninf else .fin (Real.log a)

theorem logDQuality_eq (cr : ℝ → ℝ) (r : Region ℝ n) (sample : List (Vec ℝ n)) (hs : sample ≠ [])
    (hr : ∀ i, r.effectiveRadius cr i ≠ 0) :
    logDQuality cr r sample = extLog ((unitMatrix cr r sample)ᵀ * unitMatrix cr r sample).det := by
  have hlen : sample.length ≠ 0 := fun h => hs (List.length_eq_zero_iff.1 h)
  have hpos : (0 : ℝ) < sample.length := by exact_mod_cast Nat.pos_of_ne_zero hlen
  have hdet := (gram_posSemidef (unitMatrix cr r sample)).det_nonneg
  have e : (fun i j : Fin n => gramMatrix (sample.map (r.mapToUnit cr)) i j / (sample.length : ℝ))
      = (sample.length : ℝ)⁻¹ • ((unitMatrix cr r sample)ᵀ * unitMatrix cr r sample) := by
    rw [gramMatrix_eq]
    ext i j
    simp [div_eq_inv_mul]
  have hcond : ¬ (sample.length = 0 ∨ ∃ i, r.effectiveRadius cr i = 0) := by
    rintro (h | ⟨i, h⟩)
    · exact hlen h
    · exact hr i h
  simp only [logDQuality, List.length_map, if_neg hcond]
  rw [e, Matrix.det_smul, Fintype.card_fin]
  set d := ((unitMatrix cr r sample)ᵀ * unitMatrix cr r sample).det
  unfold extLog
  have hip : (0 : ℝ) < (sample.length : ℝ)⁻¹ ^ n := by positivity
  rcases hdet.lt_or_eq with h | h
  · rw [if_neg h.ne', npLog, if_pos (mul_pos hip h)]
    change XVal.fin _ = _
    rw [Real.log_mul hip.ne' h.ne', Real.log_pow, Real.log_inv]
    congr 1
    ring
  · rw [← h, if_pos rfl, mul_zero, npLog, if_neg (lt_irrefl _), if_pos rfl]
    rfl

/-- C100: for every nonempty sample the criterion is the logarithm of the determinant of `X'X`, where the rows of `X`
are the points in unit coordinates, with minus infinity for the determinant zero. (It is never NaN.) -/
theorem C100_value (cr : ℝ → ℝ) (r : Region ℝ n) (sample : List (Vec ℝ n)) (hs : sample ≠ [])
    (hr : ∀ i, r.effectiveRadius cr i ≠ 0) :
    0 ≤ ((unitMatrix cr r sample)ᵀ * unitMatrix cr r sample).det ∧
    logDQuality cr r sample
      = if ((unitMatrix cr r sample)ᵀ * unitMatrix cr r sample).det = 0 then .ninf
        else .fin (Real.log ((unitMatrix cr r sample)ᵀ * unitMatrix cr r sample).det) :=
  ⟨(gram_posSemidef _).det_nonneg, logDQuality_eq cr r sample hs hr⟩

/-- C100: the criterion is minus infinity exactly if the points are degenerate: in unit coordinates they lie in a
hyperplane through the center. -/
theorem C100_degenerate (cr : ℝ → ℝ) (r : Region ℝ n) (sample : List (Vec ℝ n)) (hs : sample ≠ [])
    (hr : ∀ i, r.effectiveRadius cr i ≠ 0) :
    logDQuality cr r sample = .ninf ↔
      ∃ v : Vec ℝ n, v ≠ 0 ∧ ∀ x ∈ sample, ∑ i, r.mapToUnit cr x i * v i = 0 := by
  rw [logDQuality_eq cr r sample hs hr]
  have h1 : extLog ((unitMatrix cr r sample)ᵀ * unitMatrix cr r sample).det = .ninf ↔
      ((unitMatrix cr r sample)ᵀ * unitMatrix cr r sample).det = 0 := by
    unfold extLog
    split <;> simp_all
  rw [h1, ← Matrix.exists_mulVec_eq_zero_iff]
  refine exists_congr fun v => and_congr_right fun _ => ?_
  have h2 : ((unitMatrix cr r sample)ᵀ * unitMatrix cr r sample) *ᵥ v = 0 ↔
      unitMatrix cr r sample *ᵥ v = 0 := by
    have := Matrix.conjTranspose_mul_self_mulVec_eq_zero (unitMatrix cr r sample) v
    rwa [Matrix.conjTranspose_eq_transpose_of_trivial] at this
  rw [h2]
  constructor
  · intro h x hx
    obtain ⟨s, hs, rfl⟩ := List.getElem_of_mem hx
    exact congrFun h ⟨s, hs⟩
  · intro h
    funext s
    exact h _ (List.getElem_mem _)

/-- C100: with fewer points than parameters the criterion is minus infinity. -/
theorem C100_few_points (cr : ℝ → ℝ) (r : Region ℝ n) (sample : List (Vec ℝ n)) (hs : sample ≠ [])
    (hr : ∀ i, r.effectiveRadius cr i ≠ 0)
    (hn : sample.length < n) : logDQuality cr r sample = .ninf := by
  rw [C100_degenerate cr r sample hs hr]
  have hker : LinearMap.ker (Matrix.mulVecLin (unitMatrix cr r sample)) ≠ ⊥ :=
    LinearMap.ker_ne_bot_of_finrank_lt (by simpa using hn)
  obtain ⟨v, hv0, hv⟩ := (Submodule.ne_bot_iff _).1 hker
  have h0 : unitMatrix cr r sample *ᵥ v = 0 := hv0
  refine ⟨v, hv, fun x hx => ?_⟩
  obtain ⟨s, hs, rfl⟩ := List.getElem_of_mem hx
  exact congrFun h0 ⟨s, hs⟩

/-- C100: the order of the points does not matter. -/
theorem C100_order (cr : ℝ → ℝ) (r : Region ℝ n) {sample sample' : List (Vec ℝ n)} (h : sample.Perm sample') :
    logDQuality cr r sample = logDQuality cr r sample' := by
  have hg : gramMatrix (sample.map (r.mapToUnit cr)) = gramMatrix (sample'.map (r.mapToUnit cr)) := by
    ext i j
    exact ((h.map _).map _).sum_eq
  simp only [logDQuality, List.length_map, h.length_eq, hg]

/-- C100: a further point never lowers the criterion. -/
theorem C100_more_points (cr : ℝ → ℝ) (r : Region ℝ n) (sample : List (Vec ℝ n)) (hs : sample ≠ [])
    (hr : ∀ i, r.effectiveRadius cr i ≠ 0) (x : Vec ℝ n) :
    logDQuality cr r sample ≤ logDQuality cr r (x :: sample) := by
  rw [logDQuality_eq cr r sample hs hr, logDQuality_eq cr r (x :: sample) (by simp) hr]
  set A := (unitMatrix cr r sample)ᵀ * unitMatrix cr r sample with hA
  set y := r.mapToUnit cr x
  have e : (unitMatrix cr r (x :: sample))ᵀ * unitMatrix cr r (x :: sample)
      = A + replicateCol Unit y * replicateRow Unit y := by
    rw [hA, ← gramMatrix_eq, ← gramMatrix_eq]
    ext i j
    simp [gramMatrix, Matrix.mul_apply, add_comm, y]
  have hpsd : A.PosSemidef := gram_posSemidef _
  have hpsd' := gram_posSemidef (unitMatrix cr r (x :: sample))
  rw [e] at hpsd' ⊢
  have hdet' := hpsd'.det_nonneg
  rcases hpsd.det_nonneg.lt_or_eq with h | h
  · have hle : A.det ≤ (A + replicateCol Unit y * replicateRow Unit y).det := by
      rw [Matrix.det_add_replicateCol_mul_replicateRow (isUnit_iff_ne_zero.2 h.ne')]
      have hq : 0 ≤ y ⬝ᵥ (A⁻¹ *ᵥ y) := by
        have := hpsd.inv.dotProduct_mulVec_nonneg y
        simpa using this
      have : (1 + replicateRow Unit y * A⁻¹ * replicateCol Unit y).det = 1 + y ⬝ᵥ (A⁻¹ *ᵥ y) := by
        rw [Matrix.det_unique]
        simp [Matrix.mul_assoc, Matrix.mul_apply, dotProduct, Matrix.mulVec]
      rw [this]
      nlinarith
    unfold extLog
    rw [if_neg h.ne', if_neg (h.trans_le hle).ne']
    exact Real.log_le_log h hle
  · rw [← h]
    unfold extLog
    rw [if_pos rfl]
    split <;> trivial

/-! ## C101 -/

section Search

variable {K : Type} [Field K] [LinearOrder K] [IsStrictOrderedRing K]

/-- The row is a vector of finite numbers within the distance `d` of the point in every coordinate. -/
def Near (row : Fin n → XVal K) (point : Vec K n) (d : K) : Prop :=
  ∀ j, ∃ a, row j = .fin a ∧ |a - point j| ≤ d

theorem rowInCube_iff (point : Vec K n) (d : K) (row : Fin n → XVal K) :
    rowInCube point d row = true ↔ Near row point d := by
  unfold rowInCube Near
  simp only [List.all_eq_true, List.mem_finRange, true_imp_iff, Bool.and_eq_true, decide_eq_true_eq]
  refine forall_congr' fun j => ?_
  cases row j with
  | fin a =>
    constructor
    · rintro ⟨⟨h1, h2⟩, -⟩
      have h1' : point j - d ≤ a := h1
      have h2' : a ≤ point j + d := h2
      exact ⟨a, rfl, abs_le.2 ⟨by linarith, by linarith⟩⟩
    · rintro ⟨b, hb, hd⟩
      cases hb
      obtain ⟨h1, h2⟩ := abs_le.1 hd
      refine ⟨⟨?_, ?_⟩, rfl⟩
      · change point j - d ≤ a; linarith
      · change a ≤ point j + d; linarith
  | pinf =>
    constructor
    · rintro ⟨⟨-, h⟩, -⟩; exact h.elim
    · rintro ⟨a, h, -⟩; cases h
  | ninf =>
    constructor
    · rintro ⟨⟨h, -⟩, -⟩; exact h.elim
    · rintro ⟨a, h, -⟩; cases h
  | nan =>
    constructor
    · rintro ⟨-, h⟩; simp [XVal.isNan] at h
    · rintro ⟨a, h, -⟩; cases h

/-- C101: the search for points in a cube finds exactly the rows of finite numbers within the radius, in the order
of the history and without repetition. -/
theorem C101_indices_in_cube (xs : List (Fin n → XVal K)) (center : Vec K n) (radius : K) :
    (findIndices xs center radius).Pairwise (· < ·) ∧
    ∀ i, i ∈ findIndices xs center radius ↔ ∃ row, xs[i]? = some row ∧ Near row center radius := by
  refine ⟨List.pairwise_lt_range.filter _, fun i => ?_⟩
  unfold findIndices
  rw [List.mem_filter, List.mem_range]
  constructor
  · rintro ⟨hi, h⟩
    rw [List.getElem?_eq_getElem hi] at h ⊢
    exact ⟨_, rfl, (rowInCube_iff _ _ _).1 h⟩
  · rintro ⟨row, hrow, h⟩
    have hi : i < xs.length := by
      by_contra hcon
      rw [List.getElem?_eq_none (not_lt.1 hcon)] at hrow
      cases hrow
    refine ⟨hi, ?_⟩
    rw [hrow]
    exact (rowInCube_iff _ _ _).2 h

/-- C101: if exactly one row of the history is within `1e-100` of the point, its index is found at once. -/
theorem C101_found (root : K → K) (xs : List (Fin n → XVal K)) (point : Vec K n) (i : Nat) (row : Fin n → XVal K)
    (hrow : xs[i]? = some row) (hnear : Near row point (1 / 10 ^ 100))
    (honly : ∀ k r, xs[k]? = some r → Near r point (1 / 10 ^ 100) → k = i) (fuel : Nat) :
    findIndex root xs point (fuel + 1) = some (.array i) := by
  obtain ⟨hsorted, hmem⟩ := C101_indices_in_cube xs point (1 / 10 ^ 100)
  have hi := (hmem i).2 ⟨row, hrow, hnear⟩
  have hl : findIndices xs point (1 / 10 ^ 100) = [i] := by
    have hall : ∀ k ∈ findIndices xs point (1 / 10 ^ 100), k = i := fun k hk => by
      obtain ⟨r, h1, h2⟩ := (hmem k).1 hk
      exact honly k r h1 h2
    revert hsorted hi hall
    generalize findIndices xs point (1 / 10 ^ 100) = l
    intro hsorted hi hall
    match l with
    | [] => simp at hi
    | [a] => rw [hall a (by simp)]
    | a :: b :: rest =>
      have h1 := hall a (by simp)
      have h2 := hall b (by simp)
      have h3 : a < b := (List.pairwise_cons.1 hsorted).1 b (by simp)
      omega
  rw [findIndex, findIndexLoop, hl]
  rfl

/-- C101: the model points of a state are found, in their order, if each of them is in the history once. -/
theorem C101_model_points_partial (root : K → K) (xs : List (Fin n → XVal K)) (fuel : Nat) (points : List (Vec K n))
    (idx : Vec K n → Nat)
    (h : ∀ p ∈ points, (∃ row, xs[idx p]? = some row ∧ Near row p (1 / 10 ^ 100)) ∧
      ∀ k r, xs[k]? = some r → Near r p (1 / 10 ^ 100) → k = idx p) :
    getModelIndices root xs (fuel + 1) points = .ok (some (points.map idx)) := by
  have key : ∀ (points : List (Vec K n)) (acc : List Nat),
      (∀ p ∈ points, (∃ row, xs[idx p]? = some row ∧ Near row p (1 / 10 ^ 100)) ∧
        ∀ k r, xs[k]? = some r → Near r p (1 / 10 ^ 100) → k = idx p) →
      modelIndicesLoop root xs (fuel + 1) points acc = .ok (some (acc ++ points.map idx)) := by
    intro points
    induction points with
    | nil => intro acc _; simp [modelIndicesLoop]
    | cons p rest ih =>
      intro acc hp
      obtain ⟨⟨row, h1, h2⟩, h3⟩ := hp p (by simp)
      rw [modelIndicesLoop, C101_found root xs p (idx p) row h1 h2 h3 fuel]
      change modelIndicesLoop root xs (fuel + 1) rest (acc ++ [idx p]) = _
      rw [ih _ fun q hq => hp q (by simp [hq])]
      simp
  simpa [getModelIndices] using key points [] h

/-- C101 is false for points that occur twice in the history (for instance because they were evaluated twice): the
search returns a number, the model indices cannot be computed and neither can the index of the
accepted point. -/
theorem C101_violated_duplicates (root : K → K) (xs : List (Fin n → XVal K)) (point : Vec K n) (i j : Nat)
    (hij : i ≠ j) (ri rj : Fin n → XVal K) (hi : xs[i]? = some ri) (hj : xs[j]? = some rj)
    (hni : Near ri point (1 / 10 ^ 100)) (hnj : Near rj point (1 / 10 ^ 100)) (fuel : Nat)
    (rest : List (Vec K n)) :
    getModelIndices root xs (fuel + 1) (point :: rest) = .error .valueError ∧
    acceptedIndex (findIndex root xs point (fuel + 1)) = .error .indexError := by
  obtain ⟨-, hmem⟩ := C101_indices_in_cube xs point (1 / 10 ^ 100)
  have h1 := (hmem i).2 ⟨ri, hi, hni⟩
  have h2 := (hmem j).2 ⟨rj, hj, hnj⟩
  have hf : ∃ k, findIndex root xs point (fuel + 1) = some (.scalar k) := by
    rw [findIndex, findIndexLoop]
    generalize findIndices xs point (1 / 10 ^ 100) = l at h1 h2
    match l with
    | [] => simp at h1
    | [a] =>
      rw [List.mem_singleton] at h1 h2
      exact absurd (h1.trans h2.symm) hij
    | a :: b :: rest => exact ⟨a, rfl⟩
  obtain ⟨k, hk⟩ := hf
  constructor
  · rw [getModelIndices, modelIndicesLoop, hk]
    rfl
  · rw [hk]
    rfl

end Search

theorem sqrt_iterate_lt (k : Nat) : Real.sqrt^[k] (1 / 10 ^ 100) < 1 := by
  induction k with
  | zero => simp only [Function.iterate_zero, id]; norm_num
  | succ k ih =>
    rw [Function.iterate_succ_apply']
    exact (Real.sqrt_lt' one_pos).2 (by simpa using ih)

theorem le_sqrt_iterate {d : ℝ} (hd : 0 ≤ d) : ∀ k r, d ^ (2 ^ k) ≤ r → d ≤ Real.sqrt^[k] r := by
  intro k
  induction k with
  | zero => intro r h; simpa using h
  | succ k ih =>
    intro r h
    rw [Function.iterate_succ_apply]
    refine ih _ (Real.le_sqrt_of_sq_le ?_)
    rwa [← pow_mul, ← pow_succ]

theorem findIndexLoop_some_iff (xs : List (Fin n → XVal ℝ)) (point : Vec ℝ n) :
    ∀ fuel r, (findIndexLoop Real.sqrt xs point fuel r).isSome = true ↔
      ∃ k < fuel, findIndices xs point (Real.sqrt^[k] r) ≠ [] := by
  intro fuel
  induction fuel with
  | zero => intro r; simp [findIndexLoop]
  | succ fuel ih =>
    intro r
    rw [findIndexLoop]
    by_cases h0 : findIndices xs point r = []
    · rw [h0]
      change (findIndexLoop Real.sqrt xs point fuel (Real.sqrt r)).isSome = true ↔ _
      rw [ih]
      constructor
      · rintro ⟨k, hk, h⟩
        exact ⟨k + 1, by omega, by rwa [Function.iterate_succ_apply]⟩
      · rintro ⟨k, hk, h⟩
        cases k with
        | zero => exact absurd h0 h
        | succ k => exact ⟨k, by omega, by rwa [Function.iterate_succ_apply] at h⟩
    · have : ∃ f, foundIndex (findIndices xs point r) = some f := by
        generalize findIndices xs point r = l at h0
        match l with
        | [] => exact absurd rfl h0
        | [a] => exact ⟨_, rfl⟩
        | a :: b :: rest => exact ⟨_, rfl⟩
      obtain ⟨f, hf⟩ := this
      rw [hf]
      exact ⟨fun _ => ⟨0, by omega, h0⟩, fun _ => rfl⟩

/-- C101: the search for a point ends if and only if some row of the history has distance less than one from it in
every coordinate (the search radius grows from `1e-100` towards one, but does not reach it). -/
theorem C101_search_ends_iff (xs : List (Fin n → XVal ℝ)) (point : Vec ℝ n) :
    (∃ fuel, (findIndex Real.sqrt xs point fuel).isSome = true) ↔
      ∃ row ∈ xs, ∀ j, ∃ a, row j = .fin a ∧ |a - point j| < 1 := by
  constructor
  · rintro ⟨fuel, h⟩
    obtain ⟨k, -, hk⟩ := (findIndexLoop_some_iff xs point fuel _).1 h
    obtain ⟨i, hi⟩ := List.exists_mem_of_ne_nil _ hk
    obtain ⟨row, hrow, hn⟩ := ((C101_indices_in_cube xs point _).2 i).1 hi
    refine ⟨row, List.mem_of_getElem? hrow, fun j => ?_⟩
    obtain ⟨a, ha, hd⟩ := hn j
    exact ⟨a, ha, hd.trans_lt (sqrt_iterate_lt k)⟩
  · rintro ⟨row, hrow, hn⟩
    choose a ha hd using hn
    have hev : ∀ j, ∀ᶠ k : ℕ in Filter.atTop, |a j - point j| ≤ Real.sqrt^[k] (1 / 10 ^ 100) := by
      intro j
      have h1 : Filter.Tendsto (fun k : ℕ => |a j - point j| ^ k) Filter.atTop (nhds 0) :=
        tendsto_pow_atTop_nhds_zero_of_lt_one (abs_nonneg _) (hd j)
      have h2 : Filter.Tendsto (fun k : ℕ => |a j - point j| ^ 2 ^ k) Filter.atTop (nhds 0) :=
        h1.comp (tendsto_pow_atTop_atTop_of_one_lt (by norm_num))
      filter_upwards [h2.eventually_le_const (show (0 : ℝ) < 1 / 10 ^ 100 by positivity)] with k hk
      exact le_sqrt_iterate (abs_nonneg _) k _ hk
    obtain ⟨k, hk⟩ := (Filter.eventually_all.2 hev).exists
    refine ⟨k + 1, (findIndexLoop_some_iff xs point _ _).2 ⟨k, by omega, ?_⟩⟩
    obtain ⟨i, hi, rfl⟩ := List.getElem_of_mem hrow
    have : i ∈ findIndices xs point (Real.sqrt^[k] (1 / 10 ^ 100)) :=
      ((C101_indices_in_cube xs point _).2 i).2
        ⟨xs[i], List.getElem?_eq_getElem hi, fun j => ⟨a j, ha j, hk j⟩⟩
    exact List.ne_nil_of_mem this

/-- C101 is false for points that are not in the history: for the history with the single point 0 the search for the
point 1 never ends. -/
theorem C101_violated_endless (fuel : Nat) :
    findIndex Real.sqrt [fun _ : Fin 1 => XVal.fin 0] (fun _ => 1) fuel = none := by
  by_contra h
  obtain ⟨row, hrow, hn⟩ := (C101_search_ends_iff _ _).1 ⟨fuel, Option.isSome_iff_ne_none.2 h⟩
  rw [List.mem_singleton] at hrow
  obtain ⟨a, ha, hd⟩ := hn 0
  rw [hrow] at ha
  cases ha
  norm_num at hd

/-- C101: in every state of a run of tranquilo each plotted point has the label of its role: new, existing or
discarded; the plotted points are the points of the model and the discarded ones. -/
theorem C101_labels {K : Type} [Field K] [LinearOrder K] [IsStrictOrderedRing K] [FloorRing K] {VM SM : Type}
    (c : Config K) (comp : Components K n VM SM)
    (hf : FilterSelects comp) (hb : 1 ≤ c.batchSize) (x : Vec K n) (radius : K) (bounds : Bounds K n) :
    ∀ s ∈ (tranquilo c comp x radius bounds).states, s.nEvalsPerPoint ≠ none →
      ∃ rows, samplePointCases s.modelIndices s.newIndices s.oldIndicesUsed s.oldIndicesDiscarded = .ok rows ∧
        rows.map Prod.fst = s.modelIndices ++ s.oldIndicesDiscarded ∧
        ∀ row ∈ rows,
          (row.2 = some "new" ∧ row.1 ∈ s.newIndices ∧ row.1 ∉ s.oldIndicesUsed ∧ row.1 ∉ s.oldIndicesDiscarded) ∨
          (row.2 = some "existing" ∧ row.1 ∈ s.oldIndicesUsed ∧ row.1 ∉ s.newIndices ∧
            row.1 ∉ s.oldIndicesDiscarded) ∨
          (row.2 = some "discarded" ∧ row.1 ∈ s.oldIndicesDiscarded ∧ row.1 ∉ s.modelIndices) := by
  intro s hs hne
  obtain ⟨ne, hne⟩ := Option.ne_none_iff_exists'.1 hne
  obtain ⟨n0, -, ha⟩ := C67_points_are_accounted c comp hf hb x radius bounds s hs ne hne
  have hkey : ¬ ∃ i ∈ s.newIndices ++ s.oldIndicesUsed ++ s.oldIndicesDiscarded,
      i ∉ s.modelIndices ++ s.oldIndicesDiscarded := by
    rintro ⟨i, hi, hn⟩
    simp only [List.mem_append, not_or] at hi hn
    rcases hi with hi | hi
    · exact hn.1 ((ha.model i).2 hi)
    · exact hn.2 hi
  refine ⟨_, by rw [samplePointCases, if_neg hkey], by simp [List.map_map, Function.comp_def], fun row hrow => ?_⟩
  obtain ⟨i, hi, rfl⟩ := List.mem_map.1 hrow
  dsimp only
  by_cases hd : i ∈ s.oldIndicesDiscarded
  · rw [if_pos hd]
    refine .inr (.inr ⟨rfl, hd, fun hm => ?_⟩)
    rcases (ha.model i).1 hm with h | h
    · exact (ha.newNotOld i h).2 hd
    · exact ha.usedNotDiscarded i h hd
  · rw [if_neg hd]
    by_cases hu : i ∈ s.oldIndicesUsed
    · rw [if_pos hu]
      exact .inr (.inl ⟨rfl, hu, fun hnew => (ha.newNotOld i hnew).1 hu, hd⟩)
    · rw [if_neg hu]
      have hm : i ∈ s.modelIndices := by
        rcases List.mem_append.1 hi with h | h
        · exact h
        · exact absurd h hd
      have hnew : i ∈ s.newIndices := by
        rcases (ha.model i).1 hm with h | h
        · exact h
        · exact absurd h hu
      rw [if_pos hnew]
      exact .inl ⟨rfl, hnew, hu, hd⟩

/-! ## Examples -/

/-- The unit sphere without bounds. -/
noncomputable def unitSphere2 : Region ℝ 2 where
  center := 0
  radius := 1
  bounds := ⟨fun _ => none, fun _ => none⟩

theorem unitSphere2_unit (x : Vec ℝ 2) : unitSphere2.mapToUnit (fun a => a) x = x := by
  have h : unitSphere2.shape = .sphere := by
    simp [Region.shape, unitSphere2, lowerBinding, upperBinding]
  funext i
  simp [Region.mapToUnit, Region.effectiveCenter, Region.effectiveRadius, h]
  simp [unitSphere2]

theorem unitSphere2_sides (i : Fin 2) : unitSphere2.effectiveRadius (fun a => a) i ≠ 0 := by
  have h : unitSphere2.shape = .sphere := by
    simp [Region.shape, unitSphere2, lowerBinding, upperBinding]
  simp [Region.effectiveRadius, h]
  simp [unitSphere2]

/-- C100: the value for the two unit vectors of the unit sphere is zero, and minus infinity for one of them. -/
example : logDQuality (fun a => a) unitSphere2 [![1, 0], ![0, 1]] = .fin 0 ∧
    logDQuality (fun a => a) unitSphere2 [![1, 0]] = .ninf := by
  refine ⟨?_, C100_few_points _ _ _ (by simp) unitSphere2_sides (by simp)⟩
  have hd : ((unitMatrix (fun a => a) unitSphere2 [![1, 0], ![0, 1]])ᵀ *
      unitMatrix (fun a => a) unitSphere2 [![1, 0], ![0, 1]]).det = 1 := by
    rw [← gramMatrix_eq]
    simp [Matrix.det_fin_two, gramMatrix, unitSphere2_unit]
  rw [(C100_value _ _ _ (by simp) unitSphere2_sides).2, hd]
  simp

/-- C101: a history in which the points are found. -/
example : getModelIndices (K := ℚ) (fun a => a) [![.fin 0, .fin 0], ![.fin 1, .fin 0], ![.nan, .fin 0]] 1
    [![1, 0], ![0, 0]] = .ok (some [1, 0]) := by
  decide +kernel

/-- C101: a history with a repeated point. -/
example : getModelIndices (K := ℚ) (fun a => a) [![.fin 0, .fin 0], ![.fin 0, .fin 0]] 1 [![0, 0]]
    = .error .valueError := by
  decide +kernel

/-- C101: labels. -/
example : samplePointCases [0, 3, 4] [3, 4] [0] [1] =
    .ok [(0, some "existing"), (3, some "new"), (4, some "new"), (1, some "discarded")] := by
  decide +kernel

end Tranquilo
