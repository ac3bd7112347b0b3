import Verif.Lemmas.PermuteFit
import Mathlib.GroupTheory.Perm.Fin

/-!
# Least squares and features with the parameters in another order
-/

namespace Tranquilo

variable {K : Type} [Field K] [LinearOrder K] [IsStrictOrderedRing K] {n m N p : Nat}

/-! ### Least squares -/

theorem residSq_perm (ρ : Equiv.Perm (Fin N)) (π : Equiv.Perm (Fin p)) (a : Mat K N p) (y : Vec K N)
    (c : Vec K p) :
    residSq (fun s k => a (ρ s) (π k)) (fun s => y (ρ s)) (fun k => c (π k)) = residSq a y c := by
  simp only [residSq]
  rw [← Equiv.sum_comp ρ fun s => ((∑ k, a s k * c k) - y s) ^ 2]
  refine Finset.sum_congr rfl fun s _ => ?_
  congr 2
  exact Equiv.sum_comp π fun k => a (ρ s) k * c k

/-- The order of the equations does not matter, and that of the unknowns only for their order in the
result. -/
theorem lstsq_perm {lstsq : Lstsq K} (hl : LstsqSpec lstsq) (ρ : Equiv.Perm (Fin N))
    (π : Equiv.Perm (Fin p)) (a : Mat K N p) (y : Vec K N) :
    lstsq N p (fun s k => a (ρ s) (π k)) (fun s => y (ρ s)) = fun k => lstsq N p a y (π k) := by
  have hback : ∀ z : Vec K p, ∃ w : Vec K p, z = fun k => w (π k) := fun z =>
    ⟨fun j => z (π.symm j), by simp⟩
  have hsq : ∀ z : Vec K p, ∑ k, z (π k) ^ 2 = ∑ k, z k ^ 2 := fun z =>
    Equiv.sum_comp π fun k => z k ^ 2
  refine lstsq_unique _ _ _ _ (hl.least _ _ _ _) (hl.shortest _ _ _ _) (fun z => ?_) fun z hz => ?_
  · obtain ⟨w, rfl⟩ := hback z
    rw [residSq_perm, residSq_perm]
    exact hl.least _ _ _ _ _
  · obtain ⟨w, rfl⟩ := hback z
    rw [residSq_perm, residSq_perm] at hz
    rw [hsq, hsq w]
    exact hl.shortest _ _ _ _ _ hz

/-! ### Features -/

section

variable (σ : Equiv.Perm (Fin n))

/-- The pair of two parameters of the new problem in the old problem, smaller position first. -/
def pairOf (q : Fin n × Fin n) : Fin n × Fin n :=
  if σ q.1 ≤ σ q.2 then (σ q.1, σ q.2) else (σ q.2, σ q.1)

theorem pairOf_le (q : Fin n × Fin n) : (pairOf σ q).1 ≤ (pairOf σ q).2 := by
  simp only [pairOf]
  split_ifs with h
  · exact h
  · exact (not_le.1 h).le

theorem pairOf_symm (q : Fin n × Fin n) (hq : q.1 ≤ q.2) : pairOf σ.symm (pairOf σ q) = q := by
  obtain ⟨i, j⟩ := q
  simp only [pairOf]
  by_cases h : σ i ≤ σ j
  · simp only [if_pos h, Equiv.symm_apply_apply, if_pos hq]
  · simp only [if_neg h, Equiv.symm_apply_apply]
    by_cases h2 : j ≤ i
    · have : i = j := le_antisymm hq h2
      exact absurd (this ▸ le_rfl) h
    · simp only [if_neg h2]

/-- The permutation of the upper triangle. -/
def triuPerm : Equiv.Perm {q // q ∈ triuIndices n} where
  toFun q := ⟨pairOf σ q.1, (mem_triuIndices _).2 (pairOf_le σ q.1)⟩
  invFun q := ⟨pairOf σ.symm q.1, (mem_triuIndices _).2 (pairOf_le σ.symm q.1)⟩
  left_inv q := Subtype.ext (pairOf_symm σ q.1 ((mem_triuIndices _).1 q.2))
  right_inv q := Subtype.ext (by
    have := pairOf_symm σ.symm q.1 ((mem_triuIndices _).1 q.2)
    simpa using this)

/-- The position of a pair among the second order terms. -/
def triuPos (n : Nat) : Fin (nSecondOrderTerms n) ≃ {q // q ∈ triuIndices n} :=
  (finCongr (length_triuIndices n).symm).trans ((nodup_triuIndices n).getEquiv _)

theorem triuPos_get (j : Fin (nSecondOrderTerms n)) :
    (triuIndices n)[j.val]? = some (triuPos n j).1 := by
  have hj : j.val < (triuIndices n).length := by rw [length_triuIndices]; exact j.isLt
  rw [List.getElem?_eq_getElem hj]
  rfl

/-- The permutation of the intercept and the linear terms. -/
def linPerm : Equiv.Perm (Fin (n + 1)) := Equiv.Perm.decomposeFin.symm (0, σ)

theorem linPerm_zero : linPerm σ 0 = 0 := by simp [linPerm]

theorem linPerm_succ (i : Fin n) : linPerm σ i.succ = (σ i).succ := by simp [linPerm]

/-- The permutation of the second order terms. -/
def quadPerm : Equiv.Perm (Fin (nSecondOrderTerms n)) :=
  (triuPos n).trans ((triuPerm σ).trans (triuPos n).symm)

/-- The permutation of the columns of the feature matrix. -/
def featPerm : (mt : ModelType) → Equiv.Perm (Fin (nCols n mt))
  | .linear => linPerm σ
  | .quadratic => finSumFinEquiv.symm.trans ((Equiv.sumCongr (linPerm σ) (quadPerm σ)).trans finSumFinEquiv)

theorem featPerm_castAdd (i : Fin (n + 1)) :
    featPerm σ .quadratic (Fin.castAdd (nSecondOrderTerms n) i) =
      Fin.castAdd (nSecondOrderTerms n) (linPerm σ i) := by
  change finSumFinEquiv (Equiv.sumCongr (linPerm σ) (quadPerm σ)
    (finSumFinEquiv.symm (Fin.castAdd (nSecondOrderTerms n) i))) = _
  rw [finSumFinEquiv_symm_apply_castAdd]
  rfl

theorem featPerm_natAdd (j : Fin (nSecondOrderTerms n)) :
    featPerm σ .quadratic (Fin.natAdd (n + 1) j) = Fin.natAdd (n + 1) (quadPerm σ j) := by
  change finSumFinEquiv (Equiv.sumCongr (linPerm σ) (quadPerm σ)
    (finSumFinEquiv.symm (Fin.natAdd (n + 1) j))) = _
  rw [finSumFinEquiv_symm_apply_natAdd]
  rfl

end

variable {σ : Equiv.Perm (Fin n)}

theorem featureRow_lin (mt : ModelType) (x : Vec K n) (i : Fin (n + 1)) :
    (featureRow mt x).getD i.val 0 = Fin.cases 1 x i := by
  refine Fin.cases ?_ (fun i => ?_) i
  · simp [featureRow]
  · cases mt with
    | linear => simp [featureRow, List.getD_eq_getElem?_getD]
    | quadratic =>
      simp only [featureRow, Fin.val_succ, List.getElem?_cons_succ, List.getD_eq_getElem?_getD, Fin.cases_succ]
      rw [List.getElem?_append_left (by simp)]
      simp

theorem featureRow_quad (x : Vec K n) (j : Fin (nSecondOrderTerms n)) :
    (featureRow .quadratic x).getD (n + 1 + j.val) 0 = x (triuPos n j).1.1 * x (triuPos n j).1.2 := by
  simp only [featureRow, show n + 1 + j.val = n + j.val + 1 by omega, List.getElem?_cons_succ,
    List.getD_eq_getElem?_getD]
  rw [List.getElem?_append_right (by simp)]
  simp only [List.length_ofFn, Nat.add_sub_cancel_left, quadraticTerms_eq, List.getElem?_map, triuPos_get]
  rfl

theorem featureRow_permute (mt : ModelType) (x : Vec K n) (k : Fin (nCols n mt)) :
    (featureRow mt (permute σ x)).getD k.val 0 = (featureRow mt x).getD (featPerm σ mt k).val 0 := by
  have hlin : ∀ i : Fin (n + 1), (Fin.cases 1 (permute σ x) i : K) = Fin.cases 1 x (linPerm σ i) := by
    intro i
    refine Fin.cases ?_ (fun i => ?_) i
    · rw [linPerm_zero]
      rfl
    · rw [linPerm_succ]
      rfl
  cases mt with
  | linear =>
    have h1 := featureRow_lin .linear (permute σ x) k
    have h2 := featureRow_lin .linear x (linPerm σ k)
    exact h1.trans ((hlin k).trans h2.symm)
  | quadratic =>
    refine Fin.addCases (fun i => ?_) (fun j => ?_) k
    · rw [featPerm_castAdd, Fin.val_castAdd, Fin.val_castAdd, featureRow_lin, featureRow_lin, hlin]
    · rw [featPerm_natAdd, Fin.val_natAdd, Fin.val_natAdd, featureRow_quad, featureRow_quad]
      have : (triuPos n (quadPerm σ j)).1 = pairOf σ (triuPos n j).1 := by
        simp [quadPerm, triuPerm]
      rw [this]
      simp only [pairOf, permute]
      split_ifs
      · rfl
      · exact mul_comm _ _

theorem featureMatrix_permute (mt : ModelType) (xs : Fin N → Vec K n) :
    featureMatrix mt (fun s => permute σ (xs s)) =
      fun s k => featureMatrix mt xs s (featPerm σ mt k) := by
  funext s k
  exact featureRow_permute mt (xs s) k

theorem byTerm_perm (mt : ModelType) (a b c : K) (k : Fin (nCols n mt)) :
    byTerm n a b c (featPerm σ mt k).val = byTerm n a b c k.val := by
  have hlin : ∀ i : Fin (n + 1), byTerm n a b c (linPerm σ i).val = byTerm n a b c i.val := by
    intro i
    refine Fin.cases ?_ (fun i => ?_) i
    · rw [linPerm_zero]
    · rw [linPerm_succ]
      simp [byTerm]
  cases mt with
  | linear => exact hlin k
  | quadratic =>
    refine Fin.addCases (fun i => ?_) (fun j => ?_) k
    · rw [featPerm_castAdd]
      exact hlin i
    · rw [featPerm_natAdd]
      have h1 : ∀ t, ¬ (n + 1 + t < 1) := by omega
      have h2 : ∀ t, ¬ (n + 1 + t < n + 1) := by omega
      simp only [byTerm, Fin.val_natAdd, h1, h2, if_false]

/-! ### The model that belongs to coefficients -/

theorem lookup_zip {α β : Type} [BEq α] [LawfulBEq α] (ks : List α) (hk : ks.Nodup) :
    ∀ (l : List β) (j : Nat) (q : α), ks[j]? = some q → (ks.zip l).lookup q = l[j]? := by
  induction ks with
  | nil => simp
  | cons a ks ih =>
    intro l j q hq
    rw [List.nodup_cons] at hk
    cases l with
    | nil => simp
    | cons b l =>
      cases j with
      | zero =>
        simp only [List.getElem?_cons_zero, Option.some.injEq] at hq
        subst hq
        simp
      | succ j =>
        simp only [List.getElem?_cons_succ] at hq
        have hne : q ≠ a := by
          rintro rfl
          exact hk.1 (List.mem_of_getElem? hq)
        simp only [List.zip_cons_cons, List.lookup_cons, List.getElem?_cons_succ]
        rw [show (q == a) = false by simp [hne]]
        exact ih hk.2 l j q hq

theorem lookup_zip_none {α β : Type} [BEq α] [LawfulBEq α] (ks : List α) (l : List β) (q : α) (hq : q ∉ ks) :
    (ks.zip l).lookup q = none := by
  induction ks generalizing l with
  | nil => simp
  | cons a ks ih =>
    cases l with
    | nil => simp
    | cons b l =>
      rw [List.mem_cons, not_or] at hq
      simp only [List.zip_cons_cons, List.lookup_cons]
      rw [show (q == a) = false by simp [hq.1]]
      exact ih l hq.2

/-- The entries of the Hessian in terms of the coefficients. -/
theorem reshape_entry (coef : Vec K (nCols n .quadratic)) (i j : Fin n) (k : Fin (nSecondOrderTerms n))
    (hk : (triuPos n k).1 = if i ≤ j then (i, j) else (j, i)) :
    reshapeToHess n ((List.ofFn coef).drop (n + 1)) i j =
      (if i = j then 2 else 1) * coef (Fin.natAdd (n + 1) k) := by
  have hget : ((List.ofFn coef).drop (n + 1))[k.val]? = some (coef (Fin.natAdd (n + 1) k)) := by
    rw [List.getElem?_drop, List.getElem?_ofFn]
    have hlt : n + 1 + k.val < nCols n .quadratic := by
      simp only [nCols]
      have := k.isLt
      omega
    rw [dif_pos hlt]
    rfl
  have hval : ∀ q, (triuPos n k).1 = q →
      (((triuIndices n).zip ((List.ofFn coef).drop (n + 1))).lookup q).getD 0 =
        coef (Fin.natAdd (n + 1) k) := by
    rintro q rfl
    rw [lookup_zip _ (nodup_triuIndices n) _ _ _ (triuPos_get k), hget]
    rfl
  have hnone : ∀ q : Fin n × Fin n, ¬ q.1 ≤ q.2 →
      (((triuIndices n).zip ((List.ofFn coef).drop (n + 1))).lookup q).getD 0 = 0 := by
    intro q hq
    rw [lookup_zip_none _ _ _ fun h => hq ((mem_triuIndices q).1 h)]
    rfl
  simp only [reshapeToHess]
  rcases lt_trichotomy i j with h | h | h
  · rw [if_pos h.le] at hk
    rw [hval _ hk, if_neg (not_le.2 h), if_neg h.ne]
    ring
  · subst h
    rw [if_pos le_rfl] at hk
    rw [hval _ hk, if_pos le_rfl, if_pos rfl]
    ring
  · rw [if_neg (not_le.2 h)] at hk
    rw [hnone (i, j) (not_le.2 h), if_pos h.le, hval _ hk, if_neg h.ne']
    ring

theorem reshape_permute (coef : Vec K (nCols n .quadratic)) (i j : Fin n) :
    reshapeToHess n ((List.ofFn fun k => coef (featPerm σ .quadratic k)).drop (n + 1)) i j =
      reshapeToHess n ((List.ofFn coef).drop (n + 1)) (σ i) (σ j) := by
  have hmem : (if i ≤ j then (i, j) else (j, i)) ∈ triuIndices n := by
    rw [mem_triuIndices]
    split_ifs with h
    · exact h
    · exact (not_le.1 h).le
  obtain ⟨k, hk⟩ : ∃ k, (triuPos n k).1 = if i ≤ j then (i, j) else (j, i) :=
    ⟨(triuPos n).symm ⟨_, hmem⟩, by simp⟩
  have hk' : (triuPos n (quadPerm σ k)).1 = if σ i ≤ σ j then (σ i, σ j) else (σ j, σ i) := by
    have : (triuPos n (quadPerm σ k)).1 = pairOf σ (triuPos n k).1 := by
      simp [quadPerm, triuPerm]
    rw [this, hk]
    simp only [pairOf]
    by_cases h : i ≤ j
    · simp only [if_pos h]
    · simp only [if_neg h]
      rcases lt_trichotomy (σ i) (σ j) with h1 | h1 | h1
      · rw [if_neg (not_le.2 h1), if_pos h1.le]
      · rw [h1]
      · rw [if_pos h1.le, if_neg (not_le.2 h1)]
  rw [reshape_entry _ i j k hk, reshape_entry coef (σ i) (σ j) _ hk', featPerm_natAdd]
  simp only [EmbeddingLike.apply_eq_iff_eq]

theorem getD_ofFn_lin (mt : ModelType) (coef : Vec K (nCols n mt)) (i : Nat) (hi : i < n + 1) :
    (List.ofFn coef).getD i 0 = coef ⟨i, by cases mt <;> simp only [nCols] <;> omega⟩ := by
  have : i < nCols n mt := by cases mt <;> simp only [nCols] <;> omega
  simp [List.getD_eq_getElem?_getD, this]

theorem featPerm_lin (mt : ModelType) (i : Fin (n + 1)) (h : i.val < nCols n mt) :
    (featPerm σ mt ⟨i.val, h⟩).val = (linPerm σ i).val := by
  cases mt with
  | linear => rfl
  | quadratic =>
    exact congrArg Fin.val (featPerm_castAdd σ i)

theorem modelOfCoef_permute (mt : ModelType) (coef : Fin m → Vec K (nCols n mt)) (shift scale : Vec K n) :
    modelOfCoef mt (fun k j => coef k (featPerm σ mt j)) (permute σ shift) (permute σ scale) =
      (modelOfCoef mt coef shift scale).permute σ := by
  have hlin : ∀ (k : Fin m) (i : Fin (n + 1)),
      (List.ofFn fun j => coef k (featPerm σ mt j)).getD i.val 0 =
        (List.ofFn (coef k)).getD (linPerm σ i).val 0 := by
    intro k i
    rw [getD_ofFn_lin mt _ _ i.isLt, getD_ofFn_lin mt _ _ (linPerm σ i).isLt]
    congr 1
    exact Fin.ext (featPerm_lin mt i _)
  simp only [modelOfCoef, VectorModel.permute, VectorModel.mk.injEq, true_and, and_true]
  refine ⟨?_, ?_, ?_⟩
  · funext k
    have := hlin k 0
    rw [linPerm_zero] at this
    exact this
  · funext k i
    have := hlin k i.succ
    rw [linPerm_succ] at this
    simpa [Fin.val_succ, Nat.add_comm] using this
  · cases mt with
    | linear => rfl
    | quadratic =>
      simp only [Option.map_some, Option.some.injEq]
      funext k i j
      exact reshape_permute (coef k) i j

/-- All built in fitters but "powell" treat the parameters alike. -/
theorem builtinFitter_permute (b : BuiltinSettings K n m) (hl : LstsqSpec b.lstsq)
    (hp : b.fitter ≠ .powell) (xs : Fin N → Vec K n) (y : Vec K N) :
    SameOutcome (fun u u' => u' = fun k => u (featPerm σ b.modelType k)) (builtinFitter b xs y)
      (builtinFitter b (fun s => permute σ (xs s)) y) := by
  have hw : ∀ {q : Nat} (a : Mat K N q), weightMat b.root none a = a := fun a => rfl
  have hv : weightVec b.root none y = y := rfl
  simp only [builtinFitter]
  cases hf : b.fitter with
  | ols =>
    simp only [SameOutcome, fitOls, featureMatrix_permute, hw, hv]
    exact lstsq_perm hl (Equiv.refl _) _ _ y
  | ridge pl ps =>
    simp only [SameOutcome, fitRidge, fitRidgeRaw, featureMatrix_permute, hw, hv]
    rw [← lstsq_perm hl (featPerm σ b.modelType) (featPerm σ b.modelType)]
    congr 1
    funext i j
    simp only [byTerm_perm, EmbeddingLike.apply_eq_iff_eq]
  | tranquilo pi pl ps =>
    simp only [SameOutcome, fitTranquilo, featureMatrix_permute, hw, hv]
    funext k
    rw [byTerm_perm]
    congr 1
    have := lstsq_perm hl (Equiv.refl (Fin N)) (featPerm σ b.modelType)
      (fun s k => featureMatrix b.modelType xs s k * byTerm n (1 / pi) (1 / pl) (1 / ps) k.val) y
    simp only [byTerm_perm, Equiv.refl_apply] at this
    exact congrFun this k
  | powell => exact absurd hf hp

end Tranquilo
