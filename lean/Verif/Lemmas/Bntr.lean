import Verif.Model.Bntr
import Verif.Spec.Bntr
import Verif.Lemmas.Dot
import Verif.Lemmas.ConjugateGradient
import Mathlib.Tactic.Linarith
import Mathlib.Tactic.Ring
import Mathlib.Tactic.FieldSimp
import Mathlib.Tactic.NormNum

/-!
# Lemmas about the model of `bntr_fast.py`
-/

namespace Tranquilo

variable {K : Type} [Field K] [LinearOrder K] [IsStrictOrderedRing K] {n : Nat}

omit [IsStrictOrderedRing K] in
theorem applyBounds_inBox (l u x : Vec K n) (h : ∀ i, l i ≤ u i) : InBox l u (applyBounds l u x) := by
  intro i
  unfold applyBounds
  split
  · exact ⟨le_rfl, h i⟩
  · rename_i h1
    split
    · exact ⟨h i, le_rfl⟩
    · rename_i h2
      exact ⟨(not_le.1 h1).le, (not_le.1 h2).le⟩

omit [IsStrictOrderedRing K] in
theorem applyBounds_of_inBox (l u x : Vec K n) (h : InBox l u x) : applyBounds l u x = x := by
  funext i
  unfold applyBounds
  split
  · rename_i h1; exact le_antisymm (h i).1 h1
  · split
    · rename_i h2; exact le_antisymm h2 (h i).2
    · rfl

omit [Field K] [LinearOrder K] [IsStrictOrderedRing K] in
theorem mem_maskIndices (mask : Fin n → Bool) (i : Fin n) : i ∈ maskIndices mask ↔ mask i = true := by
  simp [maskIndices]

omit [Field K] [LinearOrder K] [IsStrictOrderedRing K] in
theorem nodup_maskIndices (mask : Fin n → Bool) : (maskIndices mask).Nodup :=
  (List.nodup_finRange n).filter _

omit [LinearOrder K] [IsStrictOrderedRing K] in
/-- Sums over the selected positions. -/
theorem sum_mask (mask : Fin n → Bool) (f : Fin n → K) :
    ∑ k : Fin (maskIndices mask).length, f ((maskIndices mask).get k)
      = ∑ i, if mask i then f i else 0 := by
  rw [← Finset.sum_filter]
  have h1 : ∑ k : Fin (maskIndices mask).length, f ((maskIndices mask).get k)
      = ((maskIndices mask).map f).sum := by
    rw [← List.sum_ofFn]
    congr 1
    conv_rhs => rw [← List.ofFn_get (maskIndices mask), List.map_ofFn]
    rfl
  rw [h1, ← List.sum_toFinset f (nodup_maskIndices mask)]
  congr 1
  ext i
  simp [mem_maskIndices]

omit [LinearOrder K] [IsStrictOrderedRing K] in
theorem unmask_get (mask : Fin n → Bool) (v : Vec K (maskIndices mask).length)
    (k : Fin (maskIndices mask).length) : unmask mask v ((maskIndices mask).get k) = v k := by
  unfold unmask
  rw [dif_pos (List.get_mem _ _)]
  congr 1
  ext
  exact (nodup_maskIndices mask).idxOf_getElem _ _

omit [LinearOrder K] [IsStrictOrderedRing K] in
theorem unmask_of_false (mask : Fin n → Bool) (v : Vec K (maskIndices mask).length) (i : Fin n)
    (h : mask i = false) : unmask mask v i = 0 := by
  unfold unmask
  rw [dif_neg]
  rw [mem_maskIndices, h]; simp

omit [LinearOrder K] [IsStrictOrderedRing K] in
theorem maskVec_unmask (mask : Fin n → Bool) (v : Vec K (maskIndices mask).length) :
    maskVec mask (unmask mask v) = v := by
  funext k
  exact unmask_get mask v k

omit [LinearOrder K] [IsStrictOrderedRing K] in
theorem projectGradient_apply (mask : Fin n → Bool) (g : Vec K n) (i : Fin n) :
    projectGradient mask g i = if mask i then g i else 0 := by
  unfold projectGradient
  cases h : mask i with
  | false => simp [unmask_of_false mask _ i h]
  | true =>
    have hm : i ∈ maskIndices mask := (mem_maskIndices mask i).2 h
    obtain ⟨k, hk⟩ := List.get_of_mem hm
    rw [← hk, unmask_get]
    rw [hk]
    simp [maskVec, ← hk]

/-- The value of the criterion on the free parameters is that of the vector with zeros elsewhere. -/
theorem bntrCriterion_mask (mask : Fin n → Bool) (g s : Vec K n) (h : Mat K n n)
    (hs : ∀ i, mask i = false → s i = 0) :
    bntrCriterion (maskVec mask s) (maskVec mask g) (maskMat mask h) = bntrCriterion s g h := by
  unfold bntrCriterion
  have h1 : dot (maskVec mask g) (maskVec mask s) = dot g s := by
    unfold dot maskVec
    rw [sum_mask mask fun i => g i * s i]
    refine Finset.sum_congr rfl fun i _ => ?_
    cases hm : mask i with
    | false => simp [hs i hm]
    | true => simp
  have h2 : quadForm (maskMat mask h) (maskVec mask s) = quadForm h s := by
    unfold quadForm maskVec maskMat
    rw [sum_mask mask fun j => (∑ k : Fin (maskIndices mask).length,
      s ((maskIndices mask).get k) * h ((maskIndices mask).get k) j) * s j]
    refine Finset.sum_congr rfl fun j _ => ?_
    cases hm : mask j with
    | false => simp [hs j hm]
    | true =>
      simp only [if_true]
      rw [sum_mask mask fun i => s i * h i j]
      congr 1
      refine Finset.sum_congr rfl fun i _ => ?_
      cases hm : mask i with
      | false => simp [hs i hm]
      | true => simp
  rw [h1, h2]

theorem bntrCriterion_eq (x g : Vec K n) (h : Mat K n n) : bntrCriterion x g h = quadModel g h x := by
  rw [quadModel_eq]
  unfold bntrCriterion
  ring

/-! ## The Fischer-Burmeister function -/

theorem root_unique {root : K → K} (hroot : SqrtSpec root) {a b : K} (hb : 0 ≤ b) (h : b * b = a) :
    root a = b := by
  obtain ⟨h1, h2⟩ := hroot a (h ▸ mul_self_nonneg b)
  nlinarith [sq_nonneg (root a - b), mul_self_eq_mul_self_iff.1 (h2.trans h.symm)]

/-- Both branches compute `sqrt(a² + b²) - (a + b)`. -/
theorem fbScalar_eq {root : K → K} (hroot : SqrtSpec root) (a b : K) :
    fbScalar root a b = root (a ^ 2 + b ^ 2) - (a + b) := by
  unfold fbScalar
  split
  · rfl
  · rename_i h
    obtain ⟨h1, h2⟩ := hroot (a ^ 2 + b ^ 2) (by positivity)
    rw [div_eq_iff (by linarith [not_le.1 h])]
    linear_combination -h2

theorem fbScalar_eq_zero_iff {root : K → K} (hroot : SqrtSpec root) (a b : K) :
    fbScalar root a b = 0 ↔ 0 ≤ a ∧ 0 ≤ b ∧ a * b = 0 := by
  rw [fbScalar_eq hroot]
  obtain ⟨h1, h2⟩ := hroot (a ^ 2 + b ^ 2) (by positivity)
  constructor
  · intro h
    have hs : root (a ^ 2 + b ^ 2) = a + b := by linarith
    rw [hs] at h1 h2
    have hab : a * b = 0 := by nlinarith
    rcases mul_eq_zero.1 hab with h0 | h0
    · subst h0; exact ⟨le_rfl, by linarith, hab⟩
    · subst h0; exact ⟨by linarith, le_rfl, hab⟩
  · rintro ⟨ha, hb, hab⟩
    rw [root_unique hroot (add_nonneg ha hb) (by linear_combination 2 * hab)]
    ring

theorem fbScalar_nonneg_iff {root : K → K} (hroot : SqrtSpec root) (a b : K) :
    0 ≤ fbScalar root a b ↔ ¬ (0 < a ∧ 0 < b) := by
  rw [fbScalar_eq hroot]
  obtain ⟨h1, h2⟩ := hroot (a ^ 2 + b ^ 2) (by positivity)
  constructor
  · rintro h ⟨ha, hb⟩
    nlinarith [mul_pos ha hb]
  · intro h
    by_contra hn
    have hn' : root (a ^ 2 + b ^ 2) < a + b := by linarith [not_le.1 hn]
    have hab : 0 < a * b := by nlinarith
    rcases pos_and_pos_or_neg_and_neg_of_mul_pos hab with h' | ⟨h3, h4⟩
    · exact h h'
    · linarith

theorem fbDirection_eq_zero_iff {root : K → K} (hroot : SqrtSpec root) (x g l u : Vec K n)
    (i : Fin n) (h : l i ≤ u i) :
    fbDirection root x g l u i = 0 ↔
      (l i ≤ x i ∧ x i ≤ u i) ∧ (x i < u i → 0 ≤ g i) ∧ (l i < x i → g i ≤ 0) := by
  unfold fbDirection
  split
  · rename_i he
    constructor
    · intro h0
      have : x i = l i := by linarith
      rw [this, ← he]
      exact ⟨⟨le_rfl, le_rfl⟩, fun h => absurd h (lt_irrefl _), fun h => absurd h (lt_irrefl _)⟩
    · rintro ⟨⟨h1, h2⟩, -⟩
      rw [← he] at h2
      rw [le_antisymm h1 h2, sub_self]
  · rename_i hne
    have hlt : l i < u i := lt_of_le_of_ne h hne
    rw [fbScalar_eq_zero_iff hroot, fbScalar_nonneg_iff hroot, mul_eq_zero,
      fbScalar_eq_zero_iff hroot]
    constructor
    · rintro ⟨h1, h2, h3⟩
      rcases h3 with ⟨h3, h4, h5⟩ | h3
      · refine ⟨⟨by linarith, by linarith⟩, fun hxu => ?_, fun _ => by linarith⟩
        rcases mul_eq_zero.1 h5 with h5 | h5 <;> linarith
      · refine ⟨⟨by linarith, by linarith⟩, fun hxu => ?_, fun hlx => by linarith⟩
        by_contra hg
        exact h1 ⟨by linarith, by linarith [not_le.1 hg]⟩
    · rintro ⟨⟨h1, h2⟩, h3, h4⟩
      refine ⟨?_, by linarith, ?_⟩
      · rintro ⟨ha, hb⟩
        have := h3 (by linarith)
        linarith
      · rcases h1.eq_or_lt with he | hl
        · right; linarith
        · left
          refine ⟨by linarith, by linarith [h4 hl], ?_⟩
          rcases h2.eq_or_lt with he | hu
          · rw [he]; ring
          · rw [le_antisymm (h4 hl) (h3 hu)]; ring

theorem norm2_eq_zero_iff {root : K → K} (hroot : SqrtSpec root) (v : Vec K n) :
    norm2 root v = 0 ↔ ∀ i, v i = 0 := by
  unfold norm2
  obtain ⟨h1, h2⟩ := hroot (dot v v) (dot_self_nonneg v)
  constructor
  · intro h
    rw [h] at h2
    have h3 : ∑ i, v i * v i = 0 := by
      have : dot v v = 0 := by rw [← h2]; ring
      exact this
    rw [Finset.sum_eq_zero_iff_of_nonneg fun i _ => mul_self_nonneg _] at h3
    exact fun i => mul_self_eq_zero.1 (h3 i (Finset.mem_univ i))
  · intro h
    have : dot v v = 0 := Finset.sum_eq_zero fun i _ => by rw [h i, mul_zero]
    rw [this] at h1 h2 ⊢
    exact mul_self_eq_zero.1 h2

theorem norm2_nonneg {root : K → K} (hroot : SqrtSpec root) (v : Vec K n) : 0 ≤ norm2 root v :=
  (hroot _ (dot_self_nonneg v)).1

end Tranquilo
