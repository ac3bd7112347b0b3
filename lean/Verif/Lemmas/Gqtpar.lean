import Verif.Spec.Gqtpar
import Verif.Lemmas.ConjugateGradient
import Mathlib.Tactic.Linarith
import Mathlib.Tactic.LinearCombination
import Mathlib.Tactic.FieldSimp
import Mathlib.Tactic.Positivity
import Mathlib.Algebra.Order.BigOperators.Group.Finset

/-!
# Lemmas for gqtpar
-/

namespace Tranquilo

variable {K : Type} [Field K] [LinearOrder K] [IsStrictOrderedRing K] {n : Nat}

/-! ## Quadratic forms -/

omit [LinearOrder K] [IsStrictOrderedRing K] in
theorem sum_form_eq (h : Mat K n n) (y : Vec K n) :
    ∑ i, ∑ j, h i j * y i * y j = quadForm h y := by
  rw [quadForm_eq_dot]
  simp only [dot, matVec, Finset.mul_sum]
  exact Finset.sum_congr rfl fun i _ => Finset.sum_congr rfl fun j _ => by ring

omit [LinearOrder K] [IsStrictOrderedRing K] in
theorem matVec_addDiag (h : Mat K n n) (lam : K) (x : Vec K n) :
    matVec (addDiag h lam) x = fun i => matVec h x i + lam * x i := by
  funext i
  simp only [matVec, addDiag, add_mul, Finset.sum_add_distrib]
  congr 1
  rw [Finset.sum_eq_single i]
  · simp
  · intro j _ hj
    simp [Ne.symm hj]
  · simp

omit [LinearOrder K] [IsStrictOrderedRing K] in
theorem quadForm_addDiag (h : Mat K n n) (lam : K) (x : Vec K n) :
    quadForm (addDiag h lam) x = quadForm h x + lam * dot x x := by
  rw [quadForm_eq_dot, quadForm_eq_dot, matVec_addDiag, dot_axpy_right]

omit [LinearOrder K] [IsStrictOrderedRing K] in
theorem addDiag_symm {h : Mat K n n} (hs : SymmetricMat h) (lam : K) : SymmetricMat (addDiag h lam) := by
  intro i j
  simp only [addDiag]
  rw [hs i j]
  by_cases e : i = j
  · subst e; rfl
  · simp [e, Ne.symm e]

omit [LinearOrder K] [IsStrictOrderedRing K] in
theorem quadForm_smul (h : Mat K n n) (t : K) (z : Vec K n) :
    quadForm h (fun i => t * z i) = t ^ 2 * quadForm h z := by
  rw [quadForm_eq_dot, quadForm_eq_dot]
  have : matVec h (fun i => t * z i) = fun i => t * matVec h z i := by
    funext i
    simp only [matVec, Finset.mul_sum]
    exact Finset.sum_congr rfl fun j _ => by ring
  rw [this, dot_smul_left, dot_smul_right]; ring

/-- The model written around a point `p` with `(H + lam I) p = -g`. -/
theorem quadModel_around (g : Vec K n) (h : Mat K n n) (hs : SymmetricMat h) (p w : Vec K n) (lam : K)
    (hp : matVec (addDiag h lam) p = fun i => -(g i)) :
    quadModel g h w = quadForm (addDiag h lam) (fun i => w i - p i) / 2
      - quadForm (addDiag h lam) p / 2 - lam * dot w w / 2 := by
  have e : (fun i => w i - p i) = fun i => w i + (-1) * p i := by funext i; ring
  have hgw : dot (matVec (addDiag h lam) p) w = -dot g w := by rw [hp, dot_neg_left]
  have hgw2 : dot (matVec (addDiag h lam) w) p = -dot g w := by
    rw [dot_comm, matVec_symm _ (addDiag_symm hs lam), dot_comm, hgw]
  rw [quadModel_eq, e, quadForm_axpy _ (addDiag_symm hs lam), hgw2, quadForm_addDiag h lam w]
  ring

omit [IsStrictOrderedRing K] in
theorem isMultiplier_matVec {g : Vec K n} {h : Mat K n n} {x : Vec K n} {lam : K}
    (m : IsMultiplier g h x lam) : matVec (addDiag h lam) x = fun i => -(g i) := by
  rw [matVec_addDiag]
  funext i
  exact m.stationary i

omit [IsStrictOrderedRing K] in
theorem isMultiplier_psd {g : Vec K n} {h : Mat K n n} {x : Vec K n} {lam : K}
    (m : IsMultiplier g h x lam) (y : Vec K n) : 0 ≤ quadForm (addDiag h lam) y := by
  have := m.curvature y
  rwa [sum_form_eq, sumSq_eq_dot, ← quadForm_addDiag] at this

/-! ## Cholesky factors -/

omit [IsStrictOrderedRing K] in
theorem quadForm_upperFactor {u a : Mat K n n} (hu : UpperFactor u a) (d : Vec K n) :
    quadForm a d = dot (matVec u d) (matVec u d) := by
  rw [quadForm_eq_dot]
  simp only [dot, matVec]
  have : ∀ i, d i * ∑ j, a i j * d j = ∑ l, ∑ j, (u l i * d i) * (u l j * d j) := by
    intro i
    rw [Finset.sum_comm, Finset.mul_sum]
    refine Finset.sum_congr rfl fun j _ => ?_
    rw [← hu.2.2 i j, Finset.sum_mul, Finset.mul_sum]
    exact Finset.sum_congr rfl fun l _ => by ring
  rw [Finset.sum_congr rfl fun i _ => this i, Finset.sum_comm]
  refine Finset.sum_congr rfl fun l _ => ?_
  rw [Finset.sum_mul_sum]

theorem upperFactor_psd {u a : Mat K n n} (hu : UpperFactor u a) (d : Vec K n) : 0 ≤ quadForm a d := by
  rw [quadForm_upperFactor hu]; exact dot_self_nonneg _

omit [IsStrictOrderedRing K] in
/-- A triangular matrix with positive diagonal is injective. -/
theorem upperFactor_injective {u a : Mat K n n} (hu : UpperFactor u a) {d : Vec K n}
    (h0 : matVec u d = fun _ => 0) : d = fun _ => 0 := by
  by_contra hne
  have hex : ∃ i, d i ≠ 0 := by
    by_contra hc
    push Not at hc
    exact hne (funext hc)
  -- largest index with a nonzero entry
  obtain ⟨i, hi, hmax⟩ : ∃ i, d i ≠ 0 ∧ ∀ j, i < j → d j = 0 := by
    have hfin : (Finset.univ.filter fun i => d i ≠ 0).Nonempty := by
      obtain ⟨i, hi⟩ := hex
      exact ⟨i, by simp [hi]⟩
    refine ⟨(Finset.univ.filter fun i => d i ≠ 0).max' hfin, ?_, ?_⟩
    · have := Finset.max'_mem _ hfin
      simpa using this
    · intro j hj
      by_contra hc
      have := Finset.le_max' (Finset.univ.filter fun i => d i ≠ 0) j (by simp [hc])
      exact absurd hj (not_lt.2 this)
  have := congrFun h0 i
  simp only [matVec] at this
  rw [Finset.sum_eq_single i] at this
  · rcases mul_eq_zero.1 this with h1 | h1
    · exact absurd h1 (hu.2.1 i).ne'
    · exact hi h1
  · intro j _ hj
    rcases lt_or_gt_of_ne hj with hlt | hgt
    · rw [hu.1 i j hlt, zero_mul]
    · rw [hmax j hgt, mul_zero]
  · simp

theorem upperFactor_pos {u a : Mat K n n} (hu : UpperFactor u a) {d : Vec K n}
    (hd : d ≠ fun _ => 0) : 0 < quadForm a d := by
  rw [quadForm_upperFactor hu]
  exact dot_self_pos fun h0 => hd (upperFactor_injective hu h0)

/-- When a factorization fails in column `k`, the vector computed by
`_compute_terms_to_make_leading_submatrix_singular` satisfies `v.T @ a @ v = -delta`. -/
theorem singularVector_form {ext : GqExternal K n} (hext : GqSpec ext) {u a : Mat K n n}
    (hs : SymmetricMat a) {k : Fin n} (hf : LeadingFactor u a k) :
    quadForm a (singularVector ext u k) = -(singularDelta u a k) := by
  set v := singularVector ext u k with hv
  have hvk : v k = 1 := by simp [hv, singularVector]
  have hv0 : ∀ i, k < i → v i = 0 := by
    intro i hi
    simp [hv, singularVector, not_lt.2 hi.le, hi.ne']
  have hvlt : ∀ i, i < k → v i = ext.solveLeading k u (fun l => -(u l k)) i := by
    intro i hi
    simp [hv, singularVector, hi]
  -- rows before k of u v vanish
  have hrow : ∀ l, l < k → ∑ j, u l j * v j = 0 := by
    intro l hl
    have h1 := hext.solveLeading u a k (fun l => -(u l k)) hf l hl
    have h2 : ∑ j, u l j * v j
        = (∑ j, if j < k then u l j * ext.solveLeading k u (fun l => -(u l k)) j else 0)
          + ∑ j, if j = k then u l k else 0 := by
      rw [← Finset.sum_add_distrib]
      refine Finset.sum_congr rfl fun j _ => ?_
      rcases lt_trichotomy j k with hlt | heq | hgt
      · rw [if_pos hlt, if_neg hlt.ne, hvlt j hlt, add_zero]
      · subst heq
        simp [hvk]
      · rw [if_neg (not_lt.2 hgt.le), if_neg hgt.ne', hv0 j hgt]; simp
    rw [h2, h1]
    simp
  -- a i j for i < k, j ≤ k
  have hav : ∀ i, i < k → ∑ j, a i j * v j = 0 := by
    intro i hi
    have h1 : ∀ j, a i j * v j = ∑ l, if l < k then u l i * (u l j * v j) else 0 := by
      intro j
      rcases lt_or_ge k j with hgt | hle
      · rw [hv0 j hgt]; simp
      · rw [← hf.factor i j hi hle, Finset.sum_mul]
        refine Finset.sum_congr rfl fun l _ => ?_
        split <;> ring
    rw [Finset.sum_congr rfl fun j _ => h1 j, Finset.sum_comm]
    refine Finset.sum_eq_zero fun l _ => ?_
    by_cases hl : l < k
    · simp only [if_pos hl, ← Finset.mul_sum, hrow l hl, mul_zero]
    · simp [hl]
  have hquad : quadForm a v = ∑ j, a k j * v j := by
    rw [quadForm_eq_dot]
    simp only [dot, matVec]
    rw [Finset.sum_eq_single k]
    · rw [hvk, one_mul]
    · intro i _ hi
      rcases lt_or_gt_of_ne hi with hlt | hgt
      · rw [hav i hlt, mul_zero]
      · rw [hv0 i hgt, zero_mul]
    · simp
  -- row k of a v
  have h3 : ∀ j, a k j * v j = (∑ l, if l < k then u l k * (u l j * v j) else 0)
      + if j = k then a k k - (∑ l, if l < k then u l k ^ 2 else 0) else 0 := by
    intro j
    rcases lt_trichotomy j k with hlt | heq | hgt
    · rw [if_neg hlt.ne, add_zero, hs k j, ← hf.factor j k hlt le_rfl, Finset.sum_mul]
      refine Finset.sum_congr rfl fun l _ => ?_
      split <;> ring
    · subst heq
      rw [if_pos rfl, hvk]
      have : (∑ l, if l < j then u l j * (u l j * 1) else 0) = ∑ l, if l < j then u l j ^ 2 else 0 :=
        Finset.sum_congr rfl fun l _ => by split <;> ring
      rw [this]; ring
    · rw [hv0 j hgt, if_neg hgt.ne']
      simp
  rw [hquad, Finset.sum_congr rfl fun j _ => h3 j, Finset.sum_add_distrib, Finset.sum_comm]
  have h4 : ∑ l, ∑ j, (if l < k then u l k * (u l j * v j) else 0) = 0 := by
    refine Finset.sum_eq_zero fun l _ => ?_
    by_cases hl : l < k
    · simp only [if_pos hl, ← Finset.mul_sum, hrow l hl, mul_zero]
    · simp [hl]
  rw [h4]
  simp [singularDelta]

theorem singularVector_pos {ext : GqExternal K n} {u : Mat K n n} {k : Fin n} :
    0 < dot (singularVector ext u k) (singularVector ext u k) := by
  refine dot_self_pos fun h => ?_
  have := congrFun h k
  simp [singularVector] at this

/-- If the factorization of a symmetric matrix does not succeed, the matrix is not positive
definite. -/
theorem chol_not_posDef {ext : GqExternal K n} (hext : GqSpec ext) {a : Mat K n n}
    (hs : SymmetricMat a) (hfail : (ext.chol a).info ≠ 0) :
    ∃ v : Vec K n, 0 < dot v v ∧ quadForm a v ≤ 0 := by
  have hle := hext.info_le a
  have hk : (ext.chol a).info - 1 < n := by omega
  have hf := hext.chol_fail a hs ⟨(ext.chol a).info - 1, hk⟩ (by simp; omega)
  refine ⟨singularVector ext (ext.chol a).upper ⟨(ext.chol a).info - 1, hk⟩, singularVector_pos, ?_⟩
  rw [singularVector_form hext hs hf]
  have := hf.pivot
  simp only [singularDelta]
  linarith

/-- If the matrix is positive definite, the factorization succeeds. -/
theorem chol_of_posDef {ext : GqExternal K n} (hext : GqSpec ext) {a : Mat K n n}
    (hs : SymmetricMat a) (hpd : ∀ v : Vec K n, 0 < dot v v → 0 < quadForm a v) :
    (ext.chol a).info = 0 := by
  by_contra hfail
  obtain ⟨v, h1, h2⟩ := chol_not_posDef hext hs hfail
  exact absurd (hpd v h1) (not_lt.2 h2)

/-! ## The estimate of the smallest singular value -/

omit [IsStrictOrderedRing K] in
theorem conditionStep_other (u : Mat K n n) (pw : Vec K n × Vec K n) (k i : Fin n) (hi : i ≠ k) :
    (conditionStep u pw k).2 i = pw.2 i := by
  simp only [conditionStep]
  split <;> simp [Function.update_of_ne hi]

omit [IsStrictOrderedRing K] in
theorem conditionFold_other (u : Mat K n n) (i : Fin n) (l : List (Fin n)) (hi : i ∉ l) :
    ∀ pw : Vec K n × Vec K n, (l.foldl (conditionStep u) pw).2 i = pw.2 i := by
  induction l with
  | nil => intro pw; rfl
  | cons k l ih =>
    intro pw
    rw [List.foldl_cons, ih (fun h => hi (List.mem_cons_of_mem _ h)),
      conditionStep_other u pw k i (fun h => hi (h ▸ List.mem_cons_self))]

/-- The first entry of the vector that `_estimate_condition` returns is not zero. -/
theorem estimateCondition_ne_zero {n : Nat} (u : Mat K (n + 1) (n + 1)) (hu : u 0 0 ≠ 0) :
    estimateCondition u ≠ fun _ => 0 := by
  intro h
  have h0 := congrFun h 0
  unfold estimateCondition at h0
  rw [List.finRange_succ, List.foldl_cons, conditionFold_other u 0 _ (by simp)] at h0
  simp only [conditionStep] at h0
  split at h0 <;> simp [hu] at h0

/-- What the estimate returns: a vector of norm one and the length of its image. -/
theorem smallestSingular_spec {root : K → K} (hroot : SqrtSpec root) {ext : GqExternal K n}
    (hext : GqSpec ext) (hn : 0 < n) {u a : Mat K n n} (hu : UpperFactor u a) :
    dot (smallestSingular root ext u).2 (smallestSingular root ext u).2 = 1 ∧
    (smallestSingular root ext u).1 ^ 2 = quadForm a (smallestSingular root ext u).2 := by
  obtain ⟨m, rfl⟩ : ∃ m, n = m + 1 := ⟨n - 1, by omega⟩
  set w := estimateCondition u with hw
  have hwne : w ≠ fun _ => 0 := estimateCondition_ne_zero u (hu.2.1 0).ne'
  set v := ext.solveUpper u w with hv
  have huv : matVec u v = w := funext fun i => hext.solveUpper u a w hu i
  have hvne : v ≠ fun _ => 0 := by
    intro h0
    apply hwne
    rw [← huv, h0]
    funext i
    simp [matVec]
  have hvpos := dot_self_pos hvne
  have hvn := hroot (dot v v) hvpos.le
  have hvn0 : root (dot v v) ≠ 0 := by
    intro h0
    rw [h0, mul_zero] at hvn
    exact hvpos.ne hvn.2
  have hz : (smallestSingular root ext u).2 = fun i => (root (dot v v))⁻¹ * v i := by
    funext i
    simp only [smallestSingular, norm2]
    rw [← hw, ← hv, div_eq_inv_mul]
  have hsq : (root (dot v v))⁻¹ ^ 2 * dot v v = 1 := by
    rw [inv_pow, sq, hvn.2, inv_mul_cancel₀ hvpos.ne']
  constructor
  · rw [hz, dot_smul_left, dot_smul_right, ← mul_assoc, ← sq, hsq]
  · rw [hz, quadForm_smul, quadForm_upperFactor hu, huv]
    have : (smallestSingular root ext u).1 = root (dot w w) / root (dot v v) := by
      simp only [smallestSingular, norm2]
      rw [← hw, ← hv]
    rw [this, div_pow, inv_pow, div_eq_inv_mul, sq (root (dot w w)), (hroot _ (dot_self_nonneg w)).2]

/-- The step length puts the point on the unit sphere. -/
theorem stepLen_spec {ext : GqExternal K n} (hext : GqSpec ext) {x z : Vec K n} (hz : dot z z = 1)
    (hx : dot x x ≤ 1) :
    dot (fun i => x i + stepLen ext x z * z i) (fun i => x i + stepLen ext x z * z i) = 1 := by
  have hr := hext.roots (dot z z) (2 * dot x z) (dot x x - 1) (by rw [hz]; exact one_ne_zero)
    (by rw [hz]; nlinarith [sq_nonneg (dot x z)])
  have h0 : dot z z * stepLen ext x z ^ 2 + 2 * dot x z * stepLen ext x z + (dot x x - 1) = 0 := by
    rw [hr]
    simp only [stepLen]
    split <;> simp
  rw [norm_axpy]
  linear_combination h0

/-! ## Bounds for quadratic forms -/


theorem vecMin_le {K : Type} [Field K] [LinearOrder K] {n : Nat} (v : Vec K n) (i : Fin n) :
    vecMin v ≤ v i := by
  have hne : (Finset.univ : Finset (Fin n)).Nonempty := ⟨i, Finset.mem_univ i⟩
  rw [vecMin, dif_pos hne]
  exact Finset.inf'_le v (Finset.mem_univ i)

theorem vecMin_attained {K : Type} [Field K] [LinearOrder K] {n : Nat} (v : Vec K n) (hn : 0 < n) :
    ∃ i, vecMin v = v i := by
  have hne : (Finset.univ : Finset (Fin n)).Nonempty := ⟨⟨0, hn⟩, Finset.mem_univ _⟩
  rw [vecMin, dif_pos hne]
  obtain ⟨i, _, hi⟩ := Finset.exists_mem_eq_inf' hne v
  exact ⟨i, hi⟩

theorem le_vecMax {K : Type} [Field K] [LinearOrder K] {n : Nat} (v : Vec K n) (i : Fin n) :
    v i ≤ vecMax v := by
  have hne : (Finset.univ : Finset (Fin n)).Nonempty := ⟨i, Finset.mem_univ i⟩
  rw [vecMax, dif_pos hne]
  exact Finset.le_sup' v (Finset.mem_univ i)

/-- Gershgorin: the quadratic form of a symmetric matrix against the row sums. -/
theorem gershgorin_form (h : Mat K n n) (hs : SymmetricMat h) (y : Vec K n) :
    ∑ i, (h i i + |h i i| - absRowSum h i) * y i ^ 2 ≤ quadForm h y ∧
    quadForm h y ≤ ∑ i, (h i i - |h i i| + absRowSum h i) * y i ^ 2 := by
  have hsplit : ∀ c : Fin n → K, ∑ i, ∑ j, (if i = j then c i else 0) = ∑ i, c i := by
    intro c
    refine Finset.sum_congr rfl fun i _ => ?_
    simp
  have hrow : ∑ i, ∑ j, |h i j| * (y i ^ 2 + y j ^ 2) / 2 = ∑ i, absRowSum h i * y i ^ 2 := by
    have h1 : ∑ i, ∑ j, |h i j| * y i ^ 2 = ∑ i, absRowSum h i * y i ^ 2 :=
      Finset.sum_congr rfl fun i _ => by rw [absRowSum, Finset.sum_mul]
    have h2 : ∑ i, ∑ j, |h i j| * y j ^ 2 = ∑ i, absRowSum h i * y i ^ 2 := by
      rw [Finset.sum_comm]
      refine Finset.sum_congr rfl fun i _ => ?_
      rw [absRowSum, Finset.sum_mul]
      exact Finset.sum_congr rfl fun j _ => by rw [hs j i]
    have h3 : ∑ i, ∑ j, |h i j| * (y i ^ 2 + y j ^ 2) / 2
        = ((∑ i, ∑ j, |h i j| * y i ^ 2) + ∑ i, ∑ j, |h i j| * y j ^ 2) / 2 := by
      rw [← Finset.sum_add_distrib, Finset.sum_div]
      refine Finset.sum_congr rfl fun i _ => ?_
      rw [← Finset.sum_add_distrib, Finset.sum_div]
      exact Finset.sum_congr rfl fun j _ => by ring
    rw [h3, h1, h2]; ring
  have hpt : ∀ i j, |h i j * y i * y j| ≤ |h i j| * (y i ^ 2 + y j ^ 2) / 2 := by
    intro i j
    rw [mul_assoc, abs_mul, mul_div_assoc]
    refine mul_le_mul_of_nonneg_left ?_ (abs_nonneg _)
    rw [abs_le]
    constructor <;> nlinarith [sq_nonneg (y i - y j), sq_nonneg (y i + y j)]
  have hdiag : ∀ i, |h i i| * (y i ^ 2 + y i ^ 2) / 2 = |h i i| * y i ^ 2 := fun i => by ring
  rw [← sum_form_eq]
  constructor
  · have e : ∑ i, (h i i + |h i i| - absRowSum h i) * y i ^ 2
        = ∑ i, ∑ j, ((if i = j then (h i i + |h i i|) * y i ^ 2 else 0)
          - |h i j| * (y i ^ 2 + y j ^ 2) / 2) := by
      rw [Finset.sum_congr rfl fun i _ => Finset.sum_sub_distrib .., Finset.sum_sub_distrib, hsplit,
        hrow, ← Finset.sum_sub_distrib]
      exact Finset.sum_congr rfl fun i _ => by ring
    rw [e]
    refine Finset.sum_le_sum fun i _ => Finset.sum_le_sum fun j _ => ?_
    by_cases hij : i = j
    · subst hij
      rw [if_pos rfl, hdiag]
      nlinarith
    · rw [if_neg hij]
      linarith [(abs_le.1 (hpt i j)).1]
  · have e : ∑ i, (h i i - |h i i| + absRowSum h i) * y i ^ 2
        = ∑ i, ∑ j, ((if i = j then (h i i - |h i i|) * y i ^ 2 else 0)
          + |h i j| * (y i ^ 2 + y j ^ 2) / 2) := by
      rw [Finset.sum_congr rfl fun i _ => Finset.sum_add_distrib .., Finset.sum_add_distrib, hsplit,
        hrow, ← Finset.sum_add_distrib]
      exact Finset.sum_congr rfl fun i _ => by ring
    rw [e]
    refine Finset.sum_le_sum fun i _ => Finset.sum_le_sum fun j _ => ?_
    by_cases hij : i = j
    · subst hij
      rw [if_pos rfl, hdiag]
      nlinarith
    · rw [if_neg hij]
      linarith [(abs_le.1 (hpt i j)).2]

/-- The Frobenius norm bounds the quadratic form. -/
theorem froNorm_form {root : K → K} (hroot : SqrtSpec root) (h : Mat K n n) (y : Vec K n) :
    |quadForm h y| ≤ froNorm root h * dot y y := by
  have hF : 0 ≤ ∑ i, ∑ j, h i j ^ 2 :=
    Finset.sum_nonneg fun i _ => Finset.sum_nonneg fun j _ => sq_nonneg _
  obtain ⟨hf0, hf1⟩ := hroot _ hF
  refine abs_le_of_sq_le_sq ?_ (mul_nonneg hf0 (dot_self_nonneg y))
  rw [mul_pow, froNorm, sq (root _), hf1, ← sum_form_eq]
  have hp : ∑ i, ∑ j, h i j * y i * y j = ∑ p : Fin n × Fin n, h p.1 p.2 * (y p.1 * y p.2) := by
    rw [Fintype.sum_prod_type]
    exact Finset.sum_congr rfl fun i _ => Finset.sum_congr rfl fun j _ => by ring
  have hq : ∑ i, ∑ j, h i j ^ 2 = ∑ p : Fin n × Fin n, h p.1 p.2 ^ 2 := by
    rw [Fintype.sum_prod_type]
  have hr : dot y y ^ 2 = ∑ p : Fin n × Fin n, (y p.1 * y p.2) ^ 2 := by
    rw [Fintype.sum_prod_type, dot, sq, Finset.sum_mul_sum]
    exact Finset.sum_congr rfl fun i _ => Finset.sum_congr rfl fun j _ => by ring
  rw [hp, hq, hr]
  exact Finset.sum_mul_sq_le_sq_mul_sq _ _ _

omit [IsStrictOrderedRing K] in
theorem sum_const_sq (c : K) (y : Vec K n) : ∑ i, c * y i ^ 2 = c * dot y y := by
  rw [← Finset.mul_sum, dot]
  congr 1
  exact Finset.sum_congr rfl fun i _ => by ring

/-- The quantity subtracted in the lower bound for lambda bounds the form from above. -/
theorem form_le_upper {root : K → K} (hroot : SqrtSpec root) (h : Mat K n n) (hs : SymmetricMat h)
    (y : Vec K n) :
    quadForm h y ≤ min (gershgorinUpper h) (min (froNorm root h) (infNorm h)) * dot y y := by
  have hy := dot_self_nonneg y
  have hg := (gershgorin_form h hs y).2
  rw [min_mul_of_nonneg _ _ hy, min_mul_of_nonneg _ _ hy]
  refine le_min ?_ (le_min ?_ ?_)
  · refine hg.trans ?_
    rw [← sum_const_sq]
    exact Finset.sum_le_sum fun i _ =>
      mul_le_mul_of_nonneg_right (le_vecMax (fun i => h i i - |h i i| + absRowSum h i) i) (sq_nonneg _)
  · exact (le_abs_self _).trans (froNorm_form hroot h y)
  · refine hg.trans ?_
    rw [← sum_const_sq]
    refine Finset.sum_le_sum fun i _ => mul_le_mul_of_nonneg_right ?_ (sq_nonneg _)
    have h1 := le_vecMax (absRowSum h) i
    have h2 := le_abs_self (h i i)
    rw [infNorm]
    linarith

/-- The quantity added in the upper bound for lambda bounds the form from below. -/
theorem form_ge_lower {root : K → K} (hroot : SqrtSpec root) (h : Mat K n n) (hs : SymmetricMat h)
    (y : Vec K n) :
    -(min (-(gershgorinLower h)) (min (froNorm root h) (infNorm h)) * dot y y) ≤ quadForm h y := by
  have hy := dot_self_nonneg y
  have hg := (gershgorin_form h hs y).1
  have hneg : -(quadForm h y)
      ≤ min (-(gershgorinLower h)) (min (froNorm root h) (infNorm h)) * dot y y := by
    rw [min_mul_of_nonneg _ _ hy, min_mul_of_nonneg _ _ hy]
    refine le_min ?_ (le_min ?_ ?_)
    · have : gershgorinLower h * dot y y ≤ quadForm h y := by
        refine le_trans ?_ hg
        rw [← sum_const_sq]
        exact Finset.sum_le_sum fun i _ =>
          mul_le_mul_of_nonneg_right (vecMin_le (fun i => h i i + |h i i| - absRowSum h i) i)
            (sq_nonneg _)
      linarith
    · exact (neg_le_abs _).trans (froNorm_form hroot h y)
    · have : -(infNorm h) * dot y y ≤ quadForm h y := by
        refine le_trans ?_ hg
        rw [← sum_const_sq]
        refine Finset.sum_le_sum fun i _ => mul_le_mul_of_nonneg_right ?_ (sq_nonneg _)
        have h1 := le_vecMax (absRowSum h) i
        have h2 := neg_abs_le (h i i)
        rw [infNorm]
        linarith
      linarith
  linarith

/-- `h i i` as a value of the form. -/
theorem quadForm_unit (h : Mat K n n) (i : Fin n) :
    quadForm h (fun j => if j = i then 1 else 0) = h i i ∧
    dot (fun j => if j = i then (1 : K) else 0) (fun j => if j = i then 1 else 0) = 1 := by
  constructor
  · rw [quadForm_eq_dot]
    simp [dot, matVec]
  · simp [dot]

end Tranquilo
