import Verif.Model.Poisedness
import Verif.Spec.Subsolver
import Mathlib.Algebra.BigOperators.Fin
import Mathlib.LinearAlgebra.Matrix.NonsingularInverse
import Mathlib.LinearAlgebra.Matrix.Adjugate
import Mathlib.LinearAlgebra.Basis.VectorSpace
import Mathlib.LinearAlgebra.Matrix.ToLin
import Mathlib.Topology.Order.Compact
import Mathlib.Topology.Instances.Real.Lemmas
import Mathlib.Tactic.IntervalCases
import Mathlib.Tactic.FinCases
import Mathlib.Tactic.NormNum

/-!
# C55, C79-C81: Lagrange polynomials and poisedness
-/

namespace Tranquilo

variable {K : Type} [Field K] [LinearOrder K] [IsStrictOrderedRing K] {n p : Nat}

/-- Specification: the value at `x` of the polynomial with the given coefficients of the features
`1, x_i, x_i^2 / 2, x_i x_j` that span its space. -/
def polynomialAt (poly : Fin (nFeatures n) → K) (x : Vec K n) : K :=
  ∑ t, poly t * (lagrangeRow x).getD t 0

/-! ## C55 -/

/-- C55 up to two parameters: the polynomial that is maximized is the one with these coefficients.
Missing for the full claim: from three parameters on it is false, see
`C55_violated_from_three_parameters`. -/
theorem C55_right_polynomial_partial (hn : n ≤ 2) (poly : Fin (nFeatures n) → K) (x : Vec K n) :
    evalAbsolute poly x = |polynomialAt poly x| := by
  unfold evalAbsolute polynomialAt
  congr 1
  interval_cases n
  · have h1 : lagrangeRow x = [1] := rfl
    show coefAt poly 0 + _ + _ = ∑ t : Fin 1, poly t * (lagrangeRow x).getD t 0
    rw [h1, Fin.sum_univ_one]
    have e0 : coefAt poly 0 = poly (0 : Fin 1) := rfl
    simp [e0]
  · have h1 : lagrangeRow x = [1, x 0, 1 / 2 * x 0 ^ 2] := rfl
    show coefAt poly 0 + _ + _ = ∑ t : Fin 3, poly t * (lagrangeRow x).getD t 0
    have e0 : coefAt poly 0 = poly (0 : Fin 3) := rfl
    have e1 : coefAt poly 1 = poly (1 : Fin 3) := rfl
    have e2 : ∀ i j, reshapeSquare poly i j = poly (2 : Fin 3) := by
      intro i j
      fin_cases i; fin_cases j; rfl
    simp only [h1, Fin.sum_univ_three, Fin.sum_univ_one, e0, e2, Fin.val_zero, Nat.add_zero, e1]
    simp
    ring
  · have h1 : lagrangeRow x
      = [1, x 0, x 1, 1 / 2 * x 0 ^ 2, x 0 * x 1, 1 / 2 * x 1 ^ 2] := rfl
    show coefAt poly 0 + _ + _ = ∑ t : Fin 6, poly t * (lagrangeRow x).getD t 0
    have e0 : coefAt poly 0 = poly (0 : Fin 6) := rfl
    have e1 : coefAt poly 1 = poly (1 : Fin 6) := rfl
    have e2 : coefAt poly (1 + 1) = poly (2 : Fin 6) := rfl
    have f0 : reshapeSquare poly 0 0 = poly (3 : Fin 6) := rfl
    have f1 : reshapeSquare poly 0 1 = poly (4 : Fin 6) := rfl
    have f2 : reshapeSquare poly 1 0 = poly (4 : Fin 6) := rfl
    have f3 : reshapeSquare poly 1 1 = poly (5 : Fin 6) := rfl
    simp only [h1, Fin.sum_univ_six, Fin.sum_univ_two, e0, Fin.val_zero, Fin.val_one, Nat.add_zero, e1,
      e2, f0, f1, f2, f3]
    simp
    ring

theorem finRange_three (m : Nat) : ∃ L : List (Fin (m + 3)),
    List.finRange (m + 3) = 0 :: 1 :: 2 :: L ∧ ∀ i ∈ L, 3 ≤ i.val := by
  refine ⟨((List.finRange m).map Fin.succ).map Fin.succ |>.map Fin.succ, ?_, ?_⟩
  · rw [List.finRange_succ, List.finRange_succ, List.finRange_succ]
    simp
  · intro i hi
    simp only [List.mem_map] at hi
    obtain ⟨j, ⟨k, ⟨l, -, rfl⟩, rfl⟩, rfl⟩ := hi
    simp

theorem fin_two_val (m : Nat) : ((2 : Fin (m + 3)) : Nat) = 2 := by
  show 2 % (m + 3) = 2
  exact Nat.mod_eq_of_lt (by omega)

theorem featurePairs_start (m : Nat) : ∃ L, featurePairs (m + 3) = (0, 0) :: (0, 1) :: (0, 2) :: L := by
  obtain ⟨L, hL, hL3⟩ := finRange_three m
  unfold featurePairs
  rw [hL]
  simp only [List.flatMap_cons, List.filter_cons]
  rw [if_neg (by simp), if_pos (by simp [Fin.lt_def]),
    if_pos (by
      rw [decide_eq_true_iff, Fin.lt_def, fin_two_val]; simp)]
  simp only [List.map_cons, List.cons_append]
  exact ⟨_, rfl⟩

theorem reshapePairs_start (m : Nat) : ∃ L, reshapePairs (m + 3) = (0, 0) :: (0, 1) :: (1, 1) :: L := by
  obtain ⟨L, hL, hL3⟩ := finRange_three m
  have h0 : L.filter (fun i => decide (i ≤ 0)) = [] := by
    rw [List.filter_eq_nil_iff]
    intro i hi
    have := hL3 i hi
    have hne : i ≠ 0 := by rintro rfl; simp at this
    simpa using hne
  have h1 : L.filter (fun i => decide (i ≤ 1)) = [] := by
    rw [List.filter_eq_nil_iff]
    intro i hi
    have := hL3 i hi
    simp [Fin.le_def]; omega
  unfold reshapePairs
  rw [hL]
  simp only [List.flatMap_cons, List.filter_cons, h0, h1]
  have v2 := fin_two_val m
  have v1 : ((1 : Fin (m + 3)) : Nat) = 1 := rfl
  have a1 : ¬ ((1 : Fin (m + 3)) ≤ 0) := by rw [Fin.le_def, v1]; simp
  have a2 : ¬ ((2 : Fin (m + 3)) ≤ 0) := by rw [Fin.le_def, v2]; simp
  have a3 : ¬ ((2 : Fin (m + 3)) ≤ 1) := by rw [Fin.le_def, v2, v1]; simp
  have a4 : (0 : Fin (m + 3)) ≤ 1 := by rw [Fin.le_def]; simp
  simp only [a1, a2, a3, a4, le_refl, decide_true, decide_false, if_true, Bool.false_eq_true,
    if_false, List.map_cons, List.map_nil, List.cons_append, List.nil_append]
  exact ⟨_, rfl⟩

/-- C55 is false of the code for every number of parameters from three on: there are coefficients (of
the polynomial `x_0 x_2`) and a point at which the value that is maximized (`x_1^2 / 2`) is not the
value of the polynomial. -/
theorem C55_violated_from_three_parameters (hn : 3 ≤ n) :
    ∃ (poly : Fin (nFeatures n) → K) (x : Vec K n),
      polynomialAt poly x = 0 ∧ evalAbsolute poly x = 1 / 2 := by
  obtain ⟨m, rfl⟩ := Nat.exists_eq_add_of_le' hn
  obtain ⟨F, hF⟩ := featurePairs_start m
  obtain ⟨R, hR⟩ := reshapePairs_start m
  have hlt : m + 3 + 3 < nFeatures (m + 3) := by
    unfold nFeatures
    rw [hF]; simp only [List.length_cons]; omega
  refine ⟨fun t => if t.val = m + 3 + 3 then 1 else 0, fun i => if i = 1 then 1 else 0, ?_, ?_⟩
  · unfold polynomialAt
    rw [Finset.sum_eq_single (⟨m + 3 + 3, hlt⟩ : Fin (nFeatures (m + 3)))]
    · simp only [if_true, one_mul]
      unfold lagrangeRow
      rw [hF]
      rw [List.getD_eq_getElem?_getD, List.getElem?_cons_succ,
        List.getElem?_append_right (by simp)]
      simp [pairFeature]
    · intro t _ ht
      have : t.val ≠ m + 3 + 3 := fun h => ht (Fin.ext h)
      simp [this]
    · simp
  · have hidx : (reshapePairs (m + 3)).idxOf ((1 : Fin (m + 3)), (1 : Fin (m + 3))) = 2 := by
      rw [hR]
      simp [List.idxOf_cons]
    have h11 : reshapeSquare (fun t : Fin (nFeatures (m + 3)) => if t.val = m + 3 + 3 then (1 : K) else 0)
        1 1 = 1 := by
      unfold reshapeSquare
      rw [min_self, max_self, hidx, coefAt, dif_pos (by omega)]
      simp
    have hlin : ∀ i : Fin (m + 3), coefAt (fun t : Fin (nFeatures (m + 3)) =>
        if t.val = m + 3 + 3 then (1 : K) else 0) (1 + i) = 0 := by
      intro i
      rw [coefAt, dif_pos (by omega), if_neg]
      have := i.isLt
      simp only; omega
    have h0 : coefAt (fun t : Fin (nFeatures (m + 3)) =>
        if t.val = m + 3 + 3 then (1 : K) else 0) 0 = 0 := by
      rw [coefAt, dif_pos (by omega), if_neg]
      simp only; omega
    unfold evalAbsolute
    simp only [hlin, h0, zero_mul, Finset.sum_const_zero, add_zero, zero_add]
    rw [Finset.sum_eq_single 1, Finset.sum_eq_single 1]
    · simp only [if_true, h11]
      norm_num
    · intro j _ hj; simp [hj]
    · simp
    · intro i _ hi; simp [hi]
    · simp

/-! ## C79: the rows are Lagrange polynomials -/

/-- The first Moore-Penrose condition, which is all that is used of `np.linalg.pinv`. -/
def PinvSpec (pinv : Matrix (Fin (nFeatures n)) (Fin (nFeatures n)) K →
    Matrix (Fin (nFeatures n)) (Fin (nFeatures n)) K) : Prop := ∀ G, G * pinv G * G = G

/-- The polynomial interpolation conditions of the sample are linearly independent. -/
def FullRowRank (sample : Fin p → Vec K n) : Prop :=
  ∃ M : Matrix (Fin (nFeatures n)) (Fin p) K, basisMat sample * M = 1

omit [LinearOrder K] [IsStrictOrderedRing K] in
theorem lagrange_mul_basis (pinv) (hp : PinvSpec (K := K) (n := n) pinv) (sample : Fin p → Vec K n)
    (hs : FullRowRank sample) : lagrangeMat pinv sample * (basisMat sample).transpose = 1 := by
  obtain ⟨M, hM⟩ := hs
  have h := hp ((basisMat sample).transpose * basisMat sample)
  set B := basisMat sample
  have h2 : M.transpose * (B.transpose * B * pinv (B.transpose * B) * (B.transpose * B)) * M
      = M.transpose * (B.transpose * B) * M := by rw [h]
  have hMt : M.transpose * B.transpose = 1 := by
    rw [← Matrix.transpose_mul, hM, Matrix.transpose_one]
  have e1 : M.transpose * (B.transpose * B * pinv (B.transpose * B) * (B.transpose * B)) * M
      = (M.transpose * B.transpose) * (B * pinv (B.transpose * B) * B.transpose) * (B * M) := by
    simp only [Matrix.mul_assoc]
  have e2 : M.transpose * (B.transpose * B) * M = (M.transpose * B.transpose) * (B * M) := by
    simp only [Matrix.mul_assoc]
  rw [e1, e2, hMt, hM, Matrix.one_mul, Matrix.mul_one, Matrix.one_mul] at h2
  exact h2

omit [LinearOrder K] [IsStrictOrderedRing K] in
/-- C79: for a sample whose interpolation conditions are independent, the polynomial of the `i`-th row is
one at the `i`-th point and zero at all others. -/
theorem C79_lagrange_polynomials (pinv) (hp : PinvSpec (K := K) (n := n) pinv)
    (sample : Fin p → Vec K n) (hs : FullRowRank sample) (i j : Fin p) :
    polynomialAt (lagrangeMat pinv sample i) (sample j) = if i = j then 1 else 0 := by
  have h := congrFun (congrFun (lagrange_mul_basis pinv hp sample hs) i) j
  rw [Matrix.one_apply] at h
  rw [← h]
  rfl

/-! ## C80: the poisedness constant -/

/-- The unit ball or unit cube. -/
def InUnitRegion (shape : Shape) (x : Vec K n) : Prop :=
  match shape with
  | .sphere => sumSq x ≤ 1
  | .cube => ∀ i, |x i| ≤ 1

/-- What is assumed about `scipy.optimize.minimize`: it finds the minimum of the objectives that it is
given (negative absolute values of quadratic polynomials) on the unit region. -/
def FindsMinimum (minimize : Shape → (Vec K n → K) → Vec K n) : Prop :=
  ∀ shape (poly : Fin (nFeatures n) → K),
    InUnitRegion shape (minimize shape fun x => -evalAbsolute poly x) ∧
    ∀ y, InUnitRegion shape y →
      evalAbsolute poly y ≤ evalAbsolute poly (minimize shape fun x => -evalAbsolute poly x)

omit [IsStrictOrderedRing K] in
theorem poisedFold (minimize : (Vec K n → K) → Vec K n) (lag : Fin p → Fin (nFeatures n) → K)
    (l : List (Fin p)) (s : PoisedState K n p)
    (hs : ∀ x i, s.best = some (x, i) → s.lambda = evalAbsolute (lag i) x ∧
      x = minimize fun x => -evalAbsolute (lag i) x) :
    let t := l.foldl (poisedStep minimize lag) s
    (∀ x i, t.best = some (x, i) → t.lambda = evalAbsolute (lag i) x ∧
      x = minimize fun x => -evalAbsolute (lag i) x) ∧
    s.lambda ≤ t.lambda ∧
    (∀ i ∈ l, evalAbsolute (lag i) (minimize fun x => -evalAbsolute (lag i) x) ≤ t.lambda) ∧
    (t.best = none → s.best = none ∧ t.lambda = s.lambda) := by
  induction l generalizing s with
  | nil => exact ⟨hs, le_rfl, by simp, fun h => ⟨h, rfl⟩⟩
  | cons j rest ih =>
    simp only [List.foldl_cons]
    set s' := poisedStep minimize lag s j with hs'
    have hstep : (∀ x i, s'.best = some (x, i) → s'.lambda = evalAbsolute (lag i) x ∧
        x = minimize fun x => -evalAbsolute (lag i) x) ∧ s.lambda ≤ s'.lambda ∧
        evalAbsolute (lag j) (minimize fun x => -evalAbsolute (lag j) x) ≤ s'.lambda ∧
        (s'.best = none → s.best = none ∧ s'.lambda = s.lambda) := by
      rw [hs', poisedStep]
      split
      · rename_i hlt
        refine ⟨?_, hlt.le, le_rfl, by simp⟩
        intro x i h
        obtain ⟨rfl, rfl⟩ := Prod.mk.inj (Option.some.inj h)
        exact ⟨rfl, rfl⟩
      · rename_i hlt
        exact ⟨hs, le_rfl, not_lt.1 hlt, fun h => ⟨h, rfl⟩⟩
    obtain ⟨h1, h2, h3, h4⟩ := ih s' hstep.1
    refine ⟨h1, hstep.2.1.trans h2, ?_, ?_⟩
    · intro i hi
      rcases List.mem_cons.1 hi with rfl | hi
      · exact hstep.2.2.1.trans h2
      · exact h3 i hi
    · intro h
      obtain ⟨g1, g2⟩ := h4 h
      obtain ⟨g3, g4⟩ := hstep.2.2.2 g1
      exact ⟨g3, g2.trans g4⟩

/-- The two names of shapes. -/
def NamesShape (name : String) (shape : Shape) : Prop :=
  (name = "sphere" ∧ shape = .sphere) ∨ (name = "cube" ∧ shape = .cube)

theorem shapeOfName_names {name : String} {shape : Shape} (h : NamesShape name shape) :
    shapeOfName name = .ok shape := by
  rcases h with ⟨rfl, rfl⟩ | ⟨rfl, rfl⟩ <;> simp [shapeOfName]

/-- C80 for up to two parameters: the result is the largest absolute value that the Lagrange polynomials
of the sample take on the unit region, with the point and the index at which it is attained. For all
samples and shapes. Missing for the full claim: from three parameters on other polynomials
are maximized (C55). -/
theorem C80_poisedness_constant_partial (hn : n ≤ 2) (pinv)
    (minimize : Shape → (Vec K n → K) → Vec K n) (hmin : FindsMinimum minimize)
    (sample : Fin p → Vec K n) (shape : String) (sh : Shape) (hsh : NamesShape shape sh)
    (l : K) (x : Vec K n) (i : Fin p)
    (h : poisednessConstant pinv minimize sample shape = .ok (l, x, i)) :
    InUnitRegion sh x ∧ l = |polynomialAt (lagrangeMat pinv sample i) x| ∧
    ∀ j y, InUnitRegion sh y → |polynomialAt (lagrangeMat pinv sample j) y| ≤ l := by
  simp only [poisednessConstant, shapeOfName_names hsh] at h
  obtain ⟨h1, -, h3, -⟩ := poisedFold (minimize sh) (lagrangeMat pinv sample) (List.finRange p)
    ⟨0, none⟩ (by simp)
  split at h
  · exact absurd h (by simp)
  · rename_i x' i' hb
    obtain ⟨rfl, h'⟩ := Prod.mk.inj (Except.ok.inj h)
    obtain ⟨rfl, rfl⟩ := Prod.mk.inj h'
    obtain ⟨g1, g2⟩ := h1 _ _ hb
    refine ⟨g2 ▸ (hmin sh _).1, ?_, ?_⟩
    · rw [← C55_right_polynomial_partial hn]; exact g1
    · intro j y hy
      rw [← C55_right_polynomial_partial hn]
      exact ((hmin sh _).2 y hy).trans (h3 j (List.mem_finRange j))

/-- C80: a sample in the unit region with independent interpolation conditions has a constant, and the
constant is at least one. -/
theorem C80_at_least_one_partial (hn : n ≤ 2) (pinv) (hp : PinvSpec (K := K) (n := n) pinv)
    (minimize : Shape → (Vec K n → K) → Vec K n) (hmin : FindsMinimum minimize)
    (sample : Fin p → Vec K n) (hp0 : 0 < p) (hs : FullRowRank sample) (shape : String) (sh : Shape)
    (hsh : NamesShape shape sh) (hin : ∀ i, InUnitRegion sh (sample i)) :
    ∃ l x i, poisednessConstant pinv minimize sample shape = .ok (l, x, i) ∧ 1 ≤ l := by
  have hone : ∀ i, 1 ≤ evalAbsolute (lagrangeMat pinv sample i)
      (minimize sh fun x => -evalAbsolute (lagrangeMat pinv sample i) x) := by
    intro i
    refine le_trans ?_ ((hmin sh _).2 (sample i) (hin i))
    rw [C55_right_polynomial_partial hn, C79_lagrange_polynomials pinv hp sample hs, if_pos rfl, abs_one]
  obtain ⟨h1, -, h3, h4⟩ := poisedFold (minimize sh) (lagrangeMat pinv sample) (List.finRange p)
    ⟨0, none⟩ (by simp)
  simp only [poisednessConstant, shapeOfName_names hsh]
  set t := (List.finRange p).foldl (poisedStep (minimize sh) (lagrangeMat pinv sample)) ⟨0, none⟩
    with ht
  have hl : 1 ≤ t.lambda := (hone ⟨0, hp0⟩).trans (h3 ⟨0, hp0⟩ (List.mem_finRange _))
  cases hb : t.best with
  | none =>
    have h5 := (h4 hb).2
    have h5' : t.lambda = 0 := h5
    rw [h5'] at hl
    exact absurd hl (by norm_num)
  | some q => exact ⟨t.lambda, q.1, q.2, rfl, hl⟩

omit [IsStrictOrderedRing K] in
/-- C80: other shapes raise a `ValueError`. -/
theorem C80_invalid_shape (pinv) (minimize : Shape → (Vec K n → K) → Vec K n)
    (sample : Fin p → Vec K n) (shape : String) (h1 : shape ≠ "sphere") (h2 : shape ≠ "cube") :
    poisednessConstant pinv minimize sample shape = .error .valueError := by
  simp [poisednessConstant, shapeOfName, h1, h2]

/-! ## C81: improving the poisedness -/

omit [LinearOrder K] [IsStrictOrderedRing K] in
theorem basisMat_update (sample : Fin p → Vec K n) (i : Fin p) (x : Vec K n) :
    basisMat (Function.update sample i x)
      = (basisMat sample).updateRow i fun t => (lagrangeRow x).getD t 0 := by
  ext s t
  by_cases h : s = i
  · subst h; simp [basisMat]
  · simp [basisMat, Matrix.updateRow_ne h, Function.update_of_ne h]

omit [LinearOrder K] [IsStrictOrderedRing K] in
/-- Replacing point `i` by `x` multiplies the determinant of the interpolation conditions by the value
of the `i`-th Lagrange polynomial at `x`. -/
theorem det_replace (pinv) (hp : PinvSpec (K := K) (n := n) pinv)
    (sample : Fin (nFeatures n) → Vec K n) (hd : (basisMat sample).det ≠ 0) (i : Fin (nFeatures n))
    (x : Vec K n) :
    (basisMat (Function.update sample i x)).det
      = polynomialAt (lagrangeMat pinv sample i) x * (basisMat sample).det := by
  have hu : IsUnit (basisMat sample).det := isUnit_iff_ne_zero.2 hd
  have hrank : FullRowRank sample := ⟨(basisMat sample)⁻¹, Matrix.mul_nonsing_inv _ hu⟩
  have hL := lagrange_mul_basis pinv hp sample hrank
  have hL' : (basisMat sample).transpose * lagrangeMat pinv sample = 1 :=
    mul_eq_one_comm.1 hL
  set f : Fin (nFeatures n) → K := fun t => (lagrangeRow x).getD t 0 with hf
  have hfe : f = (basisMat sample).transpose.mulVec ((lagrangeMat pinv sample).mulVec f) := by
    rw [Matrix.mulVec_mulVec, hL', Matrix.one_mulVec]
  rw [basisMat_update, ← Matrix.cramer_transpose_apply]
  have h2 : (basisMat sample).transpose.cramer f
      = (basisMat sample).det • (lagrangeMat pinv sample).mulVec f := by
    conv_lhs => rw [hfe]
    rw [Matrix.cramer_eq_adjugate_mulVec, Matrix.mulVec_mulVec, Matrix.adjugate_mul,
      Matrix.det_transpose, Matrix.smul_mulVec, Matrix.one_mulVec]
  rw [← hf, h2]
  simp only [Pi.smul_apply, smul_eq_mul]
  rw [mul_comm]
  rfl

/-- C81 for up to two parameters and as many points as coefficients: each of the `maxiter` replacements
multiplies the absolute determinant of the interpolation conditions by the recorded constant, which
is at least one. So the volume never shrinks; all points stay in the unit region; one constant is
recorded per replacement. Missing for the full claim: three or more parameters, where it rests on the
wrong polynomials (C55). -/
theorem C81_improves_partial (hn : n ≤ 2) (pinv) (hp : PinvSpec (K := K) (n := n) pinv)
    (minimize : Shape → (Vec K n → K) → Vec K n) (hmin : FindsMinimum minimize)
    (shape : String) (sh : Shape) (hsh : NamesShape shape sh) (maxiter : Nat)
    (sample : Fin (nFeatures n) → Vec K n) (hd : (basisMat sample).det ≠ 0)
    (hin : ∀ i, InUnitRegion sh (sample i)) :
    ∃ new lambdas, improvePoisedness pinv minimize shape maxiter sample = .ok (new, lambdas) ∧
      lambdas.length = maxiter ∧ (∀ l ∈ lambdas, 1 ≤ l) ∧ (∀ i, InUnitRegion sh (new i)) ∧
      |(basisMat new).det| = lambdas.prod * |(basisMat sample).det| ∧
      |(basisMat sample).det| ≤ |(basisMat new).det| := by
  induction maxiter generalizing sample with
  | zero => exact ⟨sample, [], rfl, rfl, by simp, hin, by simp, le_rfl⟩
  | succ k ih =>
    have hu : IsUnit (basisMat sample).det := isUnit_iff_ne_zero.2 hd
    have hrank : FullRowRank sample := ⟨(basisMat sample)⁻¹, Matrix.mul_nonsing_inv _ hu⟩
    obtain ⟨l, x, i, h1, h2⟩ := C80_at_least_one_partial hn pinv hp minimize hmin sample
      (by unfold nFeatures; omega) hrank shape sh hsh hin
    obtain ⟨h3, h4, -⟩ := C80_poisedness_constant_partial hn pinv minimize hmin sample shape sh hsh l x
      i h1
    have hdet := det_replace pinv hp sample hd i x
    have habs : |(basisMat (Function.update sample i x)).det| = l * |(basisMat sample).det| := by
      rw [hdet, abs_mul, ← h4]
    have hpos : 0 < |(basisMat sample).det| := abs_pos.2 hd
    have hne : (basisMat (Function.update sample i x)).det ≠ 0 := by
      rw [← abs_pos, habs]
      exact mul_pos (lt_of_lt_of_le one_pos h2) hpos
    obtain ⟨new, ls, g1, g2, g3, g4, g5, g6⟩ := ih (Function.update sample i x) hne (by
      intro j
      by_cases hj : j = i
      · subst hj; simpa using h3
      · rw [Function.update_of_ne hj]; exact hin j)
    refine ⟨new, l :: ls, ?_, by simp [g2], by simpa using ⟨h2, g3⟩, g4, ?_, ?_⟩
    · simp only [improvePoisedness, h1, g1]
    · rw [g5, habs, List.prod_cons]; ring
    · refine le_trans ?_ g6
      rw [habs]
      nlinarith

/-! ## The contracts can be met -/

omit [LinearOrder K] [IsStrictOrderedRing K] in
/-- Generalized inverses exist. -/
theorem pinv_exists : ∃ pinv, PinvSpec (K := K) (n := n) pinv := by
  have h : ∀ G : Matrix (Fin (nFeatures n)) (Fin (nFeatures n)) K, ∃ P, G * P * G = G := by
    intro G
    set f := Matrix.toLin' G with hf
    obtain ⟨g, hg⟩ := f.rangeRestrict.exists_rightInverse_of_surjective f.range_rangeRestrict
    obtain ⟨g', hg'⟩ := LinearMap.exists_extend g
    refine ⟨LinearMap.toMatrix' g', ?_⟩
    apply Matrix.toLin'.injective
    rw [Matrix.toLin'_mul, Matrix.toLin'_mul, Matrix.toLin'_toMatrix', ← hf]
    refine LinearMap.ext fun x => ?_
    simp only [LinearMap.comp_apply]
    have e1 : g' (f x) = g (f.rangeRestrict x) := LinearMap.congr_fun hg' (f.rangeRestrict x)
    rw [e1]
    exact congrArg Subtype.val (LinearMap.congr_fun hg (f.rangeRestrict x))
  choose P hP using h
  exact ⟨P, hP⟩

theorem unitRegion_compact (shape : Shape) : IsCompact {x : Vec ℝ n | InUnitRegion shape x} := by
  have hbox : IsCompact (Set.Icc (fun _ => -1 : Vec ℝ n) (fun _ => 1)) := isCompact_Icc
  have hsub : {x : Vec ℝ n | InUnitRegion shape x} ⊆ Set.Icc (fun _ => -1 : Vec ℝ n) (fun _ => 1) := by
    intro x hx
    have habs : ∀ i, |x i| ≤ 1 := by
      cases shape with
      | sphere =>
        intro i
        have h1 : x i ^ 2 ≤ sumSq x :=
          Finset.single_le_sum (f := fun i => x i ^ 2) (fun j _ => sq_nonneg _) (Finset.mem_univ i)
        have h2 : sumSq x ≤ 1 := hx
        exact abs_le_one_iff_mul_self_le_one.2 (by nlinarith)
      | cube => exact hx
    exact ⟨fun i => (abs_le.1 (habs i)).1, fun i => (abs_le.1 (habs i)).2⟩
  refine hbox.of_isClosed_subset ?_ hsub
  cases shape with
  | sphere =>
    show IsClosed {x : Vec ℝ n | sumSq x ≤ 1}
    refine isClosed_le ?_ continuous_const
    unfold sumSq
    exact continuous_finsetSum _ fun i _ => (continuous_apply i).pow 2
  | cube =>
    have : {x : Vec ℝ n | InUnitRegion .cube x} = ⋂ i, {x : Vec ℝ n | |x i| ≤ 1} := by
      ext x; simp [InUnitRegion]
    rw [this]
    exact isClosed_iInter fun i => isClosed_le (continuous_apply i).abs continuous_const

/-- Over the reals there are minimizers as assumed in `FindsMinimum`. -/
theorem findsMinimum_exists : ∃ minimize, FindsMinimum (K := ℝ) (n := n) minimize := by
  classical
  have h : ∀ (shape : Shape) (f : Vec ℝ n → ℝ), ∃ x, (∃ poly, f = fun x => -evalAbsolute poly x) →
      InUnitRegion shape x ∧ ∀ y, InUnitRegion shape y → f x ≤ f y := by
    intro shape f
    by_cases hf : ∃ poly, f = fun x => -evalAbsolute poly x
    · obtain ⟨poly, rfl⟩ := hf
      have hc : Continuous fun x : Vec ℝ n => -evalAbsolute poly x := by
        unfold evalAbsolute
        refine (Continuous.abs ?_).neg
        refine (continuous_const.add ?_).add (continuous_const.mul ?_)
        · exact continuous_finsetSum _ fun i _ => continuous_const.mul (continuous_apply i)
        · exact continuous_finsetSum _ fun i _ => continuous_finsetSum _ fun j _ =>
            ((continuous_apply i).mul continuous_const).mul (continuous_apply j)
      have hne : {x : Vec ℝ n | InUnitRegion shape x}.Nonempty := by
        refine ⟨fun _ => 0, ?_⟩
        cases shape <;> simp [InUnitRegion, sumSq]
      obtain ⟨x, hx, hmin⟩ := (unitRegion_compact shape).exists_isMinOn hne hc.continuousOn
      exact ⟨x, fun _ => ⟨hx, fun y hy => hmin hy⟩⟩
    · exact ⟨fun _ => 0, fun h => absurd h hf⟩
  choose m hm using h
  refine ⟨m, fun shape poly => ?_⟩
  obtain ⟨h1, h2⟩ := hm shape _ ⟨poly, rfl⟩
  exact ⟨h1, fun y hy => neg_le_neg_iff.1 (h2 y hy)⟩

/-- The three points -1/2, 0, 1 on the line. -/
noncomputable def threePoints : Fin (nFeatures 1) → Vec ℝ 1 := fun i _ =>
  if i.val = 0 then -1 / 2 else if i.val = 1 then 0 else 1

theorem threePoints_det : (basisMat threePoints).det ≠ 0 := by
  let B : Matrix (Fin 3) (Fin 3) ℝ := basisMat threePoints
  have hB : (basisMat threePoints).det = B.det := rfl
  have b0 : ∀ s : Fin 3, B s 0 = 1 := fun s => rfl
  have b1 : ∀ s : Fin 3, B s 1 = threePoints s 0 := fun s => rfl
  have b2 : ∀ s : Fin 3, B s 2 = 1 / 2 * threePoints s 0 ^ 2 := fun s => rfl
  have p0 : threePoints (0 : Fin 3) 0 = -1 / 2 := rfl
  have p1 : threePoints (1 : Fin 3) 0 = 0 := rfl
  have p2 : threePoints (2 : Fin 3) 0 = 1 := rfl
  rw [hB, Matrix.det_fin_three, b0, b0, b0, b1, b1, b1, b2, b2, b2, p0, p1, p2]
  norm_num

/-- C81 applies: the determinant of the interpolation conditions is not zero. -/
example : ∃ pinv minimize new lambdas,
    improvePoisedness pinv minimize "cube" 4 threePoints = .ok (new, lambdas) ∧
      lambdas.length = 4 := by
  obtain ⟨pinv, hp⟩ := pinv_exists (K := ℝ) (n := 1)
  obtain ⟨minimize, hmin⟩ := findsMinimum_exists (n := 1)
  obtain ⟨new, ls, h1, h2, -⟩ := C81_improves_partial (n := 1) (by norm_num) pinv hp minimize hmin "cube"
    .cube (Or.inr ⟨rfl, rfl⟩) 4 threePoints threePoints_det (by
      intro i j
      unfold threePoints
      split_ifs <;> norm_num [abs_le])
  exact ⟨pinv, minimize, new, ls, h1, h2⟩

end Tranquilo
