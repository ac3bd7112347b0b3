import Verif.Props.Poisedness
import Mathlib.Data.Fin.VecNotation
import Mathlib.Tactic.Linarith
import Mathlib.Tactic.Positivity

/-!
# C80 and C81 with three parameters

The polynomials that are maximized are not those of the sample (C55), so neither claim survives. The
witness is a sample of the unit cube with as many points as coefficients.
-/

namespace Tranquilo

/-- The origin, the points `e_i` and `-e_i`, and the points `e_i + e_j`. -/
noncomputable def cubePoints : Fin 10 → Vec ℝ 3 :=
  ![![0, 0, 0], ![1, 0, 0], ![-1, 0, 0], ![0, 1, 0], ![0, -1, 0], ![0, 0, 1], ![0, 0, -1],
    ![1, 1, 0], ![1, 0, 1], ![0, 1, 1]]

/-- The coefficients of the Lagrange polynomials of these points. -/
noncomputable def cubeCoefs : Fin 10 → Fin 10 → ℝ :=
  ![![1, 0, 0, 0, -2, 1, 1, -2, 1, -2],
    ![0, 1 / 2, 0, 0, 1, -1, -1, 0, 0, 0],
    ![0, -1 / 2, 0, 0, 1, 0, 0, 0, 0, 0],
    ![0, 0, 1 / 2, 0, 0, -1, 0, 1, -1, 0],
    ![0, 0, -1 / 2, 0, 0, 0, 0, 1, 0, 0],
    ![0, 0, 0, 1 / 2, 0, 0, -1, 0, -1, 1],
    ![0, 0, 0, -1 / 2, 0, 0, 0, 0, 0, 1],
    ![0, 0, 0, 0, 0, 1, 0, 0, 0, 0],
    ![0, 0, 0, 0, 0, 0, 1, 0, 0, 0],
    ![0, 0, 0, 0, 0, 0, 0, 0, 1, 0]]

theorem polynomialAt_three (c : Fin 10 → ℝ) (x : Vec ℝ 3) :
    polynomialAt (n := 3) c x = c 0 + c 1 * x 0 + c 2 * x 1 + c 3 * x 2 + c 4 * (1 / 2 * x 0 ^ 2)
      + c 5 * (x 0 * x 1) + c 6 * (x 0 * x 2) + c 7 * (1 / 2 * x 1 ^ 2) + c 8 * (x 1 * x 2)
      + c 9 * (1 / 2 * x 2 ^ 2) := by
  have h1 : lagrangeRow x = [1, x 0, x 1, x 2, 1 / 2 * x 0 ^ 2, x 0 * x 1, x 0 * x 2,
    1 / 2 * x 1 ^ 2, x 1 * x 2, 1 / 2 * x 2 ^ 2] := rfl
  show ∑ t : Fin 10, c t * (lagrangeRow x).getD t 0 = _
  rw [h1]
  simp only [Fin.sum_univ_succ, Fin.sum_univ_zero]
  simp
  ring

theorem evalAbsolute_three (c : Fin 10 → ℝ) (x : Vec ℝ 3) :
    evalAbsolute (n := 3) c x = |c 0 + c 1 * x 0 + c 2 * x 1 + c 3 * x 2 + c 4 * (1 / 2 * x 0 ^ 2)
      + c 5 * (x 0 * x 1) + c 6 * (1 / 2 * x 1 ^ 2) + c 7 * (x 0 * x 2) + c 8 * (x 1 * x 2)
      + c 9 * (1 / 2 * x 2 ^ 2)| := by
  have e0 : coefAt (n := 3) c 0 = c 0 := rfl
  have e1 : coefAt (n := 3) c (1 + (0 : Fin 3)) = c 1 := rfl
  have e2 : coefAt (n := 3) c (1 + (1 : Fin 3)) = c 2 := rfl
  have e3 : coefAt (n := 3) c (1 + (2 : Fin 3)) = c 3 := rfl
  have f00 : reshapeSquare (n := 3) c 0 0 = c 4 := rfl
  have f01 : reshapeSquare (n := 3) c 0 1 = c 5 := rfl
  have f10 : reshapeSquare (n := 3) c 1 0 = c 5 := rfl
  have f11 : reshapeSquare (n := 3) c 1 1 = c 6 := rfl
  have f02 : reshapeSquare (n := 3) c 0 2 = c 7 := rfl
  have f20 : reshapeSquare (n := 3) c 2 0 = c 7 := rfl
  have f12 : reshapeSquare (n := 3) c 1 2 = c 8 := rfl
  have f21 : reshapeSquare (n := 3) c 2 1 = c 8 := rfl
  have f22 : reshapeSquare (n := 3) c 2 2 = c 9 := rfl
  unfold evalAbsolute
  simp only [Fin.sum_univ_three, e0, e1, e2, e3, f00, f01, f10, f11, f02, f20, f12, f21, f22]
  congr 1
  ring

/-- The values at the points of the sample of a polynomial with given coefficients. -/
noncomputable def cubeValues (c : Fin 10 → ℝ) : Fin 10 → ℝ :=
  ![c 0, c 0 + c 1 + c 4 / 2, c 0 - c 1 + c 4 / 2, c 0 + c 2 + c 7 / 2, c 0 - c 2 + c 7 / 2,
    c 0 + c 3 + c 9 / 2, c 0 - c 3 + c 9 / 2, c 0 + c 1 + c 2 + c 4 / 2 + c 5 + c 7 / 2,
    c 0 + c 1 + c 3 + c 4 / 2 + c 6 + c 9 / 2, c 0 + c 2 + c 3 + c 7 / 2 + c 8 + c 9 / 2]

theorem polynomialAt_cubePoints (c : Fin 10 → ℝ) (j : Fin 10) :
    polynomialAt (n := 3) c (cubePoints j) = cubeValues c j := by
  refine (polynomialAt_three c (cubePoints j)).trans ?_
  fin_cases j <;> simp [cubePoints, cubeValues, Matrix.cons_val] <;> ring

theorem cubeValues_explicit (a b c d e f g h k l : ℝ) :
    cubeValues ![a, b, c, d, e, f, g, h, k, l]
      = ![a, a + b + e / 2, a - b + e / 2, a + c + h / 2, a - c + h / 2, a + d + l / 2,
        a - d + l / 2, a + b + c + e / 2 + f + h / 2, a + b + d + e / 2 + g + l / 2,
        a + c + d + h / 2 + k + l / 2] := rfl

theorem cubeValues_lagrange (i : Fin 10) :
    cubeValues (cubeCoefs i) = fun j => if i = j then 1 else 0 := by
  fin_cases i
  all_goals
    refine (cubeValues_explicit _ _ _ _ _ _ _ _ _ _).trans ?_
    ext j
    fin_cases j <;> norm_num

theorem cubeCoefs_lagrange (i j : Fin 10) :
    polynomialAt (n := 3) (cubeCoefs i) (cubePoints j) = if i = j then 1 else 0 := by
  refine (polynomialAt_cubePoints (cubeCoefs i) j).trans ?_
  rw [cubeValues_lagrange]

/-- The coefficients as a matrix. -/
noncomputable def cubeMat : Matrix (Fin (nFeatures 3)) (Fin (nFeatures 3)) ℝ := fun i => cubeCoefs i

/-- The sample. -/
noncomputable def cubeSample : Fin (nFeatures 3) → Vec ℝ 3 := cubePoints

/-- Its interpolation conditions. -/
noncomputable def cubeBasis : Matrix (Fin (nFeatures 3)) (Fin (nFeatures 3)) ℝ := basisMat cubeSample

theorem cubeMat_mul : cubeMat * cubeBasis.transpose = 1 := by
  ext i j
  rw [Matrix.one_apply]
  exact cubeCoefs_lagrange i j

theorem cubeSample_det : cubeBasis.det ≠ 0 := by
  intro h
  have h1 := congrArg Matrix.det cubeMat_mul
  rw [Matrix.det_mul, Matrix.det_transpose, h, mul_zero, Matrix.det_one] at h1
  exact zero_ne_one h1

theorem cube_lagrangeMat (pinv) (hp : PinvSpec (K := ℝ) (n := 3) pinv) :
    lagrangeMat pinv cubeSample = cubeMat := by
  have hu : IsUnit cubeBasis.det := isUnit_iff_ne_zero.2 cubeSample_det
  have hL : lagrangeMat pinv cubeSample * cubeBasis.transpose = 1 :=
    lagrange_mul_basis pinv hp cubeSample ⟨cubeBasis⁻¹, Matrix.mul_nonsing_inv _ hu⟩
  have hR := mul_eq_one_comm.1 cubeMat_mul
  calc lagrangeMat pinv cubeSample
      = lagrangeMat pinv cubeSample * (cubeBasis.transpose * cubeMat) := by
        rw [hR, Matrix.mul_one]
    _ = cubeMat := by rw [← Matrix.mul_assoc, hL, Matrix.one_mul]

/-- The cube polynomial of the origin that is maximized in place of the true one. -/
theorem evalAbsolute_origin (x : Vec ℝ 3) : evalAbsolute (n := 3) (cubeCoefs 0) x
    = |1 - (x 0 + x 2) ^ 2 + x 1 ^ 2 / 2 + x 1 * (x 0 + x 2)| := by
  rw [evalAbsolute_three]
  congr 1
  simp only [cubeCoefs, Matrix.cons_val]
  ring

theorem polynomialAt_origin (x : Vec ℝ 3) : polynomialAt (n := 3) (cubeCoefs 0) x
    = 1 - x 0 ^ 2 - x 1 ^ 2 - x 2 ^ 2 + x 0 * x 1 + x 0 * x 2 + x 1 * x 2 := by
  rw [polynomialAt_three]
  simp only [cubeCoefs, Matrix.cons_val]
  ring

theorem evalAbsolute_explicit (a b c d e f g h k l : ℝ) (x : Vec ℝ 3) :
    evalAbsolute (n := 3) ![a, b, c, d, e, f, g, h, k, l] x
      = |a + b * x 0 + c * x 1 + d * x 2 + e * (1 / 2 * x 0 ^ 2) + f * (x 0 * x 1)
        + g * (1 / 2 * x 1 ^ 2) + h * (x 0 * x 2) + k * (x 1 * x 2) + l * (1 / 2 * x 2 ^ 2)| :=
  evalAbsolute_three _ x

theorem polynomialAt_explicit (a b c d e f g h k l : ℝ) (x : Vec ℝ 3) :
    polynomialAt (n := 3) ![a, b, c, d, e, f, g, h, k, l] x
      = a + b * x 0 + c * x 1 + d * x 2 + e * (1 / 2 * x 0 ^ 2) + f * (x 0 * x 1)
        + g * (x 0 * x 2) + h * (1 / 2 * x 1 ^ 2) + k * (x 1 * x 2) + l * (1 / 2 * x 2 ^ 2) :=
  polynomialAt_three _ x

/-- On the cube all polynomials but that of the origin are small, both the true ones and those that are
maximized. -/
theorem cube_others_small (x : Vec ℝ 3) (hx : ∀ i, |x i| ≤ 1) (i : Fin 10) (hi : i ≠ 0) :
    evalAbsolute (n := 3) (cubeCoefs i) x ≤ 7 / 2 ∧
    |polynomialAt (n := 3) (cubeCoefs i) x| ≤ 7 / 2 := by
  obtain ⟨a0, b0⟩ := abs_le.1 (hx 0)
  obtain ⟨a1, b1⟩ := abs_le.1 (hx 1)
  obtain ⟨a2, b2⟩ := abs_le.1 (hx 2)
  have hm : ∀ u v : ℝ, -1 ≤ u → u ≤ 1 → -1 ≤ v → v ≤ 1 → -1 ≤ u * v ∧ u * v ≤ 1 := by
    intro u v h1 h2 h3 h4
    exact abs_le.1 ((abs_mul u v).le.trans (mul_le_one₀ (abs_le.2 ⟨h1, h2⟩) (abs_nonneg _)
      (abs_le.2 ⟨h3, h4⟩)))
  obtain ⟨c1, d1⟩ := hm _ _ a0 b0 a1 b1
  obtain ⟨c2, d2⟩ := hm _ _ a0 b0 a2 b2
  obtain ⟨c3, d3⟩ := hm _ _ a1 b1 a2 b2
  have s0 : x 0 ^ 2 ≤ 1 := by nlinarith
  have s1 : x 1 ^ 2 ≤ 1 := by nlinarith
  have s2 : x 2 ^ 2 ≤ 1 := by nlinarith
  have q0 := sq_nonneg (x 0)
  have q1 := sq_nonneg (x 1)
  have q2 := sq_nonneg (x 2)
  fin_cases i
  · exact absurd rfl hi
  all_goals
    refine ⟨(evalAbsolute_explicit _ _ _ _ _ _ _ _ _ _ x).trans_le (abs_le.2 ?_),
      (congrArg _ (polynomialAt_explicit _ _ _ _ _ _ _ _ _ _ x)).trans_le (abs_le.2 ?_)⟩
    all_goals constructor <;> linarith

theorem cube_origin_true_bound (x : Vec ℝ 3) (hx : ∀ i, |x i| ≤ 1) :
    |polynomialAt (n := 3) (cubeCoefs 0) x| ≤ 3 := by
  rw [polynomialAt_origin]
  obtain ⟨a0, b0⟩ := abs_le.1 (hx 0)
  obtain ⟨a1, b1⟩ := abs_le.1 (hx 1)
  obtain ⟨a2, b2⟩ := abs_le.1 (hx 2)
  have s0 : x 0 ^ 2 ≤ 1 := by nlinarith
  have s1 : x 1 ^ 2 ≤ 1 := by nlinarith
  have s2 : x 2 ^ 2 ≤ 1 := by nlinarith
  have u : 0 ≤ (1 + x 0) * (1 + x 1) * (1 + x 2) :=
    mul_nonneg (mul_nonneg (by linarith) (by linarith)) (by linarith)
  have v : 0 ≤ (1 - x 0) * (1 - x 1) * (1 - x 2) :=
    mul_nonneg (mul_nonneg (by linarith) (by linarith)) (by linarith)
  rw [abs_le]
  constructor
  · nlinarith
  · nlinarith [sq_nonneg (x 0 - x 1), sq_nonneg (x 0 - x 2), sq_nonneg (x 1 - x 2)]

/-- The polynomial that is maximized attains its largest value only at two corners, where the true one has
absolute value three. -/
theorem cube_origin_attained (x : Vec ℝ 3) (hx : ∀ i, |x i| ≤ 1)
    (h : 9 / 2 ≤ evalAbsolute (n := 3) (cubeCoefs 0) x) :
    |polynomialAt (n := 3) (cubeCoefs 0) x| = 3 := by
  rw [evalAbsolute_origin] at h
  obtain ⟨a0, b0⟩ := abs_le.1 (hx 0)
  obtain ⟨a1, b1⟩ := abs_le.1 (hx 1)
  obtain ⟨a2, b2⟩ := abs_le.1 (hx 2)
  generalize hs : x 0 + x 2 = s at h
  have hs1 : -2 ≤ s := by linarith
  have hs2 : s ≤ 2 := by linarith
  have hkey : (s = 2 ∧ x 1 = -1) ∨ (s = -2 ∧ x 1 = 1) := by
    rcases le_abs'.1 h with h | h
    · have hle : s * x 1 ≤ -3 / 2 := by nlinarith [sq_nonneg (x 1)]
      rcases le_or_gt 0 s with hp | hn
      · left
        have hx1 : x 1 < 0 := by
          by_contra hc
          nlinarith [mul_nonneg hp (not_lt.1 hc)]
        have e1 : 0 ≤ (2 - s) * (s + 2) := mul_nonneg (by linarith) (by linarith)
        have e2 : 0 ≤ (2 - s) * -x 1 := mul_nonneg (by linarith) (by linarith)
        have hx1' : x 1 = -1 := by nlinarith
        refine ⟨?_, hx1'⟩
        rw [hx1'] at h
        nlinarith
      · right
        have hx1 : 0 < x 1 := by
          by_contra hc
          nlinarith [mul_nonneg (neg_nonneg.2 hn.le) (neg_nonneg.2 (not_lt.1 hc))]
        have e1 : 0 ≤ (2 - s) * (s + 2) := mul_nonneg (by linarith) (by linarith)
        have e2 : 0 ≤ (2 + s) * x 1 := mul_nonneg (by linarith) (by linarith)
        have hx1' : x 1 = 1 := by nlinarith
        refine ⟨?_, hx1'⟩
        rw [hx1'] at h
        nlinarith
    · exfalso
      nlinarith [sq_nonneg (s - x 1 / 2), sq_nonneg (x 1)]
  rw [polynomialAt_origin]
  rcases hkey with ⟨h1, h2⟩ | ⟨h1, h2⟩
  · have e0 : x 0 = 1 := by linarith
    have e2 : x 2 = 1 := by linarith
    rw [e0, h2, e2]; norm_num
  · have e0 : x 0 = -1 := by linarith
    have e2 : x 2 = -1 := by linarith
    rw [e0, h2, e2]; norm_num

theorem cube_origin_bound (x : Vec ℝ 3) (hx : ∀ i, |x i| ≤ 1) :
    evalAbsolute (n := 3) (cubeCoefs 0) x ≤ 9 / 2 := by
  rw [evalAbsolute_origin]
  obtain ⟨a0, b0⟩ := abs_le.1 (hx 0)
  obtain ⟨a1, b1⟩ := abs_le.1 (hx 1)
  obtain ⟨a2, b2⟩ := abs_le.1 (hx 2)
  generalize hs : x 0 + x 2 = s
  have hs1 : -2 ≤ s := by linarith
  have hs2 : s ≤ 2 := by linarith
  rw [abs_le]
  constructor
  · nlinarith [mul_nonneg (sub_nonneg.2 hs2) (by linarith : (0 : ℝ) ≤ s + 2),
      mul_nonneg (sub_nonneg.2 hs2) (by linarith : (0 : ℝ) ≤ x 1 + 1),
      mul_nonneg (by linarith : (0 : ℝ) ≤ s + 2) (sub_nonneg.2 b1), sq_nonneg (x 1 - 1), sq_nonneg (x 1 + 1)]
  · nlinarith [sq_nonneg (s - x 1 / 2), sq_nonneg (x 1)]

theorem cubeSample_in (i : Fin 10) : InUnitRegion .cube (cubePoints i) := by
  intro j
  fin_cases i <;> fin_cases j <;> norm_num [cubePoints]

/-- The result of `get_poisedness_constant` for the sample, whatever the generalized inverse and the
maximizer are. -/
theorem cube_result (pinv) (hp : PinvSpec (K := ℝ) (n := 3) pinv)
    (minimize : Shape → (Vec ℝ 3 → ℝ) → Vec ℝ 3) (hmin : FindsMinimum minimize) :
    ∃ x, poisednessConstant pinv minimize cubeSample "cube" = .ok (9 / 2, x, (0 : Fin 10)) ∧
      InUnitRegion .cube x ∧ |polynomialAt (lagrangeMat pinv cubeSample (0 : Fin 10)) x| = 3 := by
  have hL := cube_lagrangeMat pinv hp
  have hrow : ∀ i : Fin 10, lagrangeMat pinv cubeSample i = cubeCoefs i := fun i =>
    congrFun hL i
  obtain ⟨h1, -, h3, h4⟩ := poisedFold (minimize .cube) (lagrangeMat pinv cubeSample)
    (List.finRange (nFeatures 3)) ⟨0, none⟩ (by simp)
  simp only [poisednessConstant, shapeOfName_names (Or.inr ⟨rfl, rfl⟩ : NamesShape "cube" .cube)]
  set t := (List.finRange (nFeatures 3)).foldl
    (poisedStep (minimize .cube) (lagrangeMat pinv cubeSample)) ⟨0, none⟩ with ht
  have hcorner : InUnitRegion .cube (![1, -1, 1] : Vec ℝ 3) := by
    intro j; fin_cases j <;> norm_num
  have hval : evalAbsolute (n := 3) (cubeCoefs 0) ![1, -1, 1] = 9 / 2 := by
    rw [evalAbsolute_origin]
    have e0 : (![1, -1, 1] : Vec ℝ 3) 0 = 1 := rfl
    have e1 : (![1, -1, 1] : Vec ℝ 3) 1 = -1 := rfl
    have e2 : (![1, -1, 1] : Vec ℝ 3) 2 = 1 := rfl
    rw [e0, e1, e2]
    norm_num
  have hge : 9 / 2 ≤ t.lambda := by
    have h5 := h3 (0 : Fin 10) (List.mem_finRange _)
    have h6 := (hmin .cube (cubeCoefs 0)).2 _ hcorner
    rw [hval] at h6
    rw [hrow] at h5
    exact h6.trans h5
  cases hb : t.best with
  | none =>
    have h5 : t.lambda = 0 := (h4 hb).2
    rw [h5] at hge
    norm_num at hge
  | some q =>
    obtain ⟨x, i⟩ := q
    obtain ⟨g1, g2⟩ := h1 x i hb
    have hx : InUnitRegion .cube x := g2 ▸ (hmin .cube _).1
    have hi : i = (0 : Fin 10) := by
      by_contra hne
      have h5 := (cube_others_small x hx i hne).1
      have g1' : t.lambda = evalAbsolute (n := 3) (cubeCoefs i) x :=
        g1.trans (congrArg (fun c => evalAbsolute (n := 3) c x) (hrow i))
      rw [g1'] at hge
      linarith
    subst hi
    have g1' : t.lambda = evalAbsolute (n := 3) (cubeCoefs 0) x := by rw [g1, hrow]
    have hle := cube_origin_bound x hx
    have hlam : t.lambda = 9 / 2 := le_antisymm (g1' ▸ hle) hge
    refine ⟨x, by simp only [hlam], hx, ?_⟩
    rw [hrow]
    exact cube_origin_attained x hx (g1' ▸ hge)

/-- C80 is false of the code with three parameters: for ten points of the unit cube with independent
interpolation conditions the constant is `9 / 2`, although no Lagrange polynomial of the sample
exceeds `7 / 2` on the cube, and the one that is named has absolute value 3 at the point that is
named. -/
theorem C80_violated_three_parameters (pinv) (hp : PinvSpec (K := ℝ) (n := 3) pinv)
    (minimize : Shape → (Vec ℝ 3 → ℝ) → Vec ℝ 3) (hmin : FindsMinimum minimize) :
    ∃ sample : Fin (nFeatures 3) → Vec ℝ 3, FullRowRank sample ∧
      (∀ i, InUnitRegion .cube (sample i)) ∧
      ∃ x i, poisednessConstant pinv minimize sample "cube" = .ok (9 / 2, x, i) ∧
        |polynomialAt (lagrangeMat pinv sample i) x| = 3 ∧
        ∀ j y, InUnitRegion .cube y → |polynomialAt (lagrangeMat pinv sample j) y| ≤ 7 / 2 := by
  obtain ⟨x, h1, -, h2⟩ := cube_result pinv hp minimize hmin
  have hu : IsUnit cubeBasis.det := isUnit_iff_ne_zero.2 cubeSample_det
  refine ⟨cubeSample, ⟨cubeBasis⁻¹, Matrix.mul_nonsing_inv _ hu⟩, cubeSample_in, x, (0 : Fin 10), h1, h2,
    fun j y hy => ?_⟩
  have hrow : lagrangeMat pinv cubeSample j = cubeCoefs j := congrFun (cube_lagrangeMat pinv hp) j
  rw [hrow]
  by_cases hj : j = (0 : Fin 10)
  · subst hj
    exact (cube_origin_true_bound y hy).trans (by norm_num)
  · exact (cube_others_small y hy j hj).2

/-- C81 is false of the code with three parameters: the replacement multiplies the absolute determinant of
the interpolation conditions by 3, but the constant that is recorded is `9 / 2`. -/
theorem C81_violated_three_parameters (pinv) (hp : PinvSpec (K := ℝ) (n := 3) pinv)
    (minimize : Shape → (Vec ℝ 3 → ℝ) → Vec ℝ 3) (hmin : FindsMinimum minimize) :
    ∃ sample : Fin (nFeatures 3) → Vec ℝ 3, (basisMat sample).det ≠ 0 ∧
      (∀ i, InUnitRegion .cube (sample i)) ∧
      ∃ new, improvePoisedness pinv minimize "cube" 1 sample = .ok (new, [9 / 2]) ∧
        |(basisMat new).det| = 3 * |(basisMat sample).det| := by
  obtain ⟨x, h1, -, h2⟩ := cube_result pinv hp minimize hmin
  refine ⟨cubeSample, cubeSample_det, cubeSample_in, Function.update cubeSample (0 : Fin 10) x, ?_, ?_⟩
  · simp only [improvePoisedness, h1]
  · refine (congrArg abs (det_replace pinv hp cubeSample cubeSample_det (0 : Fin 10) x)).trans ?_
    exact (abs_mul _ _).trans (congrArg (· * |(basisMat cubeSample).det|) h2)

/-- The contracts of both theorems can be met. -/
example : ∃ pinv, PinvSpec (K := ℝ) (n := 3) pinv ∧
    ∃ minimize : Shape → (Vec ℝ 3 → ℝ) → Vec ℝ 3, FindsMinimum minimize :=
  let ⟨p, hp⟩ := pinv_exists (K := ℝ) (n := 3)
  ⟨p, hp, findsMinimum_exists⟩

end Tranquilo
