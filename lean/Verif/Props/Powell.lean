import Verif.Lemmas.Powell
import Mathlib.Tactic.FinCases

/-!
# C90 (Powell's fit)
-/

namespace Tranquilo

variable {K : Type} [Field K] [LinearOrder K] [IsStrictOrderedRing K] {n m N p : Nat}

omit [LinearOrder K] [IsStrictOrderedRing K] in
theorem featureRow_getD_linear (u : Vec K n) (k : Nat) (hk : k < n + 1) :
    (featureRow .quadratic u).getD k 0 = (featureRow .linear u).getD k 0 := by
  simp only [featureRow, List.getD_eq_getElem?_getD]
  rw [← List.cons_append, List.getElem?_append_left (by simpa using hk)]

omit [LinearOrder K] [IsStrictOrderedRing K] in
/-- Padding linear coefficients with zeros does not change the predictions. -/
theorem coefDot_padded (mt : ModelType) (c : Vec K (nCols n .linear)) (u : Vec K n) :
    coefDot mt (fun k => if h : k.val < nCols n .linear then c ⟨k, h⟩ else 0) u = coefDot .linear c u := by
  cases mt with
  | linear =>
    refine Finset.sum_congr rfl fun k _ => ?_
    simp only [dif_pos k.isLt]
  | quadratic =>
    show ∑ k : Fin (n + 1 + nSecondOrderTerms n), _ = _
    rw [Fin.sum_univ_add]
    have h0 : ∀ k : Fin (nSecondOrderTerms n),
        (if h : (Fin.natAdd (n + 1) k).val < nCols n .linear then c ⟨Fin.natAdd (n + 1) k, h⟩ else 0)
          * (featureRow .quadratic u).getD (Fin.natAdd (n + 1) k) 0 = 0 := by
      intro k
      rw [dif_neg (by simp [nCols]; omega), zero_mul]
    rw [Finset.sum_eq_zero (fun k _ => h0 k), add_zero]
    refine Finset.sum_congr rfl fun k _ => ?_
    have h1 : (Fin.castAdd (nSecondOrderTerms n) k).val < nCols n .linear := k.isLt
    have h2 : (if h : (Fin.castAdd (nSecondOrderTerms n) k).val < nCols n .linear
        then c ⟨Fin.castAdd (nSecondOrderTerms n) k, h⟩ else 0) = c k := dif_pos h1
    have h3 : (featureRow .quadratic u).getD (Fin.castAdd (nSecondOrderTerms n) k) 0
        = (featureRow .linear u).getD k 0 := featureRow_getD_linear u k k.isLt
    exact congrArg₂ (· * ·) h2 h3

/-- C90 with at most `n + 1` points: the model is linear, and no linear model has a smaller sum of
squared errors. -/
theorem C90_few_points (lstsq : Lstsq K) (hl : LstsqSpec lstsq) (root : K → K)
    (q : (Fin N → Vec K n) → Mat K N N) (mt : ModelType) (xs : Fin N → Vec K n) (y : Vec K N)
    (hN : N ≤ n + 1) (shift scale : Vec K n) :
    ∃ coef, fitPowell lstsq root q mt xs y = .ok coef ∧
      let model := modelOfCoef (m := 1) mt (fun _ => coef) shift scale
      IsPoly .linear (fun u => model.predict u 0) ∧
      ∀ f, IsPoly .linear f →
        ∑ s, (model.predict (xs s) 0 - y s) ^ 2 ≤ ∑ s, (f (xs s) - y s) ^ 2 := by
  refine ⟨_, if_pos hN, ?_⟩
  intro model
  have hm : (fun u => model.predict u 0) = coefDot .linear (fitOls lstsq root .linear xs y none) :=
    funext fun u => (modelOfCoef_predict mt _ shift scale u 0).trans (coefDot_padded mt _ u)
  refine ⟨hm ▸ (isPoly_iff .linear _).2 ⟨_, fun _ => rfl⟩, fun f hf => ?_⟩
  obtain ⟨c, hc⟩ := (isPoly_iff .linear f).1 hf
  have key : ∀ c : Vec K (nCols n .linear), residSq (weightMat root none (featureMatrix .linear xs))
      (weightVec root none y) c = ∑ s, (coefDot .linear c (xs s) - y s) ^ 2 := by
    intro c
    refine Finset.sum_congr rfl fun s _ => ?_
    rw [← featureMatrix_dot]
    rfl
  have h := hl.least _ _ (weightMat root none (featureMatrix .linear xs)) (weightVec root none y) c
  rw [key, key] at h
  calc _ = ∑ s, (coefDot .linear (fitOls lstsq root .linear xs y none) (xs s) - y s) ^ 2 :=
        Finset.sum_congr rfl fun s _ => by rw [← hm]
    _ ≤ _ := by simp only [hc]; exact h

/-- C90 with as many points as coefficients, or more: no model of the requested type has a smaller sum
of squared errors. -/
theorem C90_many_points (lstsq : Lstsq K) (hl : LstsqSpec lstsq) (root : K → K)
    (q : (Fin N → Vec K n) → Mat K N N) (mt : ModelType) (xs : Fin N → Vec K n) (y : Vec K N)
    (hN : n + 1 < N) (hN2 : nCols n mt ≤ N) (shift scale : Vec K n) :
    ∃ coef, fitPowell lstsq root q mt xs y = .ok coef ∧
      let model := modelOfCoef (m := 1) mt (fun _ => coef) shift scale
      ∀ f, IsPoly mt f →
        ∑ s, (model.predict (xs s) 0 - y s) ^ 2 ≤ ∑ s, (f (xs s) - y s) ^ 2 := by
  refine ⟨fitOls lstsq root mt xs y none, ?_, ?_⟩
  · unfold fitPowell; rw [if_neg (not_le.2 hN), if_pos hN2]
  intro model f hf
  obtain ⟨c, hc⟩ := (isPoly_iff mt f).1 hf
  have key : ∀ c : Vec K (nCols n mt), residSq (weightMat root none (featureMatrix mt xs))
      (weightVec root none y) c = ∑ s, (coefDot mt c (xs s) - y s) ^ 2 := by
    intro c
    refine Finset.sum_congr rfl fun s _ => ?_
    rw [← featureMatrix_dot]
    rfl
  have h := hl.least _ _ (weightMat root none (featureMatrix mt xs)) (weightVec root none y) c
  rw [key, key] at h
  simp only [hc]
  refine le_of_eq_of_le ?_ h
  exact Finset.sum_congr rfl fun s _ => by rw [modelOfCoef_predict mt _ shift scale (xs s) 0]; rfl

/-- The first `n + 1` points determine a linear function. -/
def FirstPointsPoised (xs : Fin N → Vec K n) : Prop :=
  ∀ (c : K) (g : Vec K n), (∀ s : Fin N, s.val < n + 1 → c + ∑ i, g i * xs s i = 0) →
    c = 0 ∧ ∀ i, g i = 0

/-- Matrix of the linear features (`m_mat`). -/
def linFeatures (xs : Fin N → Vec K n) : Mat K N (n + 1) := fun s k =>
  if h : k.val = 0 then 1 else xs s ⟨k.val - 1, by omega⟩

omit [LinearOrder K] [IsStrictOrderedRing K] in
theorem quadFeature_lin (xs : Fin N → Vec K n) (s : Fin N) (k : Fin (n + 1)) :
    quadFeature xs s k = linFeatures xs s k := by
  unfold quadFeature
  rw [featureRow_getD_linear _ _ k.isLt]
  refine Fin.cases ?_ (fun i => ?_) k
  · simp [featureRow, linFeatures]
  · simp only [featureRow, linFeatures, Fin.val_succ, List.getD_cons_succ]
    rw [dif_neg (by omega)]
    simp [List.getD_eq_getElem?_getD]

omit [LinearOrder K] [IsStrictOrderedRing K] in
theorem linFeatures_dot (xs : Fin N → Vec K n) (s : Fin N) (c : Vec K (n + 1)) :
    ∑ k, linFeatures xs s k * c k = c 0 + ∑ i : Fin n, c i.succ * xs s i := by
  rw [Fin.sum_univ_succ]
  congr 1
  · simp [linFeatures]
  · refine Finset.sum_congr rfl fun i _ => ?_
    simp [linFeatures, mul_comm]

omit [LinearOrder K] [IsStrictOrderedRing K] in
theorem FirstPointsPoised.injective {xs : Fin N → Vec K n} (h : FirstPointsPoised xs)
    (c : Vec K (n + 1)) (hc : ∀ s : Fin N, s.val < n + 1 → ∑ k, linFeatures xs s k * c k = 0) :
    c = 0 := by
  obtain ⟨h1, h2⟩ := h (c 0) (fun i => c i.succ) fun s hs => by rw [← linFeatures_dot, hc s hs]
  funext k
  refine Fin.cases h1 h2 k

omit [LinearOrder K] [IsStrictOrderedRing K] in
/-- Predictions in terms of the linear and the second order part. -/
theorem coefDot_split (xs : Fin N → Vec K n) (s : Fin N) (c : Vec K (nCols n .quadratic)) :
    coefDot .quadratic c (xs s)
      = (∑ k : Fin (n + 1), linFeatures xs s k * c (Fin.castAdd (nSecondOrderTerms n) k))
        + ∑ k : Fin (nSecondOrderTerms n), quadFeature xs s (n + 1 + k) * c (Fin.natAdd (n + 1) k) := by
  show ∑ k : Fin (n + 1 + nSecondOrderTerms n), _ = _
  rw [Fin.sum_univ_add]
  congr 1
  · refine Finset.sum_congr rfl fun k _ => ?_
    rw [← quadFeature_lin, mul_comm]
    rfl
  · refine Finset.sum_congr rfl fun k _ => ?_
    rw [mul_comm]
    rfl

/-- C90 between these sizes: if some quadratic function passes through the data and the first `n + 1`
points determine a linear function, then the fit passes through the data, and no other quadratic
function through the data has a smaller sum of squares of the second order coefficients (those of
`x_i x_j` with `i ≤ j`). Missing: the documentation promises the smallest norm of the Hessian, see
`C90_violated_frobenius_norm`. -/
theorem C90_minimal_norm_partial (lstsq : Lstsq K) (hl : LstsqSpec lstsq) (root : K → K)
    (q : (Fin N → Vec K n) → Mat K N N) (xs : Fin N → Vec K n) (y : Vec K N)
    (hq : QrSpec (linFeatures xs) (q xs)) (hN : n + 1 < N) (hN2 : N < nCols n .quadratic)
    (hpoised : FirstPointsPoised xs) (hdata : ∃ f, IsPoly .quadratic f ∧ ∀ s, f (xs s) = y s)
    (shift scale : Vec K n) :
    ∃ coef, fitPowell lstsq root q .quadratic xs y = .ok coef ∧
      (∀ s, (modelOfCoef (m := 1) .quadratic (fun _ => coef) shift scale).predict (xs s) 0 = y s) ∧
      ∀ c : Vec K (nCols n .quadratic),
        (∀ s, (modelOfCoef (m := 1) .quadratic (fun _ => c) shift scale).predict (xs s) 0 = y s) →
        ∑ k : Fin (nSecondOrderTerms n), coef (Fin.natAdd (n + 1) k) ^ 2
          ≤ ∑ k : Fin (nSecondOrderTerms n), c (Fin.natAdd (n + 1) k) ^ 2 := by
  have hsize : ¬ n + n * (n + 1) / 2 + 1 ≤ N := by
    simp only [nCols, nSecondOrderTerms] at hN2; omega
  set second := secondStage lstsq (q xs) xs y with hsec
  set alpha := linearStage lstsq xs y second with hal
  set coef : Vec K (nCols n .quadratic) := fun k => if h : k.val < n + 1 then alpha ⟨k, h⟩
      else second ⟨k - (n + 1), by have := k.isLt; simp only [nCols] at this; omega⟩ with hcoef
  have hrun : fitPowell lstsq root q .quadratic xs y = .ok coef := by
    unfold fitPowell fitMinFrobenius
    rw [if_neg (not_le.2 hN), if_neg (not_le.2 hN2), if_neg (not_le.2 hN), if_neg hsize]
    simp only [← hsec, ← hal]
    congr 1
    funext k
    rw [dif_pos k.isLt]
  have hc1 : ∀ k : Fin (n + 1), coef (Fin.castAdd (nSecondOrderTerms n) k) = alpha k := by
    intro k
    rw [hcoef]
    simp only [Fin.val_castAdd]
    rw [dif_pos k.isLt]
  have hc2 : ∀ k : Fin (nSecondOrderTerms n), coef (Fin.natAdd (n + 1) k) = second k := by
    intro k
    rw [hcoef]
    simp only [Fin.val_natAdd]
    rw [dif_neg (by omega)]
    congr 1
    exact Fin.ext (by simp)
  have hpred : ∀ (c : Vec K (nCols n .quadratic)) (s : Fin N),
      (modelOfCoef (m := 1) .quadratic (fun _ => c) shift scale).predict (xs s) 0
        = coefDot .quadratic c (xs s) := fun c s => modelOfCoef_predict .quadratic _ shift scale (xs s) 0
  have hMZ : ∀ (k : Fin (n + 1)) (j : Fin (N - (n + 1))), ∑ s, linFeatures xs s k * zMat n (q xs) s j = 0 := by
    intro k j
    have hj : n + 1 + j.val < N := by omega
    have := hq.complement k ⟨n + 1 + j, hj⟩ (by simp)
    simpa only [zMat, dif_pos hj] using this
  have hcore : ∀ c : Vec K (nCols n .quadratic), (∀ s, coefDot .quadratic c (xs s) = y s) →
      (∀ j, ∑ s, zMat n (q xs) s j
          * (y s - ∑ k : Fin (nSecondOrderTerms n), quadFeature xs s (n + 1 + k) * second k) = 0) ∧
      ∑ k, second k ^ 2 ≤ ∑ k : Fin (nSecondOrderTerms n), c (Fin.natAdd (n + 1) k) ^ 2 := by
    intro c hc
    exact frobenius_core hl hMZ y (fun k => c (Fin.castAdd (nSecondOrderTerms n) k))
      (fun k => c (Fin.natAdd (n + 1) k))
      (B := fun s k => quadFeature xs s (n + 1 + k))
      (fun s => by rw [← hc s, coefDot_split]) (nZMat (q xs) xs) (fun k j => rfl) _ rfl second
      (fun k => rfl)
  refine ⟨coef, hrun, fun s => ?_, fun c hc => ?_⟩
  · obtain ⟨f, hf, hfy⟩ := hdata
    obtain ⟨c, hc⟩ := (isPoly_iff .quadratic f).1 hf
    have horth := (hcore c fun s => by rw [← hc, hfy]).1
    obtain ⟨a, ha⟩ := hq.span hN.le (fun d hd => hpoised.injective d fun s _ => hd s)
      (fun s => y s - ∑ k : Fin (nSecondOrderTerms n), quadFeature xs s (n + 1 + k) * second k) (by
        intro j hj
        have h1 := horth ⟨j.val - (n + 1), by omega⟩
        have h2 : n + 1 + (j.val - (n + 1)) < N := by omega
        have h3 : (⟨n + 1 + (j.val - (n + 1)), h2⟩ : Fin N) = j := Fin.ext (by simp; omega)
        simpa only [zMat, dif_pos h2, h3] using h1)
    have halpha : alpha = a := by
      have hex := lstsq_exact hl (N := n + 1) (p := n + 1)
        (fun s k => if h : s.val < N then quadFeature xs ⟨s, h⟩ k else 0)
        (fun s => if h : s.val < N then
          y ⟨s, h⟩ - ∑ k : Fin (nSecondOrderTerms n), quadFeature xs ⟨s, h⟩ (n + 1 + k) * second k else 0) a
        (fun s => by
          have hs : s.val < N := by omega
          simp only [dif_pos hs]
          rw [ha ⟨s, hs⟩]
          exact Finset.sum_congr rfl fun k _ => by rw [quadFeature_lin])
      have hz : (fun k => alpha k - a k) = 0 := hpoised.injective _ fun s hs => by
        have h1 := hex ⟨s.val, hs⟩
        simp only [dif_pos s.isLt] at h1
        have h2 := ha s
        rw [h2] at h1
        have h3 : ∑ k, linFeatures xs s k * alpha k = ∑ k, linFeatures xs s k * a k := by
          rw [← h1]
          exact Finset.sum_congr rfl fun k _ => by rw [quadFeature_lin]; rfl
        simp only [mul_sub, Finset.sum_sub_distrib, h3, sub_self]
      funext k
      exact sub_eq_zero.1 (congrFun hz k)
    rw [hpred, coefDot_split]
    simp only [hc1, hc2, halpha]
    rw [← ha s]
    ring
  · simp only [hc2]
    exact (hcore c fun s => by rw [← hpred, hc]).2

/-! ## C90 is violated: the norm of the Hessian is not minimal -/

/-- Four points in the plane. -/
noncomputable def powellPoints : Fin 4 → Vec ℝ 2 := ![![0, 0], ![1, 0], ![0, 1], ![1, 7]]

/-- Function values at these points. -/
noncomputable def powellData : Vec ℝ 4 := ![0, 0, 0, 1]

/-- An orthogonal factor for these points, a Householder reflection. -/
noncomputable def powellFactor : Mat ℝ 4 4 := fun i j =>
  (if i = j then 1 else 0) - (![-7, 1, 7, 9] : Vec ℝ 4) i * (![-7, 1, 7, 9] : Vec ℝ 4) j / 90

theorem powellFactor_spec : QrSpec (linFeatures powellPoints) powellFactor := by
  constructor
  · intro i j
    fin_cases i <;> fin_cases j <;> simp [powellFactor, Fin.sum_univ_four] <;> norm_num
  · intro k j hj
    have : j = 3 := Fin.ext (by have := j.isLt; simp; omega)
    subst this
    fin_cases k <;> simp [powellFactor, linFeatures, powellPoints, Fin.sum_univ_four] <;> norm_num

theorem powellPoints_poised : FirstPointsPoised powellPoints := by
  intro c g h
  have h0 := h 0 (by simp)
  have h1 := h 1 (by simp)
  have h2 := h 2 (by simp)
  simp [powellPoints, Fin.sum_univ_two] at h0 h1 h2
  refine ⟨h0, fun i => ?_⟩
  fin_cases i
  · show g 0 = 0; linarith
  · show g 1 = 0; linarith

/-- `x_1 (c_22 x_1 + c_12 x_0 - c_22)` passes through the data if `7 c_12 + 42 c_22 = 1`. -/
theorem powell_family (b c : ℝ) (h : 7 * b + 42 * c = 1) (s : Fin 4) :
    polyVal 0 ![0, -c] (some ![![0, b], ![b, 2 * c]]) (powellPoints s) = powellData s := by
  fin_cases s <;> simp [polyVal, powellPoints, powellData, Fin.sum_univ_two] <;> linarith

theorem reshape_two (l : List ℝ) (a b c : ℝ) (h : l = [a, b, c]) :
    reshapeToHess 2 l = ![![2 * a, b], ![b, 2 * c]] := by
  subst h
  have ht : triuIndices 2 = [(0, 0), (0, 1), (1, 1)] := by decide
  have k1 : (((0 : Fin 2), (1 : Fin 2)) == ((0 : Fin 2), (0 : Fin 2))) = false := by decide
  have k2 : (((1 : Fin 2), (0 : Fin 2)) == ((0 : Fin 2), (0 : Fin 2))) = false := by decide
  have k3 : (((1 : Fin 2), (0 : Fin 2)) == ((0 : Fin 2), (1 : Fin 2))) = false := by decide
  have k4 : (((1 : Fin 2), (0 : Fin 2)) == ((1 : Fin 2), (1 : Fin 2))) = false := by decide
  have k5 : (((1 : Fin 2), (1 : Fin 2)) == ((0 : Fin 2), (0 : Fin 2))) = false := by decide
  have k6 : (((1 : Fin 2), (1 : Fin 2)) == ((0 : Fin 2), (1 : Fin 2))) = false := by decide
  funext i j
  fin_cases i <;> fin_cases j <;>
    simp [reshapeToHess, ht, List.lookup, k1, k2, k3, k4, k5, k6, two_mul]

/-- C90 is violated: for four points in the plane the fit is defined, but another quadratic function
through the data has a Hessian of smaller norm (squared: 38/17689 against 146/67081). -/
theorem C90_violated_frobenius_norm (lstsq : Lstsq ℝ) (hl : LstsqSpec lstsq) (root : ℝ → ℝ)
    (q : (Fin 4 → Vec ℝ 2) → Mat ℝ 4 4) (hq : QrSpec (linFeatures powellPoints) (q powellPoints))
    (shift scale : Vec ℝ 2) :
    ∃ coef, fitPowell lstsq root q .quadratic powellPoints powellData = .ok coef ∧
      ∃ hess, (modelOfCoef (m := 1) .quadratic (fun _ => coef) shift scale).squareTerms
          = some (fun _ => hess) ∧
      ∃ c g h, (∀ s, polyVal c g (some h) (powellPoints s) = powellData s) ∧
        ∑ i, ∑ j, h i j ^ 2 < ∑ i, ∑ j, hess i j ^ 2 := by
  obtain ⟨coef, hrun, hfit, hmin⟩ := C90_minimal_norm_partial lstsq hl root q powellPoints powellData hq
    (by norm_num) (by decide) powellPoints_poised
    ⟨_, ⟨0, ![0, -(6 / 259)], some _, fun h => (nomatch h), fun u => rfl⟩,
      powell_family (1 / 259) (6 / 259) (by norm_num)⟩ shift scale
  refine ⟨coef, hrun, _, rfl, 0, _, _, powell_family (1 / 133) (3 / 133) (by norm_num), ?_⟩
  have hm := hmin (coefOf .quadratic 0 ![0, -(6 / 259)] ![![0, 1 / 259], ![1 / 259, 2 * (6 / 259)]])
    (fun s => by
      rw [modelOfCoef_predict, coefOf_quadratic]
      exact powell_family (1 / 259) (6 / 259) (by norm_num) s)
  let cc : Fin 6 → ℝ := coef
  have hl : List.ofFn coef = [cc 0, cc 1, cc 2, cc 3, cc 4, cc 5] := rfl
  rw [reshape_two _ (cc 3) (cc 4) (cc 5) (by rw [hl]; rfl)]
  have hs : ∀ f : Fin (nSecondOrderTerms 2) → ℝ, ∑ k, f k
      = f ⟨0, by decide⟩ + f ⟨1, by decide⟩ + f ⟨2, by decide⟩ := fun f =>
    Fin.sum_univ_three f
  rw [hs, hs] at hm
  have e1 : coefOf .quadratic 0 (![0, -(6 / 259)] : Vec ℝ 2) ![![0, 1 / 259], ![1 / 259, 2 * (6 / 259)]]
      (Fin.natAdd (2 + 1) (⟨0, by decide⟩ : Fin (nSecondOrderTerms 2))) = 0 := by
    have ht : triuIndices 2 = [(0, 0), (0, 1), (1, 1)] := by decide
    simp [coefOf, ht]
  have e2 : coefOf .quadratic 0 (![0, -(6 / 259)] : Vec ℝ 2) ![![0, 1 / 259], ![1 / 259, 2 * (6 / 259)]]
      (Fin.natAdd (2 + 1) (⟨1, by decide⟩ : Fin (nSecondOrderTerms 2))) = 1 / 259 := by
    have ht : triuIndices 2 = [(0, 0), (0, 1), (1, 1)] := by decide
    simp [coefOf, ht]
  have e3 : coefOf .quadratic 0 (![0, -(6 / 259)] : Vec ℝ 2) ![![0, 1 / 259], ![1 / 259, 2 * (6 / 259)]]
      (Fin.natAdd (2 + 1) (⟨2, by decide⟩ : Fin (nSecondOrderTerms 2))) = 6 / 259 := by
    have ht : triuIndices 2 = [(0, 0), (0, 1), (1, 1)] := by decide
    simp [coefOf, ht]
  rw [e1, e2, e3] at hm
  change cc 3 ^ 2 + cc 4 ^ 2 + cc 5 ^ 2 ≤ _ at hm
  have hval : ∀ s, (cc 0 + cc 1 * powellPoints s 0 + cc 2 * powellPoints s 1
      + cc 3 * powellPoints s 0 ^ 2 + cc 4 * (powellPoints s 0 * powellPoints s 1)
      + cc 5 * powellPoints s 1 ^ 2) = powellData s := by
    intro s
    rw [← hfit s, modelOfCoef_predict, coefDot_eq_zip, hl]
    have hr : featureRow .quadratic (powellPoints s) = [1, powellPoints s 0, powellPoints s 1,
        powellPoints s 0 * powellPoints s 0, powellPoints s 0 * powellPoints s 1,
        powellPoints s 1 * powellPoints s 1] := rfl
    rw [hr]
    simp only [List.zipWith_cons_cons, List.zipWith_nil_left, List.sum_cons, List.sum_nil]
    ring
  have v0 := hval 0
  have v1 := hval 1
  have v2 := hval 2
  have v3 := hval 3
  simp [powellPoints, powellData] at v0 v1 v2 v3
  set c3 := cc 3
  set c4 := cc 4
  set c5 := cc 5
  have hlin : 7 * c4 + 42 * c5 = 1 := by linarith
  have h5 : (c5 - 6 / 259) ^ 2 + c3 ^ 2 ≤ 0 := by
    have : c4 = 1 / 7 - 6 * c5 := by linarith
    rw [this] at hm
    nlinarith [sq_nonneg (c5 - 6 / 259)]
  have h6 : c5 = 6 / 259 := by
    have : (c5 - 6 / 259) ^ 2 = 0 := by nlinarith [sq_nonneg c3, sq_nonneg (c5 - 6 / 259)]
    have := pow_eq_zero_iff (two_ne_zero) |>.1 this
    linarith
  have h7 : c4 = 1 / 259 := by linarith
  simp only [Fin.sum_univ_two, h6, h7]
  norm_num
  nlinarith [sq_nonneg c3]

/-- C90 is not vacuous: a least squares solver and an orthogonal factor exist for these points. -/
example : ∃ (lstsq : Lstsq ℝ) (q : (Fin 4 → Vec ℝ 2) → Mat ℝ 4 4), LstsqSpec lstsq ∧
    QrSpec (linFeatures powellPoints) (q powellPoints) := by
  obtain ⟨l, hl⟩ := exists_lstsq
  exact ⟨l, fun _ => powellFactor, hl, powellFactor_spec⟩

end Tranquilo
