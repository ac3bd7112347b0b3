import Verif.Lemmas.FitCoef
import Verif.Lemmas.Lstsq
import Verif.Props.Models
import Mathlib.Tactic.Positivity

/-!
# C33 (coefficients), C34 (least squares), C35 (interpolation), C36 (number of parameters)
-/

namespace Tranquilo

variable {K : Type} [Field K] [LinearOrder K] [IsStrictOrderedRing K] {n m N p : Nat}

/-! ## C36 -/

omit [LinearOrder K] [IsStrictOrderedRing K] in
/-- C36: `n_free_params` is the number of columns of the feature matrix. -/
theorem C36_number_of_features (mt : ModelType) (x : Vec K n) :
    nFreeParams n mt.name = .ok (featureRow mt x).length := by
  rw [length_featureRow]
  cases mt <;> simp [nFreeParams, ModelType.name, nCols]

/-- C36: other names are rejected. -/
theorem C36_other_types_rejected (dim : Nat) (name : String) (h : ∀ mt : ModelType, name ≠ mt.name) :
    nFreeParams dim name = .error .valueError := by
  have h1 := h .linear
  have h2 := h .quadratic
  simp only [ModelType.name] at h1 h2
  simp [nFreeParams, h1, h2]

/-- C36: the count is the number of monomials of degree at most two (without order). -/
theorem C36_second_order_count (dim : Nat) :
    2 * nSecondOrderTerms dim = dim * (dim + 1) ∧
    nSecondOrderTerms dim = nInteractions dim + dim ∧
    nSecondOrderTerms dim = ((Finset.univ : Finset (Fin dim × Fin dim)).filter fun p => p.1 ≤ p.2).card := by
  have he : 2 ∣ dim * (dim + 1) := (Nat.even_mul_succ_self dim).two_dvd
  have h1 : 2 * nSecondOrderTerms dim = dim * (dim + 1) := Nat.mul_div_cancel' he
  have he2 : 2 ∣ dim * (dim - 1) := (Nat.even_mul_pred_self dim).two_dvd
  have h2 : 2 * nInteractions dim = dim * (dim - 1) := Nat.mul_div_cancel' he2
  refine ⟨h1, ?_, ?_⟩
  · cases dim with
    | zero => rfl
    | succ d =>
      simp only [Nat.add_sub_cancel] at h2
      have : (d + 1) * (d + 1 + 1) = (d + 1) * d + 2 * (d + 1) := by ring
      omega
  · rw [← length_triuIndices, ← List.toFinset_card_of_nodup (nodup_triuIndices dim)]
    congr 1
    ext p
    simp [mem_triuIndices]

/-! ## C33 -/

omit [LinearOrder K] [IsStrictOrderedRing K] in
/-- C33: the features of a point are 1, its entries, and the products of every unordered pair of
entries exactly once. -/
theorem C33_features (x : Vec K n) :
    featureRow .linear x = 1 :: List.ofFn x ∧
    ∃ pairs : List (Fin n × Fin n), pairs.Nodup ∧ (∀ p, p ∈ pairs ↔ p.1 ≤ p.2) ∧
      featureRow .quadratic x = 1 :: (List.ofFn x ++ pairs.map fun p => x p.1 * x p.2) :=
  ⟨rfl, triuIndices n, nodup_triuIndices n, mem_triuIndices, by simp [featureRow, quadraticTerms_eq]⟩

/-- C33: the assembled model predicts the inner product of coefficients and features, its second order
terms are symmetric, present exactly for quadratic models. -/
theorem C33_prediction_is_inner_product (mt : ModelType) (coef : Fin m → Vec K (nCols n mt))
    (shift scale : Vec K n) :
    (∀ (u : Vec K n) (k : Fin m), (modelOfCoef mt coef shift scale).predict u k
      = ∑ j, coef k j * featureMatrix mt (fun _ : Fin 1 => u) 0 j) ∧
    ((modelOfCoef mt coef shift scale).squareTerms.isSome ↔ mt = .quadratic) ∧
    ∀ h, (modelOfCoef mt coef shift scale).squareTerms = some h → ∀ k, SymmetricMat (h k) := by
  refine ⟨fun u k => modelOfCoef_predict mt coef shift scale u k, ?_, ?_⟩
  · cases mt <;> simp [modelOfCoef]
  · intro h hh k i j
    cases mt with
    | linear => simp [modelOfCoef] at hh
    | quadratic =>
      simp only [modelOfCoef, Option.some.injEq] at hh
      subst hh
      have hzero : ∀ (c : List K) (i j : Fin n), ¬ i ≤ j →
          ((triuIndices n).zip c).lookup (i, j) = none := by
        intro c i j hij
        rw [List.lookup_eq_none_iff]
        intro p hp
        have hmem : p.1 ∈ triuIndices n := (List.of_mem_zip hp).1
        rw [mem_triuIndices] at hmem
        simp only [bne_iff_ne, ne_eq]
        intro h
        rw [← h] at hmem
        exact hij hmem
      simp only [reshapeToHess]
      rcases lt_trichotomy i j with hij | hij | hij
      · rw [if_neg (not_le.2 hij), if_pos hij.le, hzero _ j i (not_le.2 hij)]; simp
      · subst hij; rfl
      · rw [if_pos hij.le, if_neg (not_le.2 hij), hzero _ i j (not_le.2 hij)]; simp

/-- C33 for arrays of points: there is one row for each point, in the order of the points, and entry `k` of row `s` is the
inner product of the coefficients of residual `k` with the features of point `s`. -/
theorem C33_predictions_of_many_points (mt : ModelType) (coef : Fin m → Vec K (nCols n mt)) (shift scale : Vec K n)
    (xs : List (Vec K n)) :
    ((modelOfCoef mt coef shift scale).predictMany xs).length = xs.length ∧
    ∀ (s : Nat) (hs : s < xs.length), ∃ row, ((modelOfCoef mt coef shift scale).predictMany xs)[s]? = some row ∧
      ∀ k, row k = ∑ j, coef k j * featureMatrix mt (fun _ : Fin 1 => xs[s]) 0 j := by
  refine ⟨by simp [VectorModel.predictMany], fun s hs => ⟨_, ?_, fun k => modelOfCoef_predict mt coef shift scale _ k⟩⟩
  simp [VectorModel.predictMany, List.getElem?_eq_getElem hs]

/-- C33, example: coefficients of `3 + 2 x_0 - x_1 + x_0^2 + 4 x_0 x_1 + 5 x_1^2` at (1, 2). -/
example : (modelOfCoef (m := 1) (n := 2) .quadratic (fun _ => (![3, 2, -1, 1, 4, 5] : Vec ℚ 6))
    (fun _ => 0) (fun _ => 1)).predict ![1, 2] 0 = 3 + 2 - 2 + 1 + 8 + 20 := by
  decide +kernel

/-! ## C34 -/

omit [LinearOrder K] [IsStrictOrderedRing K] in
theorem featureMatrix_dot (mt : ModelType) (xs : Fin N → Vec K n) (c : Vec K (nCols n mt)) (s : Fin N) :
    ∑ k, featureMatrix mt xs s k * c k = coefDot mt c (xs s) :=
  Finset.sum_congr rfl fun k _ => mul_comm _ _

theorem weighted_resid (root : K → K) (hroot : RootSpec root) (w : Option (Vec K N))
    (hw : ∀ s, 0 ≤ weightsOf w s) (a : Mat K N p) (y : Vec K N) (c : Vec K p) :
    residSq (weightMat root w a) (weightVec root w y) c
      = ∑ s, weightsOf w s * ((∑ k, a s k * c k) - y s) ^ 2 := by
  unfold residSq
  refine Finset.sum_congr rfl fun s _ => ?_
  cases w with
  | none => simp [weightMat, weightVec, weightsOf]
  | some w =>
    have h := hroot (w s) (hw s)
    have h2 : ∑ k, a s k * root (w s) * c k = root (w s) * ∑ k, a s k * c k := by
      rw [Finset.mul_sum]; exact Finset.sum_congr rfl fun k _ => by ring
    simp only [weightMat, weightVec, weightsOf]
    rw [h2]
    calc (root (w s) * ∑ k, a s k * c k - y s * root (w s)) ^ 2
        = (root (w s) * root (w s)) * ((∑ k, a s k * c k) - y s) ^ 2 := by ring
      _ = _ := by rw [h]

theorem resid_features (root : K → K) (hroot : RootSpec root) (w : Option (Vec K N))
    (hw : ∀ s, 0 ≤ weightsOf w s) (mt : ModelType) (xs : Fin N → Vec K n) (y : Vec K N)
    (c : Vec K (nCols n mt)) :
    residSq (weightMat root w (featureMatrix mt xs)) (weightVec root w y) c
      = predError (weightsOf w) xs y (coefDot mt c) := by
  rw [weighted_resid root hroot w hw]
  unfold predError
  refine Finset.sum_congr rfl fun s _ => ?_
  rw [featureMatrix_dot]

/-- Combinations of features are exactly the polynomials of the model type. -/
theorem isPoly_iff (mt : ModelType) (f : Vec K n → K) :
    IsPoly mt f ↔ ∃ c : Vec K (nCols n mt), ∀ u, f u = coefDot mt c u := by
  constructor
  · rintro ⟨c, g, sq, h1, h2⟩
    cases mt with
    | linear =>
      have := h1 rfl
      subst this
      exact ⟨coefOf .linear c g (fun _ _ => 0), fun u => by rw [h2, coefOf_linear]⟩
    | quadratic =>
      refine ⟨coefOf .quadratic c g (sq.getD fun _ _ => 0), fun u => ?_⟩
      rw [h2, coefOf_quadratic]
      cases sq with
      | none => simp [polyVal]
      | some h => rfl
  · rintro ⟨c, h⟩
    have h2 := fun u => modelOfCoef_predict (m := 1) mt (fun _ => c) (fun _ => 0) (fun _ => 0) u 0
    refine ⟨_, _, _, ?_, fun u => by rw [h, ← h2 u, VectorModel.predict_eq]⟩
    rintro rfl
    rfl

/-- C34, `fit_ols`: the model that is built from the coefficients is a polynomial of the model type,
and no polynomial of that type has a smaller weighted sum of squared errors. -/
theorem C34_ols (lstsq : Lstsq K) (hl : LstsqSpec lstsq) (root : K → K) (hroot : RootSpec root)
    (mt : ModelType) (xs : Fin N → Vec K n) (y : Vec K N) (w : Option (Vec K N))
    (hw : ∀ s, 0 ≤ weightsOf w s) (shift scale : Vec K n) :
    let model := modelOfCoef (m := 1) mt (fun _ => fitOls lstsq root mt xs y w) shift scale
    IsPoly mt (fun u => model.predict u 0) ∧
    ∀ f, IsPoly mt f →
      predError (weightsOf w) xs y (fun u => model.predict u 0) ≤ predError (weightsOf w) xs y f := by
  intro model
  have hm : (fun u => model.predict u 0) = coefDot mt (fitOls lstsq root mt xs y w) :=
    funext fun u => modelOfCoef_predict mt _ shift scale u 0
  rw [hm]
  refine ⟨(isPoly_iff mt _).2 ⟨_, fun _ => rfl⟩, fun f hf => ?_⟩
  obtain ⟨c, hc⟩ := (isPoly_iff mt f).1 hf
  rw [show f = coefDot mt c from funext hc, ← resid_features root hroot w hw,
    ← resid_features root hroot w hw]
  exact hl.least _ _ _ _ _

theorem byTerm_mul (n : Nat) (a b c a' b' c' : K) (k : Nat) :
    byTerm n a b c k * byTerm n a' b' c' k = byTerm n (a * a') (b * b') (c * c') k := by
  unfold byTerm; split
  · rfl
  · split <;> rfl

theorem byTerm_const (n : Nat) (a : K) (k : Nat) : byTerm n a a a k = a := by
  unfold byTerm; simp

/-- C34, `fit_tranquilo`: a least squares fit over all polynomials of the model type; among all
coefficient vectors with the same errors, the one with the smallest norm after multiplying the
intercept, linear and second order coefficients with their penalties. -/
theorem C34_tranquilo (lstsq : Lstsq K) (hl : LstsqSpec lstsq) (root : K → K) (hroot : RootSpec root)
    (pInt pLin pSq : K) (h1 : pInt ≠ 0) (h2 : pLin ≠ 0) (h3 : pSq ≠ 0)
    (mt : ModelType) (xs : Fin N → Vec K n) (y : Vec K N) (w : Option (Vec K N))
    (hw : ∀ s, 0 ≤ weightsOf w s) (shift scale : Vec K n) :
    let coef := fitTranquilo lstsq root pInt pLin pSq mt xs y w
    let model := modelOfCoef (m := 1) mt (fun _ => coef) shift scale
    let penalty : Vec K (nCols n mt) := fun k =>
      if k.val = 0 then pInt else if k.val ≤ n then pLin else pSq
    IsPoly mt (fun u => model.predict u 0) ∧
    (∀ f, IsPoly mt f →
      predError (weightsOf w) xs y (fun u => model.predict u 0) ≤ predError (weightsOf w) xs y f) ∧
    (∀ c : Vec K (nCols n mt),
      predError (weightsOf w) xs y (fun u => (modelOfCoef (m := 1) mt (fun _ => c) shift scale).predict u 0)
        = predError (weightsOf w) xs y (fun u => model.predict u 0) →
      ∑ k, (penalty k * coef k) ^ 2 ≤ ∑ k, (penalty k * c k) ^ 2) := by
  intro coef model penalty
  set factor : Vec K (nCols n mt) := fun k => byTerm n (1 / pInt) (1 / pLin) (1 / pSq) k with hfac
  set A := weightMat root w (featureMatrix mt xs) with hA
  set b := weightVec root w y with hb
  set raw := lstsq N (nCols n mt) (fun s k => A s k * factor k) b with hraw
  have hcoef : coef = fun k => raw k * factor k := rfl
  have hpen : ∀ k, penalty k = byTerm n pInt pLin pSq k.val := by
    intro k
    simp only [penalty, byTerm]
    by_cases h0 : k.val = 0
    · simp [h0]
    · have : ¬ k.val < 1 := by omega
      simp [h0, Nat.lt_succ_iff]
  have hpf : ∀ k, penalty k * factor k = 1 := by
    intro k
    rw [hpen, hfac, byTerm_mul, mul_one_div_cancel h1, mul_one_div_cancel h2, mul_one_div_cancel h3,
      byTerm_const]
  have hscale : ∀ c : Vec K (nCols n mt),
      residSq (fun s k => A s k * factor k) b (fun k => penalty k * c k) = residSq A b c := by
    intro c
    unfold residSq
    refine Finset.sum_congr rfl fun s _ => ?_
    congr 2
    refine Finset.sum_congr rfl fun k _ => ?_
    calc A s k * factor k * (penalty k * c k) = A s k * (penalty k * factor k) * c k := by ring
      _ = _ := by rw [hpf, mul_one]
  have hback : (fun k => penalty k * coef k) = raw := by
    funext k
    rw [hcoef]
    calc penalty k * (raw k * factor k) = raw k * (penalty k * factor k) := by ring
      _ = _ := by rw [hpf, mul_one]
  have hmc : ∀ c : Vec K (nCols n mt),
      (fun u => (modelOfCoef (m := 1) mt (fun _ => c) shift scale).predict u 0) = coefDot mt c :=
    fun c => funext fun u => modelOfCoef_predict mt _ shift scale u 0
  have hm : (fun u => model.predict u 0) = coefDot mt coef := hmc coef
  have hcoefres : residSq A b coef = residSq (fun s k => A s k * factor k) b raw := by
    rw [← hscale, hback]
  rw [hm]
  refine ⟨(isPoly_iff mt _).2 ⟨_, fun _ => rfl⟩, fun f hf => ?_, fun c hc => ?_⟩
  · obtain ⟨c, hc⟩ := (isPoly_iff mt f).1 hf
    rw [show f = coefDot mt c from funext hc, ← resid_features root hroot w hw,
      ← resid_features root hroot w hw, hcoefres, ← hscale c]
    exact hl.least _ _ _ _ _
  · rw [hmc, ← resid_features root hroot w hw, ← resid_features root hroot w hw, hcoefres,
      ← hscale c] at hc
    have := hl.shortest _ _ _ _ _ hc
    rw [show (∑ k, (penalty k * coef k) ^ 2) = ∑ k, raw k ^ 2 by rw [← hback]]
    exact this

/-- A minimizer of the residual satisfies the normal equations. -/
theorem normal_equations (a : Mat K N p) (y : Vec K N) (z : Vec K p)
    (h : ∀ c, residSq a y z ≤ residSq a y c) (i : Fin p) :
    ∑ s, a s i * ((∑ k, a s k * z k) - y s) = 0 := by
  set g := ∑ s, a s i * ((∑ k, a s k * z k) - y s) with hg
  set q := ∑ s, a s i ^ 2 with hq
  have hq0 : 0 ≤ q := Finset.sum_nonneg fun s _ => sq_nonneg _
  have key : ∀ t : K, 0 ≤ 2 * t * g + t ^ 2 * q := by
    intro t
    have := h (fun k => z k + if k = i then t else 0)
    have e : residSq a y (fun k => z k + if k = i then t else 0)
        = residSq a y z + (2 * t * g + t ^ 2 * q) := by
      unfold residSq
      rw [hg, hq, Finset.mul_sum, Finset.mul_sum, ← Finset.sum_add_distrib, ← Finset.sum_add_distrib]
      refine Finset.sum_congr rfl fun s _ => ?_
      have : ∑ k, a s k * (z k + if k = i then t else 0) = (∑ k, a s k * z k) + a s i * t := by
        simp only [mul_add, Finset.sum_add_distrib]
        congr 1
        simp
      rw [this]; ring
    rw [e] at this
    linarith
  by_contra hne
  rcases hq0.lt_or_eq with hpos | hzero
  · have := key (-g / q)
    have e : 2 * (-g / q) * g + (-g / q) ^ 2 * q = -(g ^ 2 / q) := by field_simp; ring
    rw [e] at this
    have : 0 < g ^ 2 / q := by positivity
    linarith
  · have := key (-g)
    rw [← hzero] at this
    have : 0 < g ^ 2 := by positivity
    nlinarith

/-- C34, `fit_ridge`: the coefficients minimize the weighted squared errors plus the penalties
(intercept without penalty). -/
theorem C34_ridge (lstsq : Lstsq K) (hl : LstsqSpec lstsq) (root : K → K) (hroot : RootSpec root)
    (penLin penSq : K) (h2 : 0 ≤ penLin) (h3 : 0 ≤ penSq)
    (mt : ModelType) (xs : Fin N → Vec K n) (y : Vec K N) (w : Option (Vec K N))
    (hw : ∀ s, 0 ≤ weightsOf w s) (shift scale : Vec K n) :
    let coef := fitRidge lstsq root penLin penSq mt xs y w
    let model := fun c : Vec K (nCols n mt) => modelOfCoef (m := 1) mt (fun _ => c) shift scale
    let penalty : Vec K (nCols n mt) := fun k =>
      if k.val = 0 then 0 else if k.val ≤ n then penLin else penSq
    ∀ c : Vec K (nCols n mt),
      predError (weightsOf w) xs y (fun u => (model coef).predict u 0) + ∑ k, penalty k * coef k ^ 2
        ≤ predError (weightsOf w) xs y (fun u => (model c).predict u 0) + ∑ k, penalty k * c k ^ 2 := by
  intro coef model penalty c
  have hmc : ∀ c : Vec K (nCols n mt), (fun u => (model c).predict u 0) = coefDot mt c :=
    fun c => funext fun u => modelOfCoef_predict mt _ shift scale u 0
  set X := weightMat root w (featureMatrix mt xs) with hX
  set b := weightVec root w y with hb
  have hpen : (fun k : Fin (nCols n mt) => byTerm n 0 penLin penSq k.val) = penalty := by
    funext k
    simp only [penalty, byTerm]
    by_cases h0 : k.val = 0
    · simp [h0]
    · have : ¬ k.val < 1 := by omega
      simp [h0, Nat.lt_succ_iff]
  have hpen0 : ∀ k, 0 ≤ penalty k := by
    intro k; simp only [penalty]; split
    · exact le_rfl
    · split <;> assumption
  rw [hmc, hmc, ← resid_features root hroot w hw, ← resid_features root hroot w hw]
  -- the system that is solved
  set G : Mat K (nCols n mt) (nCols n mt) := fun i j => (∑ s, X s i * X s j) + if i = j then penalty i else 0
    with hG
  set v : Vec K (nCols n mt) := fun i => ∑ s, X s i * b s with hv
  have hcoef : coef = lstsq _ _ G v := by
    simp only [hG, ← hpen]
    rfl
  have hGmul : ∀ (z : Vec K (nCols n mt)) (i), ∑ k, G i k * z k
      = (∑ s, X s i * ∑ k, X s k * z k) + penalty i * z i := by
    intro z i
    simp only [hG, add_mul, Finset.sum_add_distrib]
    congr 1
    · simp only [Finset.sum_mul, Finset.mul_sum]
      rw [Finset.sum_comm]
      exact Finset.sum_congr rfl fun s _ => Finset.sum_congr rfl fun k _ => by ring
    · simp
  have hGsymm : ∀ i j, G i j = G j i := by
    intro i j
    simp only [hG]
    congr 1
    · exact Finset.sum_congr rfl fun s _ => mul_comm _ _
    · by_cases h : i = j
      · subst h; rfl
      · rw [if_neg h, if_neg (Ne.symm h)]
  set r : Vec K (nCols n mt) := fun i => (∑ k, G i k * coef k) - v i with hr
  have hne : ∀ i, ∑ s, G s i * r s = 0 := by
    intro i
    have := normal_equations G v coef (by rw [hcoef]; exact hl.least _ _ _ _) i
    exact this
  have hGr : ∀ i, ∑ k, G i k * r k = 0 := fun i => by
    rw [← hne i]; exact Finset.sum_congr rfl fun k _ => by rw [hGsymm]
  have hquad : ∀ z u : Vec K (nCols n mt), ∑ i, u i * ∑ k, G i k * z k
      = (∑ s, (∑ k, X s k * u k) * ∑ k, X s k * z k) + ∑ i, penalty i * u i * z i := by
    intro z u
    simp only [hGmul, mul_add, Finset.sum_add_distrib]
    congr 1
    · simp only [Finset.mul_sum]
      rw [Finset.sum_comm]
      refine Finset.sum_congr rfl fun s _ => ?_
      rw [Finset.sum_comm]
      refine Finset.sum_congr rfl fun k _ => ?_
      rw [Finset.sum_mul]
      exact Finset.sum_congr rfl fun i _ => by ring
    · exact Finset.sum_congr rfl fun i _ => by ring
  have hrr := hquad r r
  simp only [hGr, mul_zero, Finset.sum_const_zero] at hrr
  have hXr : ∀ s, ∑ k, X s k * r k = 0 := by
    have hn1 : 0 ≤ ∑ s, (∑ k, X s k * r k) * ∑ k, X s k * r k :=
      Finset.sum_nonneg fun s _ => mul_self_nonneg _
    have hn2 : 0 ≤ ∑ i, penalty i * r i * r i :=
      Finset.sum_nonneg fun i _ => by rw [mul_assoc]; exact mul_nonneg (hpen0 i) (mul_self_nonneg _)
    have h0 : ∑ s, (∑ k, X s k * r k) * ∑ k, X s k * r k = 0 := by linarith
    intro s
    have := (Finset.sum_eq_zero_iff_of_nonneg (fun s _ => mul_self_nonneg _)).1 h0 s (Finset.mem_univ s)
    exact mul_self_eq_zero.1 this
  have hrzero : ∀ i, r i = 0 := by
    have h1 : ∑ i, r i * r i = 0 := by
      have e1 : ∑ i, r i * r i = (∑ i, r i * ∑ k, G i k * coef k) - ∑ i, r i * v i := by
        rw [← Finset.sum_sub_distrib]
        exact Finset.sum_congr rfl fun i _ => by simp only [hr]; ring
      have e2 : ∑ i, r i * ∑ k, G i k * coef k = 0 := by
        simp only [Finset.mul_sum]
        rw [Finset.sum_comm]
        refine Finset.sum_eq_zero fun k _ => ?_
        calc ∑ i, r i * (G i k * coef k) = (∑ i, G k i * r i) * coef k := by
              rw [Finset.sum_mul]; exact Finset.sum_congr rfl fun i _ => by rw [hGsymm k i]; ring
          _ = 0 := by rw [hGr, zero_mul]
      have e3 : ∑ i, r i * v i = 0 := by
        simp only [hv, Finset.mul_sum]
        rw [Finset.sum_comm]
        refine Finset.sum_eq_zero fun s _ => ?_
        calc ∑ i, r i * (X s i * b s) = (∑ i, X s i * r i) * b s := by
              rw [Finset.sum_mul]; exact Finset.sum_congr rfl fun i _ => by ring
          _ = 0 := by rw [hXr, zero_mul]
      rw [e1, e2, e3, sub_zero]
    intro i
    have := (Finset.sum_eq_zero_iff_of_nonneg (fun i _ => mul_self_nonneg (r i))).1 h1 i (Finset.mem_univ i)
    exact mul_self_eq_zero.1 this
  -- hence the first order condition holds and the objective is convex
  have hfoc : ∀ u : Vec K (nCols n mt),
      (∑ s, (∑ k, X s k * u k) * ((∑ k, X s k * coef k) - b s)) + ∑ i, penalty i * u i * coef i = 0 := by
    intro u
    have h1 := hquad coef u
    have h2 : ∑ i, u i * ∑ k, G i k * coef k = ∑ i, u i * v i := by
      refine Finset.sum_congr rfl fun i _ => ?_
      have := hrzero i
      simp only [hr, sub_eq_zero] at this
      rw [this]
    have h3 : ∑ i, u i * v i = ∑ s, (∑ k, X s k * u k) * b s := by
      simp only [hv, Finset.mul_sum, Finset.sum_mul]
      rw [Finset.sum_comm]
      exact Finset.sum_congr rfl fun s _ => Finset.sum_congr rfl fun k _ => by ring
    rw [h2, h3] at h1
    simp only [mul_sub, Finset.sum_sub_distrib]
    linarith
  set d : Vec K (nCols n mt) := fun k => c k - coef k with hd
  have hexp : residSq X b c + ∑ k, penalty k * c k ^ 2
      = residSq X b coef + ∑ k, penalty k * coef k ^ 2
        + 2 * ((∑ s, (∑ k, X s k * d k) * ((∑ k, X s k * coef k) - b s)) + ∑ i, penalty i * d i * coef i)
        + (∑ s, (∑ k, X s k * d k) ^ 2 + ∑ k, penalty k * d k ^ 2) := by
    have e1 : residSq X b c = residSq X b coef
        + 2 * (∑ s, (∑ k, X s k * d k) * ((∑ k, X s k * coef k) - b s)) + ∑ s, (∑ k, X s k * d k) ^ 2 := by
      unfold residSq
      rw [Finset.mul_sum, ← Finset.sum_add_distrib, ← Finset.sum_add_distrib]
      refine Finset.sum_congr rfl fun s _ => ?_
      have : ∑ k, X s k * c k = (∑ k, X s k * coef k) + ∑ k, X s k * d k := by
        rw [← Finset.sum_add_distrib]
        exact Finset.sum_congr rfl fun k _ => by simp only [hd]; ring
      rw [this]; ring
    have e2 : ∑ k, penalty k * c k ^ 2 = ∑ k, penalty k * coef k ^ 2
        + 2 * (∑ i, penalty i * d i * coef i) + ∑ k, penalty k * d k ^ 2 := by
      rw [Finset.mul_sum, ← Finset.sum_add_distrib, ← Finset.sum_add_distrib]
      exact Finset.sum_congr rfl fun k _ => by simp only [hd]; ring
    rw [e1, e2]; ring
  rw [hexp, hfoc d]
  have hp1 : 0 ≤ ∑ s, (∑ k, X s k * d k) ^ 2 := Finset.sum_nonneg fun s _ => sq_nonneg _
  have hp2 : 0 ≤ ∑ k, penalty k * d k ^ 2 :=
    Finset.sum_nonneg fun k _ => mul_nonneg (hpen0 k) (sq_nonneg _)
  linarith

/-- The hypotheses of C34 can be met: over the reals there is an `lstsq` and a root. -/
example : ∃ (lstsq : Lstsq ℝ) (root : ℝ → ℝ), LstsqSpec lstsq ∧ RootSpec root := by
  obtain ⟨l, hl⟩ := exists_lstsq
  exact ⟨l, Real.sqrt, hl, fun w hw => Real.mul_self_sqrt hw⟩

/-! ## C35 -/

/-- A fitter that reproduces the data whenever a polynomial of the model type does. -/
def FitterInterpolates (mt : ModelType)
    (fitter : (Fin N → Vec K n) → Vec K N → Vec K (nCols n mt)) : Prop :=
  ∀ xs y, (∃ f, IsPoly mt f ∧ ∀ s, f (xs s) = y s) →
    ∀ s, (modelOfCoef (m := 1) mt (fun _ => fitter xs y) (fun _ => 0) (fun _ => 1)).predict (xs s) 0 = y s

theorem predError_zero (w : Vec K N) (hw : ∀ s, 0 < w s) (xs : Fin N → Vec K n) (y : Vec K N)
    (f g : Vec K n → K) (hg : ∀ s, g (xs s) = y s) (h : predError w xs y f ≤ predError w xs y g)
    (s : Fin N) : f (xs s) = y s := by
  have h0 : predError w xs y g = 0 := by
    unfold predError; exact Finset.sum_eq_zero fun s _ => by rw [hg]; ring
  have h1 : ∀ s, 0 ≤ w s * (f (xs s) - y s) ^ 2 := fun s => mul_nonneg (hw s).le (sq_nonneg _)
  have h2 : predError w xs y f = 0 := le_antisymm (h0 ▸ h) (Finset.sum_nonneg fun s _ => h1 s)
  have h3 := (Finset.sum_eq_zero_iff_of_nonneg (fun s _ => h1 s)).1 h2 s (Finset.mem_univ s)
  rcases mul_eq_zero.1 h3 with h4 | h4
  · exact absurd h4 (hw s).ne'
  · exact sub_eq_zero.1 (by simpa using h4)

/-- C35, `fit_ols`. -/
theorem C35_ols (lstsq : Lstsq K) (hl : LstsqSpec lstsq) (root : K → K) (hroot : RootSpec root)
    (mt : ModelType) (w : Option (Vec K N)) (hw : ∀ s, 0 < weightsOf w s) :
    FitterInterpolates (n := n) mt fun xs y => fitOls lstsq root mt xs y w := by
  rintro xs y ⟨f, hf, hfy⟩ s
  have h := (C34_ols lstsq hl root hroot mt xs y w (fun s => (hw s).le) (fun _ => 0) (fun _ => 1)).2 f hf
  exact predError_zero _ hw xs y _ f hfy h s

/-- C35, `fit_tranquilo`. -/
theorem C35_tranquilo (lstsq : Lstsq K) (hl : LstsqSpec lstsq) (root : K → K) (hroot : RootSpec root)
    (pInt pLin pSq : K) (h1 : pInt ≠ 0) (h2 : pLin ≠ 0) (h3 : pSq ≠ 0)
    (mt : ModelType) (w : Option (Vec K N)) (hw : ∀ s, 0 < weightsOf w s) :
    FitterInterpolates (n := n) mt fun xs y => fitTranquilo lstsq root pInt pLin pSq mt xs y w := by
  rintro xs y ⟨f, hf, hfy⟩ s
  have h := (C34_tranquilo lstsq hl root hroot pInt pLin pSq h1 h2 h3 mt xs y w (fun s => (hw s).le)
    (fun _ => 0) (fun _ => 1)).2.1 f hf
  exact predError_zero _ hw xs y _ f hfy h s

theorem isPoly_sub (mt : ModelType) (f g : Vec K n → K) (hf : IsPoly mt f) (hg : IsPoly mt g) :
    IsPoly mt fun u => f u - g u := by
  rw [isPoly_iff] at hf hg ⊢
  obtain ⟨c, hc⟩ := hf
  obtain ⟨d, hd⟩ := hg
  refine ⟨fun k => c k - d k, fun u => ?_⟩
  rw [hc, hd]
  unfold coefDot
  rw [← Finset.sum_sub_distrib]
  exact Finset.sum_congr rfl fun k _ => by ring

/-- The second order terms of the old model fit the requested type: present for quadratic models,
absent or zero for linear ones (the initial model has zeros, tranquilo.py:62-68). -/
def OldModelOk (mt : ModelType) (old : VectorModel K n m) : Prop :=
  match mt with
  | .quadratic => old.squareTerms.isSome
  | .linear => ∀ h, old.squareTerms = some h → ∀ k i j, h k i j = 0

/-- C35 for the whole fitting step: without and with residualizing against an old model, the model is
returned and reproduces the (clipped) data at all sample points if some model of the requested type
does. -/
theorem C35_fit_reproduces_data (cr : K → K) (mt : ModelType)
    (fitter : (Fin N → Vec K n) → Vec K N → Vec K (nCols n mt)) (hfit : FitterInterpolates mt fitter)
    (clip : (Fin N → Fin m → XVal K) → (Fin N → Fin m → K)) (residualize : Bool)
    (region : Region K n)
    (old : VectorModel K n m) (hold : residualize = true → OldModelOk mt old)
    (holdscale : residualize = true → ∀ i, old.scale i ≠ 0)
    (xs : Fin N → Vec K n) (y : Fin N → Fin m → XVal K)
    (hdata : ∀ k, ∃ f, IsPoly mt f ∧ ∀ s, f (region.mapToUnit cr (xs s)) = clip y s k) :
    ∃ v, fitModel cr mt fitter clip residualize region old xs y = .ok v ∧
      v.FittedOn cr region ∧
      ∀ s k, v.predict (region.mapToUnit cr (xs s)) k = clip y s k := by
  have hcd : ∀ (shift scale : Vec K n) (coef : Fin m → Vec K (nCols n mt)) (u : Vec K n) (k : Fin m),
      (modelOfCoef mt coef shift scale).predict u k
        = (modelOfCoef (m := 1) mt (fun _ => coef k) (fun _ => 0) (fun _ => 1)).predict u 0 := by
    intro shift scale coef u k
    rw [modelOfCoef_predict, modelOfCoef_predict]
  cases residualize with
  | false =>
    simp only [fitModel]
    refine ⟨_, rfl, ⟨rfl, rfl⟩, fun s k => ?_⟩
    rw [hcd]
    exact hfit _ _ (by obtain ⟨f, hf, hfy⟩ := hdata k; exact ⟨f, hf, fun s => by simpa using hfy s⟩) s
  | true =>
    have hold := hold rfl
    have holdscale := holdscale rfl
    simp only [fitModel, if_true]
    set moved := old.move cr region with hmoved
    set coef : Fin m → Vec K (nCols n mt) := fun k => fitter (fun s => region.mapToUnit cr (xs s))
      fun s => clip y s k - moved.predict (region.mapToUnit cr (xs s)) k with hcoef
    set res := modelOfCoef mt coef (region.effectiveCenter cr) (region.effectiveRadius cr) with hres
    have hshift : moved.shift = region.effectiveCenter cr := by
      funext i; simp [hmoved, VectorModel.move, VectorModel.scaleBy, VectorModel.shiftBy]
    have hscale : moved.scale = region.effectiveRadius cr := by
      funext i
      have := holdscale i
      simp only [hmoved, VectorModel.move, VectorModel.scaleBy, VectorModel.shiftBy]
      field_simp
    have hclose : ∀ a : Vec K n, Close a a := by
      intro a i
      rw [sub_self, abs_zero]
      have : 0 ≤ |a i| := abs_nonneg _
      positivity
    have hsq : (moved.squareTerms = none ↔ old.squareTerms = none) := by
      simp [hmoved, VectorModel.move, VectorModel.scaleBy, VectorModel.shiftBy]
    have hzero : mt = .linear → ∀ h, moved.squareTerms = some h → ∀ k i j, h k i j = 0 := by
      rintro rfl h hh k i j
      simp only [OldModelOk] at hold
      simp only [hmoved, VectorModel.move, VectorModel.scaleBy, VectorModel.shiftBy] at hh
      cases ho : old.squareTerms with
      | none => rw [ho] at hh; simp at hh
      | some q =>
        rw [ho] at hh
        simp only [Option.map_some, Option.some.injEq] at hh
        subst hh
        simp [hold q ho]
    have hpoly : ∀ k, IsPoly mt fun u => moved.predict u k := by
      intro k
      cases hmt : mt with
      | quadratic =>
        exact ⟨_, _, _, ⟨fun h => (nomatch h), fun u => VectorModel.predict_eq moved u k⟩⟩
      | linear =>
        refine ⟨moved.intercepts k, moved.linearTerms k, none, fun _ => rfl, fun u => ?_⟩
        show moved.predict u k = _
        rw [VectorModel.predict_eq]
        cases hm : moved.squareTerms with
        | none => rfl
        | some h => simp [polyVal, hzero hmt h hm]
    have hadd : ∃ v, res.add moved = .ok v := by
      have h1 : allClose res.shift moved.shift = true := by
        rw [allClose_iff, hshift]; exact hclose _
      have h2 : allClose res.scale moved.scale = true := by
        rw [allClose_iff, hscale]; exact hclose _
      simp only [VectorModel.add, h1, h2]
      cases hmt : mt with
      | linear =>
        have : res.squareTerms = none := by rw [hres]; subst hmt; rfl
        rw [this]; exact ⟨_, rfl⟩
      | quadratic =>
        have h3 : ∃ q, res.squareTerms = some q := by rw [hres]; subst hmt; exact ⟨_, rfl⟩
        obtain ⟨q, hq⟩ := h3
        have h4 : ∃ q, moved.squareTerms = some q := by
          subst hmt
          simp only [OldModelOk] at hold
          rw [← Option.ne_none_iff_exists']
          intro h0
          rw [hsq.1 h0] at hold
          cases hold
        obtain ⟨q', hq'⟩ := h4
        rw [hq, hq']; exact ⟨_, rfl⟩
    obtain ⟨v, hv⟩ := hadd
    refine ⟨v, hv, ?_⟩
    have hsum := C32_vector_models_partial res moved v hv (by
      cases hmt : mt with
      | linear => right; right; exact hzero hmt
      | quadratic => left; rw [hres]; subst hmt; rfl)
    obtain ⟨-, -, hs1, hs2, hpred⟩ := hsum
    refine ⟨⟨hs1, hs2⟩, fun s k => ?_⟩
    rw [hpred, hres, hcd]
    have := hfit (fun s => region.mapToUnit cr (xs s))
      (fun s => clip y s k - moved.predict (region.mapToUnit cr (xs s)) k) (by
        obtain ⟨f, hf, hfy⟩ := hdata k
        exact ⟨_, isPoly_sub mt f _ hf (hpoly k), fun s => by rw [hfy]⟩) s
    rw [hcoef]
    simp only
    rw [this]
    ring

/-- C35 is not vacuous: over the reals there is a fitter as required, and data on a line. -/
example : ∃ fitter : (Fin 3 → Vec ℝ 1) → Vec ℝ 3 → Vec ℝ (nCols 1 .linear),
    FitterInterpolates .linear fitter ∧
    ∃ f : Vec ℝ 1 → ℝ, IsPoly .linear f ∧ f (fun _ => 0) = 1 ∧ f (fun _ => 1) = 3 := by
  obtain ⟨l, hl⟩ := exists_lstsq
  refine ⟨_, C35_ols l hl Real.sqrt (fun w hw => Real.mul_self_sqrt hw) .linear none
    (fun s => by simp [weightsOf]), fun u => 1 + 2 * u 0, ⟨1, fun _ => 2, none, fun _ => rfl, ?_⟩, ?_, ?_⟩
  · intro u; simp [polyVal]
  · norm_num
  · norm_num

end Tranquilo
