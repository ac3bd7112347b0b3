import Verif.Spec.Samples
import Verif.Props.Fit
import Verif.Props.BuiltinFit
import Verif.Props.Powell

/-!
# C109: the fitted model depends on the data, not on their order; weights count points
-/

namespace Tranquilo

variable {K : Type} [Field K] [LinearOrder K] [IsStrictOrderedRing K] {n m N M p : Nat}

/-- The shortest least squares solution is determined by the residuals as function of the coefficients. -/
theorem lstsq_determined {lstsq : Lstsq K} (hl : LstsqSpec lstsq) (a : Mat K N p) (y : Vec K N) (a' : Mat K M p)
    (y' : Vec K M) (t : K) (ht : 0 < t) (h : ∀ c, residSq a y c = t * residSq a' y' c) :
    lstsq N p a y = lstsq M p a' y' := by
  set r := lstsq N p a y with hr
  set r' := lstsq M p a' y' with hr'
  have hmin : ∀ c, residSq a y r' ≤ residSq a y c := by
    intro c
    rw [h, h]
    exact mul_le_mul_of_nonneg_left (hl.least _ _ _ _ _) ht.le
  have heq : residSq a y r' = residSq a y r := le_antisymm (hmin r) (hl.least _ _ _ _ _)
  have h1 : ∑ k, r k ^ 2 ≤ ∑ k, r' k ^ 2 := hl.shortest _ _ _ _ _ heq
  have h2 : ∑ k, r' k ^ 2 ≤ ∑ k, r k ^ 2 := hl.shortest _ _ _ _ _ (by
    have e := heq
    rw [h, h] at e
    exact (mul_left_cancel₀ ht.ne' e).symm)
  have hmid : residSq a y (fun k => (r k + r' k) / 2) ≤ residSq a y r := by
    have : ∀ s, ((∑ k, a s k * ((r k + r' k) / 2)) - y s) ^ 2 ≤
        (((∑ k, a s k * r k) - y s) ^ 2 + ((∑ k, a s k * r' k) - y s) ^ 2) / 2 := by
      intro s
      have e : ∑ k, a s k * ((r k + r' k) / 2) = ((∑ k, a s k * r k) + ∑ k, a s k * r' k) / 2 := by
        rw [← Finset.sum_add_distrib, Finset.sum_div]
        exact Finset.sum_congr rfl fun k _ => by ring
      rw [e]
      nlinarith [sq_nonneg ((∑ k, a s k * r k) - ∑ k, a s k * r' k)]
    have hs := Finset.sum_le_sum fun s (_ : s ∈ Finset.univ) => this s
    rw [← Finset.sum_div, Finset.sum_add_distrib] at hs
    change residSq a y _ ≤ (residSq a y r + residSq a y r') / 2 at hs
    rw [heq] at hs
    linarith
  have h3 : ∑ k, r k ^ 2 ≤ ∑ k, ((r k + r' k) / 2) ^ 2 :=
    hl.shortest _ _ _ _ _ (le_antisymm hmid (hl.least _ _ _ _ _))
  have h4 : ∑ k, (r k - r' k) ^ 2 = 2 * (∑ k, r k ^ 2) + 2 * (∑ k, r' k ^ 2) -
      4 * ∑ k, ((r k + r' k) / 2) ^ 2 := by
    rw [Finset.mul_sum, Finset.mul_sum, Finset.mul_sum, ← Finset.sum_add_distrib, ← Finset.sum_sub_distrib]
    exact Finset.sum_congr rfl fun k _ => by ring
  have h5 : ∑ k, (r k - r' k) ^ 2 ≤ 0 := by rw [h4]; linarith
  have h6 := (Finset.sum_eq_zero_iff_of_nonneg fun k _ => sq_nonneg (r k - r' k)).1
    (le_antisymm h5 (Finset.sum_nonneg fun k _ => sq_nonneg _))
  funext k
  exact sub_eq_zero.1 (pow_eq_zero_iff two_ne_zero |>.1 (h6 k (Finset.mem_univ k)))

/-- Weighted feature matrices of samples with the same data give the same residuals up to a factor. -/
theorem resid_sameData {root : K → K} (hroot : RootSpec root) (mt : ModelType) {w : Option (Vec K N)}
    {xs : Fin N → Vec K n} {y : Vec K N} {w' : Option (Vec K M)} {xs' : Fin M → Vec K n} {y' : Vec K M}
    (hw : ∀ s, 0 ≤ weightsOf w s) (hw' : ∀ s, 0 ≤ weightsOf w' s) (t : K)
    (h : SameData (weightsOf w) xs y (fun s => t * weightsOf w' s) xs' y') (factor : Vec K (nCols n mt))
    (c : Vec K (nCols n mt)) :
    residSq (fun s k => weightMat root w (featureMatrix mt xs) s k * factor k) (weightVec root w y) c =
      t * residSq (fun s k => weightMat root w' (featureMatrix mt xs') s k * factor k) (weightVec root w' y') c := by
  have e : ∀ {L : Nat} (v : Option (Vec K L)) (zs : Fin L → Vec K n) (z : Vec K L), (∀ s, 0 ≤ weightsOf v s) →
      residSq (fun s k => weightMat root v (featureMatrix mt zs) s k * factor k) (weightVec root v z) c =
        ∑ s, weightsOf v s * (coefDot mt (fun k => factor k * c k) (zs s) - z s) ^ 2 := by
    intro L v zs z hv
    have : residSq (fun s k => weightMat root v (featureMatrix mt zs) s k * factor k) (weightVec root v z) c =
        residSq (weightMat root v (featureMatrix mt zs)) (weightVec root v z) (fun k => factor k * c k) := by
      unfold residSq
      refine Finset.sum_congr rfl fun s _ => ?_
      congr 2
      exact Finset.sum_congr rfl fun k _ => by ring
    rw [this, resid_features root hroot v hv]
    rfl
  rw [e w xs y hw, e w' xs' y' hw', h fun x a => (coefDot mt (fun k => factor k * c k) x - a) ^ 2, Finset.mul_sum]
  exact Finset.sum_congr rfl fun s _ => by ring

/-- C109: least squares fits (`fit_ols`, `fit_tranquilo`) of samples that contain the same data are the same, also if all
weights of one of them are multiplied with a positive number. -/
theorem C109_least_squares {lstsq : Lstsq K} (hl : LstsqSpec lstsq) {root : K → K} (hroot : RootSpec root)
    (mt : ModelType) {w : Option (Vec K N)} {xs : Fin N → Vec K n} {y : Vec K N} {w' : Option (Vec K M)}
    {xs' : Fin M → Vec K n} {y' : Vec K M} (hw : ∀ s, 0 ≤ weightsOf w s) (hw' : ∀ s, 0 ≤ weightsOf w' s) (t : K)
    (ht : 0 < t) (h : SameData (weightsOf w) xs y (fun s => t * weightsOf w' s) xs' y') :
    fitOls lstsq root mt xs y w = fitOls lstsq root mt xs' y' w' ∧
    ∀ pInt pLin pSq, fitTranquilo lstsq root pInt pLin pSq mt xs y w =
      fitTranquilo lstsq root pInt pLin pSq mt xs' y' w' := by
  constructor
  · refine lstsq_determined hl _ _ _ _ t ht fun c => ?_
    have := resid_sameData hroot mt hw hw' t h (fun _ => 1) c
    simpa only [mul_one] using this
  · intro pInt pLin pSq
    unfold fitTranquilo
    dsimp only
    rw [lstsq_determined hl _ _ _ _ t ht (resid_sameData hroot mt hw hw' t h _)]

omit [IsStrictOrderedRing K] in
/-- Entries of the system of `fit_ridge`. -/
theorem weighted_sum_eq {root : K → K} (hroot : RootSpec root) {w : Option (Vec K N)}
    (hw : ∀ s, 0 ≤ weightsOf w s) (f g : Vec K N) :
    ∑ s, weightVec root w f s * weightVec root w g s = ∑ s, weightsOf w s * (f s * g s) := by
  refine Finset.sum_congr rfl fun s _ => ?_
  cases w with
  | none => simp [weightsOf, weightVec]
  | some w =>
    have := hroot (w s) (hw s)
    simp only [weightsOf, weightVec]
    linear_combination f s * g s * this

omit [LinearOrder K] [IsStrictOrderedRing K] in
theorem weightMat_column (root : K → K) (w : Option (Vec K N)) (a : Mat K N p) (s : Fin N) (k : Fin p) :
    weightMat root w a s k = weightVec root w (fun s => a s k) s := by
  cases w <;> rfl

/-- C109: ridge fits of samples that contain the same data are the same. -/
theorem C109_ridge (lstsq : Lstsq K) {root : K → K} (hroot : RootSpec root)
    (mt : ModelType) {w : Option (Vec K N)} {xs : Fin N → Vec K n} {y : Vec K N} {w' : Option (Vec K M)}
    {xs' : Fin M → Vec K n} {y' : Vec K M} (hw : ∀ s, 0 ≤ weightsOf w s) (hw' : ∀ s, 0 ≤ weightsOf w' s)
    (h : SameData (weightsOf w) xs y (weightsOf w') xs' y') (penLin penSq : K) :
    fitRidge lstsq root penLin penSq mt xs y w = fitRidge lstsq root penLin penSq mt xs' y' w' := by
  unfold fitRidge fitRidgeRaw
  congr 1
  · funext i j
    congr 1
    simp only [weightMat_column]
    rw [weighted_sum_eq hroot hw, weighted_sum_eq hroot hw']
    exact h fun x _ => (featureRow mt x).getD i 0 * (featureRow mt x).getD j 0
  · funext i
    simp only [weightMat_column]
    rw [weighted_sum_eq hroot hw, weighted_sum_eq hroot hw']
    exact h fun x a => (featureRow mt x).getD i 0 * a

omit [LinearOrder K] [IsStrictOrderedRing K] in
/-- Counting a point several times is the same as having it several times. -/
theorem sameData_repeat (σ : Fin M → Fin N) (xs : Fin N → Vec K n) (y : Vec K N) :
    SameData (fun s => (multiplicity σ s : K)) xs y (fun _ => 1) (fun t => xs (σ t)) fun t => y (σ t) := by
  intro f
  simp only [one_mul]
  rw [← Finset.sum_fiberwise (s := Finset.univ) (g := σ)]
  refine Finset.sum_congr rfl fun s _ => ?_
  rw [Finset.sum_congr rfl (g := fun _ => f (xs s) (y s)) fun t ht => by rw [(Finset.mem_filter.1 ht).2],
    Finset.sum_const, nsmul_eq_mul]
  rfl

/-- C109: a weight counts the point: the fit of the sample with point `σ 0, σ 1, ...` is the weighted fit in which each
point has the number of its repetitions as weight (zero for points that do not appear). -/
theorem C109_weights_count {lstsq : Lstsq K} (hl : LstsqSpec lstsq) {root : K → K} (hroot : RootSpec root)
    (mt : ModelType) (xs : Fin N → Vec K n) (y : Vec K N) (σ : Fin M → Fin N) (pInt pLin pSq penLin penSq : K) :
    fitOls lstsq root mt xs y (some fun s => (multiplicity σ s : K)) =
      fitOls lstsq root mt (fun t => xs (σ t)) (fun t => y (σ t)) none ∧
    fitTranquilo lstsq root pInt pLin pSq mt xs y (some fun s => (multiplicity σ s : K)) =
      fitTranquilo lstsq root pInt pLin pSq mt (fun t => xs (σ t)) (fun t => y (σ t)) none ∧
    fitRidge lstsq root penLin penSq mt xs y (some fun s => (multiplicity σ s : K)) =
      fitRidge lstsq root penLin penSq mt (fun t => xs (σ t)) (fun t => y (σ t)) none := by
  have h1 : ∀ s : Fin N, (0 : K) ≤ weightsOf (some fun s => (multiplicity σ s : K)) s := fun s => Nat.cast_nonneg _
  have h2 : ∀ s : Fin M, (0 : K) ≤ weightsOf none s := fun _ => zero_le_one
  have hs := sameData_repeat σ xs y
  have := C109_least_squares hl hroot mt (w := some fun s => (multiplicity σ s : K)) (w' := none) (xs := xs) (y := y)
    h1 h2 1 one_pos (by simp only [one_mul]; exact hs)
  exact ⟨this.1, this.2 _ _ _, C109_ridge lstsq hroot mt h1 h2 hs penLin penSq⟩

/-- C109: the order of the points does not matter. -/
theorem C109_order {lstsq : Lstsq K} (hl : LstsqSpec lstsq) {root : K → K} (hroot : RootSpec root)
    (mt : ModelType) (xs : Fin N → Vec K n) (y : Vec K N) (σ : Equiv.Perm (Fin N)) (pInt pLin pSq penLin penSq : K) :
    fitOls lstsq root mt (fun s => xs (σ s)) (fun s => y (σ s)) none = fitOls lstsq root mt xs y none ∧
    fitTranquilo lstsq root pInt pLin pSq mt (fun s => xs (σ s)) (fun s => y (σ s)) none =
      fitTranquilo lstsq root pInt pLin pSq mt xs y none ∧
    fitRidge lstsq root penLin penSq mt (fun s => xs (σ s)) (fun s => y (σ s)) none =
      fitRidge lstsq root penLin penSq mt xs y none := by
  have h2 : ∀ s : Fin N, (0 : K) ≤ weightsOf none s := fun _ => zero_le_one
  have hs : SameData (weightsOf none) (fun s => xs (σ s)) (fun s => y (σ s)) (weightsOf none) xs y := fun f => by
    simp only [weightsOf, one_mul]
    exact Equiv.sum_comp σ fun s => f (xs s) (y s)
  have := C109_least_squares hl hroot mt (w := none) (w' := none) h2 h2 1 one_pos (by simp only [one_mul]; exact hs)
  exact ⟨this.1, this.2 _ _ _, C109_ridge lstsq hroot mt h2 h2 hs penLin penSq⟩

/-- C109: multiplying all weights with the same positive number changes nothing in fits without a penalty. -/
theorem C109_scale_of_weights {lstsq : Lstsq K} (hl : LstsqSpec lstsq) {root : K → K} (hroot : RootSpec root)
    (mt : ModelType) (xs : Fin N → Vec K n) (y w : Vec K N) (hw : ∀ s, 0 ≤ w s) (t : K) (ht : 0 < t)
    (pInt pLin pSq : K) :
    fitOls lstsq root mt xs y (some fun s => t * w s) = fitOls lstsq root mt xs y (some w) ∧
    fitTranquilo lstsq root pInt pLin pSq mt xs y (some fun s => t * w s) =
      fitTranquilo lstsq root pInt pLin pSq mt xs y (some w) := by
  have := C109_least_squares hl hroot mt (w := some fun s => t * w s) (w' := some w) (xs := xs) (y := y)
    (fun s => mul_nonneg ht.le (hw s)) hw t ht fun f => rfl
  exact ⟨this.1, this.2 _ _ _⟩

/-! ## Inside a run -/

/-- The penalties for infinite values do not depend on the order. -/
theorem penalty_perm {l l' : List (XVal K)} (h : l.Perm l') :
    posPenalty l = posPenalty l' ∧ negPenalty l = negPenalty l' := by
  have hf : (finitePart l).Perm (finitePart l') := h.filterMap _
  have h1 : maskedMin l = maskedMin l' := hf.foldl_eq (rcomm := ⟨fun a b c => min_right_comm a b c⟩) _
  have h2 : maskedMax l = maskedMax l' := hf.foldl_eq (rcomm := ⟨fun a b c => max_right_comm a b c⟩) _
  unfold posPenalty negPenalty
  rw [h1, h2]
  exact ⟨rfl, rfl⟩

/-- Columns after the treatment of infinite values. -/
theorem clipColumns_list (f : Nat → Fin m → XVal K) (is : List Nat) (s : Fin is.length) (k : Fin m) :
    clipColumns (N := is.length) (fun t => f is[t]) s k =
      replaceInfinite (posPenalty (is.map fun i => f i k)) (negPenalty (is.map fun i => f i k)) (f is[s] k) := by
  have e : (List.ofFn fun t : Fin is.length => f is[t] k) = is.map fun i => f i k := by
    rw [← List.ofFn_getElem (xs := is.map fun i => f i k)]
    refine List.ext_getElem (by simp) fun i h1 h2 => by simp
  unfold clipColumns clipRelative
  rw [e]
  simp [List.getD]

/-- C109 inside a run: with `fit_ols`, `fit_ridge` and `fit_tranquilo` the model that an iteration fits does not depend
on the order in which the indices of the model points are given; with and without residualizing, and with failed
evaluations among the points. -/
theorem C109_order_in_a_run (b : BuiltinSettings K n m) (hl : LstsqSpec b.lstsq) (hroot : RootSpec b.root)
    (hfit : b.fitter ≠ .powell) (log : Log K n) (region : Region K n) (old : VectorModel K n m) {is is' : List Nat}
    (h : is.Perm is') : builtinFit b log is region old = builtinFit b log is' region old := by
  set unit : Nat → Vec K n := fun i => region.mapToUnit b.cubeRadius ((log.xs[i]?).getD region.center) with hunit
  set resp : List Nat → Nat → Fin m → K := fun l i k =>
    if b.residualize then
      replaceInfinite (posPenalty (l.map fun i => b.data log i k)) (negPenalty (l.map fun i => b.data log i k))
        (b.data log i k) - (old.move b.cubeRadius region).predict (unit i) k
    else replaceInfinite (posPenalty (l.map fun i => b.data log i k)) (negPenalty (l.map fun i => b.data log i k))
        (b.data log i k) with hresp
  have hcols : ∀ l : List Nat, builtinFit b log l region old =
      if ∃ i, region.effectiveRadius b.cubeRadius i = 0 then .error .linAlgError
      else (collectColumns fun k => builtinFitter (N := l.length) b (fun s => unit l[s]) fun s => resp l l[s] k) >>=
        fun coef =>
          let results := modelOfCoef b.modelType coef (region.effectiveCenter b.cubeRadius)
            (region.effectiveRadius b.cubeRadius)
          if b.residualize then results.add (old.move b.cubeRadius region) else .ok results := by
    intro l
    unfold builtinFit builtinFitTemplate
    simp only [clipColumns_list]
    rfl
  have hr : ∀ i k, resp is i k = resp is' i k := by
    intro i k
    have := penalty_perm (h.map fun i => b.data log i k)
    simp only [hresp, this.1, this.2]
  have hsame : ∀ k, SameData (weightsOf none) (fun s : Fin is.length => unit is[s]) (fun s => resp is is[s] k)
      (weightsOf none) (fun s : Fin is'.length => unit is'[s]) (fun s => resp is' is'[s] k) := by
    intro k f
    simp only [weightsOf, one_mul, hr]
    have e := Fin.sum_univ_fun_getElem is fun i => f (unit i) (resp is' i k)
    have e' := Fin.sum_univ_fun_getElem is' fun i => f (unit i) (resp is' i k)
    exact e.trans ((h.map fun i => f (unit i) (resp is' i k)).sum_eq.trans e'.symm)
  have h1 : ∀ {N : Nat} (s : Fin N), (0 : K) ≤ weightsOf none s := fun _ => zero_le_one
  have hfitter : ∀ k,
      builtinFitter (N := is.length) b (fun s => unit is[s]) (fun s => resp is is[s] k) =
      builtinFitter (N := is'.length) b (fun s => unit is'[s]) fun s => resp is' is'[s] k := by
    intro k
    have hls := C109_least_squares hl hroot b.modelType (w := none) (w' := none) h1 h1 1 one_pos
      (by simp only [one_mul]; exact hsame k)
    unfold builtinFitter
    split
    · rw [hls.1]
    · rw [C109_ridge b.lstsq hroot b.modelType h1 h1 (hsame k)]
    · exact absurd ‹_› hfit
    · rw [hls.2]
  rw [hcols, hcols]
  simp only [hfitter]

end Tranquilo

namespace Tranquilo

variable {K : Type} [Field K] [LinearOrder K] [IsStrictOrderedRing K]

/-! ## Powell's fit -/

/-- Three points on a line, then one beside it. -/
def lineFirst : Fin 4 → Vec K 2 := ![![0, 0], ![1, 0], ![2, 0], ![0, 1]]

/-- The values of the second coordinate at these points. -/
def lineData : Vec K 4 := ![0, 0, 0, 1]

theorem lstsq_zero {lstsq : Lstsq K} (hl : LstsqSpec lstsq) {N p : Nat} (a : Mat K N p) (y : Vec K N)
    (hy : ∀ s, y s = 0) : lstsq N p a y = fun _ => 0 := by
  have h0 : residSq a y (fun _ => 0) = 0 := by
    simp [residSq, hy]
  have h1 : residSq a y (lstsq N p a y) = 0 := le_antisymm (h0 ▸ hl.least _ _ _ _ _)
    (Finset.sum_nonneg fun _ _ => sq_nonneg _)
  have h2 := hl.shortest _ _ a y (fun _ => 0) (by rw [h0, h1])
  simp only [ne_eq, OfNat.ofNat_ne_zero, not_false_eq_true, zero_pow, Finset.sum_const_zero] at h2
  have h3 := (Finset.sum_eq_zero_iff_of_nonneg fun k _ => sq_nonneg (lstsq N p a y k)).1
    (le_antisymm h2 (Finset.sum_nonneg fun _ _ => sq_nonneg _))
  funext k
  exact pow_eq_zero_iff two_ne_zero |>.1 (h3 k (Finset.mem_univ k))

/-- C109 is false for Powell's fit: the data `lineData` are values of a linear function. In the order `0, 1, 2, 3` the
fitted model is zero everywhere and misses the fourth point, in the order `0, 1, 3, 2` it reproduces all data. -/
theorem C109_violated_powell {lstsq : Lstsq K} (hl : LstsqSpec lstsq) (root : K → K)
    (q : (Fin 4 → Vec K 2) → Mat K 4 4) (hq : QrSpec (linFeatures lineFirst) (q lineFirst))
    (hq' : QrSpec (linFeatures fun s => lineFirst (Equiv.swap 2 3 s)) (q fun s => lineFirst (Equiv.swap 2 3 s)))
    (shift scale : Vec K 2) :
    (∃ coef, fitPowell lstsq root q .quadratic lineFirst lineData = .ok coef ∧
      ∀ u, (modelOfCoef (m := 1) .quadratic (fun _ => coef) shift scale).predict u 0 = 0) ∧
    ∃ coef, fitPowell lstsq root q .quadratic (fun s => lineFirst (Equiv.swap 2 3 s))
        (fun s => lineData (Equiv.swap 2 3 s)) = .ok coef ∧
      ∀ s, (modelOfCoef (m := 1) .quadratic (fun _ => coef) shift scale).predict (lineFirst s) 0 = lineData s := by
  constructor
  · have hsec : secondStage lstsq (q lineFirst) lineFirst lineData = fun _ => 0 := by
      unfold secondStage
      dsimp only
      rw [lstsq_zero hl]
      · simp
      · intro j
        have hj : 2 + 1 + j.val < 4 := by omega
        have := hq.complement 2 ⟨2 + 1 + j, hj⟩ (by simp)
        rw [← this]
        refine Finset.sum_congr rfl fun s _ => ?_
        simp only [zMat, dif_pos hj]
        rw [mul_comm]
        congr 1
        fin_cases s <;> simp [linFeatures, lineFirst, lineData]
    have hlin : linearStage lstsq lineFirst lineData (fun _ => 0) = fun _ => 0 := by
      unfold linearStage
      refine lstsq_zero hl _ _ fun s => ?_
      fin_cases s <;> simp [lineData]
    refine ⟨fun _ => 0, ?_, fun u => ?_⟩
    · unfold fitPowell fitMinFrobenius
      rw [if_neg (by norm_num), if_neg (by decide), if_neg (by norm_num), if_neg (by norm_num)]
      simp only [hsec, hlin]
      congr 1
      funext k
      simp
    · rw [modelOfCoef_predict]
      simp [coefDot]
  · obtain ⟨coef, h1, h2, -⟩ := C90_minimal_norm_partial lstsq hl root q _ (fun s => lineData (Equiv.swap 2 3 s)) hq'
      (by norm_num) (by decide) (by
        intro c g h
        have h0 := h 0 (by simp)
        have h1 := h 1 (by simp)
        have h2 := h 2 (by simp)
        beta_reduce at h0 h1 h2
        have e0 : Equiv.swap (2 : Fin 4) 3 0 = 0 := by decide
        have e1 : Equiv.swap (2 : Fin 4) 3 1 = 1 := by decide
        have e2 : Equiv.swap (2 : Fin 4) 3 2 = 3 := by decide
        rw [e0] at h0
        rw [e1] at h1
        rw [e2] at h2
        simp [lineFirst, Fin.sum_univ_two] at h0 h1 h2
        refine ⟨h0, fun i => ?_⟩
        fin_cases i
        · show g 0 = 0; linarith
        · show g 1 = 0; linarith)
      ⟨fun u => u 1, ⟨0, ![0, 1], none, fun _ => rfl, fun u => by simp [polyVal, Fin.sum_univ_two]⟩, fun s => by
        dsimp only
        generalize Equiv.swap (2 : Fin 4) 3 s = t
        fin_cases t <;> simp [lineFirst, lineData]⟩ shift scale
    refine ⟨coef, h1, fun s => ?_⟩
    have := h2 (Equiv.swap 2 3 s)
    simpa using this

/-- C109, example: the contracts hold for real numbers and the sample `lineFirst`. -/
example : ∃ (lstsq : Lstsq ℝ) (q : (Fin 4 → Vec ℝ 2) → Mat ℝ 4 4), LstsqSpec lstsq ∧ RootSpec Real.sqrt ∧
    QrSpec (linFeatures lineFirst) (q lineFirst) ∧
    QrSpec (linFeatures fun s => lineFirst (Equiv.swap 2 3 s)) (q fun s => lineFirst (Equiv.swap 2 3 s)) := by
  classical
  obtain ⟨l, hl⟩ := exists_lstsq
  obtain ⟨a, ha⟩ : ∃ a : ℝ, a * a = 1 / 3 := ⟨_, Real.mul_self_sqrt (by norm_num)⟩
  obtain ⟨b, hb⟩ : ∃ a : ℝ, a * a = 1 / 2 := ⟨_, Real.mul_self_sqrt (by norm_num)⟩
  obtain ⟨c, hc⟩ : ∃ a : ℝ, a * a = 1 / 6 := ⟨_, Real.mul_self_sqrt (by norm_num)⟩
  let f : Mat ℝ 4 4 := ![![a, b, 0, c], ![a, 0, 0, -2 * c], ![a, -b, 0, c], ![0, 0, 1, 0]]
  have hf : QrSpec (linFeatures (lineFirst (K := ℝ))) f := by
    constructor
    · intro i j
      fin_cases i <;> fin_cases j <;> simp [f, Fin.sum_univ_four] <;> linarith
    · intro k j hj
      have : j = 3 := Fin.ext (by have := j.isLt; simp; omega)
      subst this
      fin_cases k <;> simp [f, linFeatures, lineFirst, Fin.sum_univ_four] <;> ring
  refine ⟨l, fun xs => if xs = lineFirst then f else fun s => f (Equiv.swap 2 3 s), hl,
    fun w hw => Real.mul_self_sqrt hw, by beta_reduce; rw [if_pos rfl]; exact hf, ?_⟩
  beta_reduce
  rw [if_neg]
  · constructor
    · intro i j
      exact (Equiv.sum_comp (Equiv.swap 2 3) fun s => f s i * f s j).trans (hf.orthonormal i j)
    · intro k j hj
      exact (Equiv.sum_comp (Equiv.swap 2 3) fun s => linFeatures lineFirst s k * f s j).trans (hf.complement k j hj)
  · intro h
    have h1 := congrFun (congrFun h 2) 1
    have e : Equiv.swap (2 : Fin 4) 3 2 = 3 := by decide
    simp only [e] at h1
    simp [lineFirst] at h1

end Tranquilo
