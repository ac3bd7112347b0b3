import Verif.Props.BuiltinRun
import Verif.Props.Fit
import Verif.Props.Infinity
import Verif.Props.RhoNoise
import Verif.Props.ProcessArgs

/-!
# C34, C35, C38, C39 and C69 for the components inside a run
-/

namespace Tranquilo

variable {K : Type} [Field K] [LinearOrder K] [IsStrictOrderedRing K] {n m : Nat}

omit [Field K] [LinearOrder K] [IsStrictOrderedRing K] in
theorem mapM_ok_map {α β : Type} (g : α → Except Err β) (h : α → β) (l : List α)
    (hg : ∀ a, g a = .ok (h a)) : l.mapM g = .ok (l.map h) := by
  induction l with
  | nil => rfl
  | cons a l ih => rw [List.mapM_cons, hg, ih]; rfl

omit [IsStrictOrderedRing K] in
theorem collectColumns_ok {p : Nat} (g : Fin m → Except Err (Vec K p)) (h : Fin m → Vec K p)
    (hg : ∀ k, g k = .ok (h k)) : collectColumns g = .ok h := by
  unfold collectColumns
  rw [mapM_ok_map g h _ hg]
  change Except.ok _ = _
  congr 1
  funext k
  simp [List.getD]

omit [IsStrictOrderedRing K] in
theorem clipColumns_fin {N : Nat} (y : Fin N → Fin m → XVal K) (s : Fin N) (k : Fin m) (a : K)
    (h : y s k = .fin a) : clipColumns y s k = a := by
  have := (C38_finite_entries_unchanged (List.ofFn fun t => y t k)).2 s.val a (by simp [h])
  unfold clipColumns
  rw [List.getD_eq_getElem?_getD, this]
  rfl

omit [IsStrictOrderedRing K] in
/-- The fitting step of a run is the fitting step of `Model/FitModels.lean`. -/
theorem builtinFitTemplate_eq_fitModel {N : Nat} (b : BuiltinSettings K n m) (region : Region K n)
    (hr : ∀ i, region.effectiveRadius b.cubeRadius i ≠ 0)
    (f : (Fin N → Vec K n) → Vec K N → Vec K (nCols n b.modelType))
    (hf : ∀ xs y, builtinFitter b xs y = .ok (f xs y)) (old : VectorModel K n m)
    (xs : Fin N → Vec K n) (y : Fin N → Fin m → XVal K) :
    builtinFitTemplate b region old xs y =
      fitModel b.cubeRadius b.modelType f clipColumns b.residualize region old xs y := by
  unfold builtinFitTemplate
  rw [if_neg (by rintro ⟨i, hi⟩; exact hr i hi)]
  dsimp only
  rw [collectColumns_ok _ _ fun k => hf _ _]
  rfl

/-- The fitters that minimize the prediction error without a penalty on it. -/
def FitterChoice.Interpolates : FitterChoice K → Prop
  | .ols => True
  | .tranquilo a b c => a ≠ 0 ∧ b ≠ 0 ∧ c ≠ 0
  | _ => False

/-- C35 for the fits of a run: if the evaluations at the model points are finite, the region is not
degenerate and some polynomial of the model type takes these values, then the fit returns, belongs to
the region, and at the position of every model point predicts the value evaluated there. -/
theorem C35_fit_in_a_run (b : BuiltinSettings K n m) (hl : LstsqSpec b.lstsq) (hroot : RootSpec b.root)
    (hfit : b.fitter.Interpolates) (log : Log K n) (is : List Nat) (region : Region K n)
    (hr : ∀ i, region.effectiveRadius b.cubeRadius i ≠ 0) (old : VectorModel K n m)
    (hold : b.residualize = true → OldModelOk b.modelType old ∧ ∀ i, old.scale i ≠ 0)
    (points : Nat → Vec K n) (hpoints : ∀ i ∈ is, log.xs[i]? = some (points i))
    (value : Nat → Fin m → K) (hvalue : ∀ i ∈ is, ∀ k, b.data log i k = .fin (value i k))
    (hpoly : ∀ k, ∃ f, IsPoly b.modelType f ∧
      ∀ i ∈ is, f (region.mapToUnit b.cubeRadius (points i)) = value i k) :
    ∃ v, builtinFit b log is region old = .ok v ∧ v.FittedOn b.cubeRadius region ∧
      ∀ i ∈ is, ∀ k, v.predict (region.mapToUnit b.cubeRadius (points i)) k = value i k := by
  have hraw : ∃ f : (Fin is.length → Vec K n) → Vec K is.length → Vec K (nCols n b.modelType),
      (∀ xs y, builtinFitter b xs y = .ok (f xs y)) ∧ FitterInterpolates b.modelType f := by
    cases hb : b.fitter with
    | ols =>
      exact ⟨_, fun xs y => by unfold builtinFitter; rw [hb],
        C35_ols b.lstsq hl b.root hroot b.modelType none fun _ => zero_lt_one⟩
    | tranquilo p q r =>
      rw [hb] at hfit
      exact ⟨_, fun xs y => by unfold builtinFitter; rw [hb],
        C35_tranquilo b.lstsq hl b.root hroot p q r hfit.1 hfit.2.1 hfit.2.2 b.modelType none
          fun _ => zero_lt_one⟩
    | ridge p q => rw [hb] at hfit; exact hfit.elim
    | powell => rw [hb] at hfit; exact hfit.elim
  obtain ⟨f, hf, hint⟩ := hraw
  have hx : ∀ s : Fin is.length, (log.xs[is[s]]?).getD region.center = points is[s] := by
    intro s
    have h := hpoints is[s] (List.getElem_mem _)
    change Option.getD (log.xs[is[s]]?) _ = _
    simp only [h, Option.getD_some]
  have hc : ∀ (s : Fin is.length) (k : Fin m),
      clipColumns (fun s : Fin is.length => b.data log is[s]) s k = value is[s] k := fun s k =>
    clipColumns_fin _ s k _ (hvalue _ (List.getElem_mem _) k)
  obtain ⟨v, h1, h2, h3⟩ := C35_fit_reproduces_data b.cubeRadius b.modelType f hint clipColumns
    b.residualize region old (fun h => (hold h).1) (fun h => (hold h).2)
    (fun s : Fin is.length => (log.xs[is[s]]?).getD region.center) (fun s => b.data log is[s]) (by
      intro k
      obtain ⟨g, hg, hgv⟩ := hpoly k
      exact ⟨g, hg, fun s => by rw [hx, hc]; exact hgv _ (List.getElem_mem _)⟩)
  refine ⟨v, ?_, h2, ?_⟩
  · unfold builtinFit
    rw [builtinFitTemplate_eq_fitModel b region hr f hf]
    exact h1
  · intro i hi k
    obtain ⟨s, hs, rfl⟩ := List.getElem_of_mem hi
    have := h3 ⟨s, hs⟩ k
    rw [hx, hc] at this
    exact this

/-- C35, the hypothesis on the data is met by every criterion with affine residuals, whatever the
region and the model points. -/
theorem C35_affine_residuals_in_a_run (b : BuiltinSettings K n m) (hl : LstsqSpec b.lstsq)
    (hroot : RootSpec b.root) (hfit : b.fitter.Interpolates) (log : Log K n) (is : List Nat)
    (region : Region K n) (hr : ∀ i, region.effectiveRadius b.cubeRadius i ≠ 0)
    (old : VectorModel K n m)
    (hold : b.residualize = true → OldModelOk b.modelType old ∧ ∀ i, old.scale i ≠ 0)
    (points : Nat → Vec K n) (hpoints : ∀ i ∈ is, log.xs[i]? = some (points i))
    (a : Vec K m) (g : Mat K m n)
    (hvalue : ∀ i ∈ is, ∀ k, b.data log i k = .fin (a k + ∑ j, g k j * points i j)) :
    ∃ v, builtinFit b log is region old = .ok v ∧ v.FittedOn b.cubeRadius region ∧
      ∀ i ∈ is, ∀ k, v.predict (region.mapToUnit b.cubeRadius (points i)) k
        = a k + ∑ j, g k j * points i j := by
  refine C35_fit_in_a_run b hl hroot hfit log is region hr old hold points hpoints _ hvalue fun k => ?_
  refine ⟨_, ⟨a k + ∑ j, g k j * region.effectiveCenter b.cubeRadius j,
    fun j => g k j * region.effectiveRadius b.cubeRadius j, none, fun _ => rfl, fun _ => rfl⟩, ?_⟩
  intro i _
  unfold polyVal
  rw [add_zero, add_assoc, ← Finset.sum_add_distrib]
  congr 1
  refine Finset.sum_congr rfl fun j _ => ?_
  have := hr j
  cases hs : region.shape
  · simp only [Region.mapToUnit, Region.effectiveRadius, Region.effectiveCenter, hs] at this ⊢
    field_simp
    ring
  · simp only [Region.mapToUnit, Region.effectiveRadius, Region.effectiveCenter, Region.cubeCenter,
      hs] at this ⊢
    have h2 : region.cubeUpper b.cubeRadius j - region.cubeLower b.cubeRadius j ≠ 0 := fun h =>
      this (by rw [h, zero_div])
    field_simp
    ring

/-- C35, example: two residuals `1 + x₀` and `x₀ - x₁`, three points, a region cut by the bounds. -/
example : ∃ (b : BuiltinSettings ℝ 2 2) (log : Log ℝ 2) (region : Region ℝ 2),
    LstsqSpec b.lstsq ∧ RootSpec b.root ∧ b.fitter.Interpolates ∧
    (∀ i, region.effectiveRadius b.cubeRadius i ≠ 0) ∧
    ∀ i ∈ [2, 0, 1], ∃ x, log.xs[i]? = some x ∧ b.data log i 0 = .fin (1 + x 0) ∧
      b.data log i 1 = .fin (x 0 - x 1) := by
  obtain ⟨l, hl⟩ := exists_lstsq
  let pts : List (Vec ℝ 2) := [![0, 0], ![1, 0], ![1 / 2, 1]]
  refine ⟨{ raisingSettings with
      lstsq := l, fitter := .ols,
      data := fun log i k => match log.xs[i]? with
        | some x => .fin (if k = 0 then 1 + x 0 else x 0 - x 1)
        | none => .nan },
    ⟨pts, []⟩, ⟨![0, 0], 1, ⟨fun _ => some 0, fun _ => some 1⟩⟩, hl,
    fun w hw => Real.mul_self_sqrt hw, trivial, ?_, ?_⟩
  · have hs : Region.shape (⟨![0, 0], 1, ⟨fun _ => some 0, fun _ => some 1⟩⟩ : Region ℝ 2) = .cube := by
      unfold Region.shape
      rw [if_pos]
      simp [lowerBinding]
    intro i
    simp only [Region.effectiveRadius, Region.cubeUpper, Region.cubeLower, Region.cubeRadius, hs,
      Region.clipUpper, Region.clipLower, raisingSettings, id]
    fin_cases i <;> norm_num
  · intro i hi
    simp only [List.mem_cons, List.not_mem_nil, or_false] at hi
    rcases hi with rfl | rfl | rfl <;> exact ⟨_, rfl, rfl, rfl⟩

/-! ## C34 -/

/-- C34 inside a run, `fit_ols` and `fit_tranquilo`: least squares with all points weighted equally; for
`fit_tranquilo` with the settings `pi`, `pl`, `ps` the coefficients have the smallest norm after
multiplying the intercept with `pi`, the linear terms with `pl` and the second order terms with `ps`. -/
theorem C34_least_squares_in_a_run {N : Nat} (b : BuiltinSettings K n m) (hl : LstsqSpec b.lstsq)
    (hroot : RootSpec b.root) (hfit : b.fitter.Interpolates) (xs : Fin N → Vec K n) (y : Vec K N)
    (coef : Vec K (nCols n b.modelType)) (h : builtinFitter b xs y = .ok coef) :
    let model := fun c : Vec K (nCols n b.modelType) =>
      modelOfCoef (m := 1) b.modelType (fun _ => c) (fun _ => 0) (fun _ => 1)
    let err := predError (fun _ => 1) xs y
    (∀ f, IsPoly b.modelType f → err (fun u => (model coef).predict u 0) ≤ err f) ∧
    ∀ pi pl ps, b.fitter = .tranquilo pi pl ps →
      let penalty : Vec K (nCols n b.modelType) := fun k =>
        if k.val = 0 then pi else if k.val ≤ n then pl else ps
      ∀ c, err (fun u => (model c).predict u 0) = err (fun u => (model coef).predict u 0) →
        ∑ k, (penalty k * coef k) ^ 2 ≤ ∑ k, (penalty k * c k) ^ 2 := by
  intro model err
  have hw : ∀ s : Fin N, (0 : K) ≤ weightsOf none s := fun _ => zero_le_one
  cases hb : b.fitter with
  | ols =>
    unfold builtinFitter at h
    rw [hb] at h
    cases h
    exact ⟨(C34_ols b.lstsq hl b.root hroot b.modelType xs y none hw (fun _ => 0) fun _ => 1).2,
      fun _ _ _ h => by cases h⟩
  | tranquilo p q r =>
    unfold builtinFitter at h
    rw [hb] at h hfit
    cases h
    obtain ⟨-, h1, h2⟩ := C34_tranquilo b.lstsq hl b.root hroot p q r hfit.1 hfit.2.1 hfit.2.2
      b.modelType xs y none hw (fun _ => 0) fun _ => 1
    refine ⟨h1, fun pi pl ps h => ?_⟩
    cases h
    exact h2
  | ridge p q => rw [hb] at hfit; exact hfit.elim
  | powell => rw [hb] at hfit; exact hfit.elim

/-- C34 inside a run, `fit_ridge` with the settings `pl` for linear and `ps` for second order terms. -/
theorem C34_ridge_in_a_run {N : Nat} (b : BuiltinSettings K n m) (hl : LstsqSpec b.lstsq)
    (hroot : RootSpec b.root) (pl ps : K) (hfit : b.fitter = .ridge pl ps) (h1 : 0 ≤ pl) (h2 : 0 ≤ ps)
    (xs : Fin N → Vec K n) (y : Vec K N) (coef : Vec K (nCols n b.modelType))
    (h : builtinFitter b xs y = .ok coef) :
    let objective := fun c : Vec K (nCols n b.modelType) =>
      predError (fun _ => 1) xs y (fun u =>
        (modelOfCoef (m := 1) b.modelType (fun _ => c) (fun _ => 0) (fun _ => 1)).predict u 0)
      + ∑ k, (if k.val = 0 then 0 else if k.val ≤ n then pl else ps) * c k ^ 2
    ∀ c, objective coef ≤ objective c := by
  unfold builtinFitter at h
  rw [hfit] at h
  cases h
  exact C34_ridge b.lstsq hl b.root hroot pl ps h1 h2 b.modelType xs y none
    (fun _ => zero_le_one) (fun _ => 0) fun _ => 1

/-- C34, example: the contracts hold for some settings with `fit_ridge`, and some coefficients are
returned. -/
example : ∃ b : BuiltinSettings ℝ 2 2, LstsqSpec b.lstsq ∧ RootSpec b.root ∧
    b.fitter = .ridge (1 / 10) (1 / 2) ∧
    ∃ c, builtinFitter (N := 2) b ![![0, 1], ![1, 0]] ![3, 4] = .ok c := by
  obtain ⟨l, hl⟩ := exists_lstsq
  exact ⟨{ raisingSettings with lstsq := l, fitter := .ridge (1 / 10) (1 / 2) }, hl,
    fun w hw => Real.mul_self_sqrt hw, rfl, _, rfl⟩

/-! ## C38 -/

/-- C38 for the matrix of evaluations of a fit: finite entries are unchanged, and in a column with two
different finite entries `+inf` and NaN become larger and `-inf` smaller than all finite entries of the
same column. What is missing is the same as in `C38_infinite_entries_partial`. -/
theorem C38_columns_in_a_run_partial {N : Nat} (y : Fin N → Fin m → XVal K) (k : Fin m)
    (hr : ∀ t a, y t k = .fin a → |a| ≤ 10 ^ 300) :
    (∀ s a, y s k = .fin a → clipColumns y s k = a) ∧
    ∀ (t t' : Fin N) (a a' : K), y t k = .fin a → y t' k = .fin a' → a < a' →
      ∀ (s s' : Fin N) (c : K), y s' k = .fin c →
        ((y s k = .pinf ∨ y s k = .nan) → c < clipColumns y s k) ∧
        (y s k = .ninf → clipColumns y s k < c) := by
  refine ⟨fun s a h => clipColumns_fin y s k a h, ?_⟩
  intro t t' a a' ha ha' hlt s s' c hc
  set col := List.ofFn fun t => y t k with hcol
  have hmem : ∀ t v, y t k = v → v ∈ col := fun t v h => by
    rw [hcol, List.mem_ofFn]
    exact ⟨t, h⟩
  have hrep : Representable col := by
    intro v hv
    rw [hcol, List.mem_ofFn] at hv
    obtain ⟨t, ht⟩ := hv
    exact hr t v ht
  have hget : ∀ v, y s k = v → col[s.val]? = some v := fun v h => by simp [hcol, h]
  have hval : ∀ v, (clipRelative col)[s.val]? = some v → clipColumns y s k = v := by
    intro v h
    unfold clipColumns
    rw [List.getD_eq_getElem?_getD, h]
    rfl
  obtain ⟨h1, h2⟩ := C38_infinite_entries_partial col hrep a a' (hmem _ _ ha) (hmem _ _ ha') hlt s.val c
    (hmem _ _ hc)
  constructor
  · intro h
    obtain ⟨v, hv, hlt⟩ := h1 (h.imp (hget _) (hget _))
    rw [hval v hv]
    exact hlt
  · intro h
    obtain ⟨v, hv, hlt⟩ := h2 (hget _ h)
    rw [hval v hv]
    exact hlt

/-- C38, example: three points, two residuals, an infinite and a NaN entry in different columns. -/
example :
    clipColumns (m := 2) (![![.fin 1, .fin 7], ![.pinf, .fin 5], ![.fin (2 : ℚ), .nan]]) =
      ![![1, 7], ![5, 5], ![2, 12]] := by
  funext s k
  revert s k
  decide +kernel

/-! ## C39 -/

/-- C39 inside a run: the expected improvement that the acceptance decision sees is not negative and is
the decrease that the model predicts from the center to the candidate. -/
theorem C39_expected_improvement_in_a_run (b : BuiltinSettings K n m) (model : ScalarModel K n)
    (region : Region K n) (hr : Usable b.cubeRadius region) (sub : SubSolution K n)
    (h : builtinSolve b model region = .ok sub) :
    0 ≤ sub.expectedImprovement ∧
    sub.expectedImprovement = model.predict (region.mapToUnit b.cubeRadius region.center)
      - model.predict (region.mapToUnit b.cubeRadius sub.x) := by
  unfold builtinSolve at h
  obtain ⟨res, hres, rfl⟩ := except_map_ok.1 h
  obtain ⟨h1, h2, -⟩ := C39_expected_improvement b.cubeRadius _ _ _ _ _ model region hr res hres
  exact ⟨h1, h2⟩

/-! ## C69 -/

/-- What C69 means for the built in components: the old model of every fit is the start model. It
predicts the evaluations of the start point everywhere, also after it is moved to another region, so
that with `residualize` all fits use the differences to the start point. In a start region without
binding bounds it is expressed in the coordinates of that region. -/
theorem C69_violated_start_model_is_constant (b : BuiltinSettings K n m) (log : Log K n)
    (region other : Region K n) (u : Vec K n) :
    (builtinInit b log region).predict u = b.start log ∧
    ((builtinInit b log region).move b.cubeRadius other).predict u = b.start log ∧
    (region.shape = .sphere → (builtinInit b log region).FittedOn b.cubeRadius region) := by
  refine ⟨?_, ?_, fun hs => ⟨?_, ?_⟩⟩
  · funext k
    simp [builtinInit, VectorModel.predict, halfQuad, dot]
  · funext k
    simp [builtinInit, VectorModel.predict, halfQuad, dot, VectorModel.move, VectorModel.scaleBy,
      VectorModel.shiftBy]
  · simp [builtinInit, Region.effectiveCenter, hs]
  · funext i
    simp [builtinInit, Region.effectiveRadius, hs]

end Tranquilo
