import Verif.Props.TranquiloCall

/-!
# C106: the model type of a call
-/

namespace Tranquilo

variable {K O : Type} [Field K] [LinearOrder K] {n m : Nat}

theorem processModelType_default (functype : String) :
    processModelType (K := K) (O := O) (.str (defaultModelType functype)) functype
      = processModelType (K := K) (O := O) .none functype := by
  unfold processModelType defaultModelType
  by_cases h : functype = "scalar"
  · rw [if_pos h]; rfl
  · rw [if_neg h]; rfl

/-- C106: a call that names the model type which belongs to the function type is the call that leaves it out. -/
theorem C106_named_model_type [FloorRing K] (env : PyEnv K O) (ext : Externals K O n m)
    (a : Arguments K O (Option (Piece K n))) (x : Vec K n) (bounds : Bounds K n) :
    tranquiloCall env ext { a with modelType := .str (if a.functype = "scalar" then "quadratic" else "linear") } x bounds
      = tranquiloCall env ext { a with modelType := .none } x bounds := by
  unfold tranquiloCall processArguments
  dsimp only
  have := processModelType_default (K := K) (O := O) a.functype
  unfold defaultModelType at this
  rw [this]

theorem processArguments_modelType [FloorRing K] {R : Type} {env : PyEnv K O} {beh : String → String → Dict (PyVal K O) → Except Err R}
    {a : Arguments K O R} {p : ProcessedArguments K O R} (h : processArguments env beh a = .ok p) :
    ∃ mt g, processModelType a.modelType a.functype = .ok mt ∧ defaultAggregator a.functype mt = .ok g := by
  unfold processArguments at h
  iterate 40
    first
    | (obtain ⟨_, _, h⟩ := bindOk h)
    | skip
  exact ⟨_, _, by assumption, by assumption⟩

/-- C106: with every other model type the call raises. -/
theorem C106_other_model_types [FloorRing K] (env : PyEnv K O) (ext : Externals K O n m)
    (a : Arguments K O (Option (Piece K n))) (x : Vec K n) (bounds : Bounds K n) (hnone : a.modelType ≠ .none)
    (hother : a.modelType ≠ .str (if a.functype = "scalar" then "quadratic" else "linear")) :
    ∃ e, tranquiloCall env ext a x bounds = .error e := by
  rcases hc : tranquiloCall env ext a x bounds with e | r
  · exact ⟨e, rfl⟩
  exfalso
  unfold tranquiloCall at hc
  obtain ⟨p, hp, -⟩ := bindOk hc
  have h := processArguments_modelType hp
  obtain ⟨mt, g, h1, h2⟩ := h
  dsimp only at h1 h2
  clear hp hc
  generalize a.modelType = v at *
  generalize a.functype = ft at *
  cases v with
  | none => exact hnone rfl
  | str s =>
    unfold processModelType at h1
    dsimp only at h1
    split at h1
    · have h3 : mt = s := (Except.ok.inj h1).symm
      rw [h3] at h2
      unfold defaultAggregator at h2
      apply hother
      by_cases hs : ft = "scalar"
      · subst hs
        by_cases hq : s = "quadratic"
        · subst hq; rfl
        · simp [hq] at h2
      · rw [if_neg hs]
        by_cases hq : s = "linear"
        · rw [hq]
        · simp [hs, hq] at h2
    · cases h1
  | _ => cases h1

/-- The claim of C106 for calls that name the model type: all hypotheses are those of `C106_call_returns_partial`. -/
theorem C106_call_with_model_type_returns_partial [IsStrictOrderedRing K] [FloorRing K] (env : PyEnv K O)
    (ext : Externals K O n m) (hext : ext.Spec) (o : CallOptions K) (ho : o.Valid)
    (hscalar : o.functype = "scalar" → m = 1) (hnoisy : o.noisy = true → ext.FiniteData) (x : Vec K n)
    (hx0 : ∃ i, x i ≠ 0) (bounds : Bounds K n)
    (hball : (∀ y, InBounds bounds y) ∨ ext.StaysInBall o.sphereSubsolver) (hx : InBounds bounds x)
    (hsides : ∀ i l u, bounds.lower i = some l → bounds.upper i = some u → l < u) (t : String) :
    (∃ r, tranquiloCall env ext { o.arguments with modelType := .str t } x bounds = .ok (some r) ∧
      InBounds bounds r.state.x ∧ (∀ y ∈ r.log.xs, InBounds bounds y) ∧
      r.log.xs[r.state.index]? = some r.state.x ∧ r.states.length ≤ o.maxIter.toNat + 1) ↔
    (o.functype = "scalar" ∧ t = "quadratic") ∨ (o.functype ≠ "scalar" ∧ t = "linear") := by
  have hret := C106_call_returns_partial env ext hext o ho hscalar hnoisy x hx0 bounds hball hx hsides
  have hiff : ((o.functype = "scalar" ∧ t = "quadratic") ∨ (o.functype ≠ "scalar" ∧ t = "linear")) ↔
      t = if o.functype = "scalar" then "quadratic" else "linear" := by
    by_cases h : o.functype = "scalar" <;> simp [h]
  rw [hiff]
  constructor
  · rintro ⟨r, hr, -⟩
    by_contra hne
    obtain ⟨e, he⟩ := C106_other_model_types env ext
      ({ (o.arguments : Arguments K O (Option (Piece K n))) with modelType := .str t }) x bounds (by simp)
      (by intro h; exact hne (PyVal.str.inj h))
    rw [he] at hr
    cases hr
  · rintro rfl
    have := C106_named_model_type env ext (o.arguments : Arguments K O (Option (Piece K n))) x bounds
    obtain ⟨r, hr, rest⟩ := hret
    exact ⟨r, this.trans hr, rest⟩

/-- A noiseless call for least squares with linear models. -/
example (env : PyEnv ℝ Unit) : ∃ r, tranquiloCall env plainExternals
    { ({ functype := "least_squares" } : CallOptions ℝ).arguments with modelType := .str "linear" } (fun _ => 1 / 2)
    ⟨fun _ => some (-1), fun _ => some 1⟩ = .ok (some r) := by
  have h := (C106_call_with_model_type_returns_partial env plainExternals plainExternals_spec
    { functype := "least_squares" }
    { functype := Or.inr (Or.inr rfl), cores := by norm_num, batch := fun _ h => (by cases h)
      factor := fun _ h => (by cases h)
      perPoint := fun _ h => (by cases h), atStart := fun k h => (by cases h)
      sampler := Or.inr (Or.inr rfl)
      filter := fun _ h => (by cases h)
      fitter := fun _ h => (by cases h)
      cube := Or.inr rfl
      sphere := Or.inr (Or.inl rfl), decider := fun _ h => (by cases h) } (fun h => by simp at h)
    (fun h => by cases h) (fun _ => 1 / 2) ⟨0, by norm_num⟩
    ⟨fun _ => some (-1), fun _ => some 1⟩ (Or.inr fun _ _ _ _ h => by cases h)
    (fun i => ⟨fun l h => (by cases h; norm_num), fun u h => (by cases h; norm_num)⟩)
    (fun i l u hl hu => by cases hl; cases hu; norm_num) "linear").2 (Or.inr ⟨by simp, rfl⟩)
  obtain ⟨r, hr, -⟩ := h
  exact ⟨r, hr⟩

end Tranquilo
