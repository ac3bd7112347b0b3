import Verif.Lemmas.RescaleRun
import Verif.Spec.Reorder
import Mathlib.Algebra.BigOperators.Group.Finset.Basic

/-!
# Residuals in another order
-/

namespace Tranquilo

variable {K : Type} [Field K] {n m p : Nat} (σ : Equiv.Perm (Fin m))

theorem VectorModel.reorder_predict (v : VectorModel K n m) (x : Vec K n) :
    (v.reorder σ).predict x = fun k => v.predict x (σ k) := by
  funext k
  simp only [VectorModel.predict, VectorModel.reorder]
  cases v.squareTerms <;> rfl

theorem VectorModel.reorder_scaleBy (v : VectorModel K n m) (f : Vec K n) :
    (v.reorder σ).scaleBy f = (v.scaleBy f).reorder σ := by
  simp only [VectorModel.scaleBy, VectorModel.reorder, Option.map_map]
  cases v.squareTerms <;> rfl

theorem VectorModel.reorder_shiftBy (v : VectorModel K n m) (f : Vec K n) :
    (v.reorder σ).shiftBy f = (v.shiftBy f).reorder σ := by
  have hp := VectorModel.reorder_predict σ v f
  unfold VectorModel.shiftBy
  rw [hp]
  simp only [VectorModel.reorder]
  cases v.squareTerms <;> rfl

theorem VectorModel.reorder_move (cr : K → K) [LinearOrder K] (v : VectorModel K n m) (r : Region K n) :
    (v.reorder σ).move cr r = (v.move cr r).reorder σ := by
  unfold VectorModel.move
  dsimp only
  rw [show (v.reorder σ).scale = v.scale from rfl, show (v.reorder σ).shift = v.shift from rfl,
    VectorModel.reorder_scaleBy, VectorModel.reorder_shiftBy, VectorModel.reorder_scaleBy]

variable [LinearOrder K]

theorem VectorModel.reorder_add (v w : VectorModel K n m) :
    (v.reorder σ).add (w.reorder σ) = (v.add w).map (VectorModel.reorder σ) := by
  unfold VectorModel.add
  rw [show (v.reorder σ).scale = v.scale from rfl, show (v.reorder σ).shift = v.shift from rfl,
    show (w.reorder σ).scale = w.scale from rfl, show (w.reorder σ).shift = w.shift from rfl]
  split_ifs
  · rfl
  · rfl
  · simp only [VectorModel.reorder]
    cases v.squareTerms <;> cases w.squareTerms <;> rfl

omit [LinearOrder K] in
theorem aggregate_reorder (name : String) (v : VectorModel K n m) :
    aggregate name (v.reorder σ) = aggregate name v := by
  have hs : ∀ f : Fin m → K, ∑ k, f (σ k) = ∑ k, f k := fun f => Equiv.sum_comp σ f
  have hl : (fun i => ∑ k, v.linearTerms (σ k) i) = fun i => ∑ k, v.linearTerms k i :=
    funext fun i => hs fun k => v.linearTerms k i
  unfold aggregate
  have h1 : aggregatorIdentity (v.reorder σ) = aggregatorIdentity v := by
    unfold aggregatorIdentity
    by_cases hm : m = 1
    · subst hm
      have hk : ∀ k : Fin 1, σ k = k := fun k => Subsingleton.elim _ _
      rw [dif_pos rfl, dif_pos rfl]
      simp only [VectorModel.reorder, hk, aggregateWith]
      cases v.squareTerms <;> rfl
    · rw [dif_neg hm, dif_neg hm]
  have h2 : aggregatorSum (v.reorder σ) = aggregatorSum v := by
    unfold aggregatorSum
    simp only [VectorModel.reorder]
    cases v.squareTerms with
    | none => rfl
    | some q =>
      simp only [Option.map_some, aggregateWith]
      rw [hs v.intercepts]
      rw [hl, funext fun i => funext fun j => hs fun k => q k i j]
  have h3 : aggregatorInformation (v.reorder σ) = aggregatorInformation v := by
    simp only [aggregatorInformation, aggregateWith, VectorModel.reorder]
    rw [hs v.intercepts]
    rw [hl]
    have : ∀ i j, ∑ k, v.linearTerms (σ k) i * v.linearTerms (σ k) j =
        ∑ k, v.linearTerms k i * v.linearTerms k j :=
      fun i j => hs fun k => v.linearTerms k i * v.linearTerms k j
    simp only [this]
  have h4 : aggregatorLeastSquares (v.reorder σ) = aggregatorLeastSquares v := by
    simp only [aggregatorLeastSquares, aggregateWith, VectorModel.reorder]
    rw [hs fun k => v.intercepts k * v.intercepts k]
    have e1 : ∀ i j, ∑ k, 2 * v.linearTerms (σ k) i * v.linearTerms (σ k) j =
        ∑ k, 2 * v.linearTerms k i * v.linearTerms k j :=
      fun i j => hs fun k => 2 * v.linearTerms k i * v.linearTerms k j
    have e2 : ∀ i, ∑ k, v.linearTerms (σ k) i * v.intercepts (σ k) =
        ∑ k, v.linearTerms k i * v.intercepts k :=
      fun i => hs fun k => v.linearTerms k i * v.intercepts k
    simp only [e1, e2]
  rw [h1, h2, h3, h4]

/-- The fitters raise for all residuals or for none. -/
theorem builtinFitter_cases {N : Nat} (b : BuiltinSettings K n m) (xs : Fin N → Vec K n) :
    (∃ e, ∀ y, builtinFitter b xs y = .error e) ∨
      ∃ f : Vec K N → Vec K (nCols n b.modelType), ∀ y, builtinFitter b xs y = .ok (f y) := by
  unfold builtinFitter
  cases b.fitter with
  | ols => exact .inr ⟨_, fun _ => rfl⟩
  | ridge => exact .inr ⟨_, fun _ => rfl⟩
  | tranquilo => exact .inr ⟨_, fun _ => rfl⟩
  | powell =>
    dsimp only
    unfold fitPowell fitMinFrobenius
    split_ifs
    · exact .inr ⟨_, fun _ => rfl⟩
    · exact .inr ⟨_, fun _ => rfl⟩
    · exact .inl ⟨_, fun _ => rfl⟩
    · exact .inr ⟨_, fun _ => rfl⟩

omit [Field K] [LinearOrder K] in
theorem collectColumns_all_ok [Zero K] {f : Fin m → Except Err (Vec K p)} {c : Fin m → Vec K p}
    (h : ∀ k, f k = .ok (c k)) : (List.finRange m).mapM f = .ok ((List.finRange m).map c) := by
  generalize List.finRange m = l
  induction l with
  | nil => rfl
  | cons k l ih => rw [List.mapM_cons, h, ih]; rfl

omit [LinearOrder K] in
theorem collectColumns_reorder {N : Nat} {g : Vec K N → Except Err (Vec K p)}
    (hg : (∃ e, ∀ y, g y = .error e) ∨ ∃ f : Vec K N → Vec K p, ∀ y, g y = .ok (f y))
    (y : Fin m → Vec K N) :
    (collectColumns fun k => g (y (σ k))) = (collectColumns fun k => g (y k)).map fun c k => c (σ k) := by
  rcases hg with ⟨e, he⟩ | ⟨f, hf⟩
  · have : ∀ q : Fin m → Vec K N, (collectColumns fun k => g (q k)) =
        if m = 0 then .ok (fun _ _ => 0) else .error e := by
      intro q
      simp only [collectColumns, he]
      cases m with
      | zero => rfl
      | succ m => rw [List.finRange_succ, List.mapM_cons]; rfl
    rw [this, this]
    split_ifs <;> rfl
  · have : ∀ q : Fin m → Vec K N, (collectColumns fun k => g (q k)) = .ok fun k => f (q k) := by
      intro q
      simp only [collectColumns]
      rw [collectColumns_all_ok (c := fun k => f (q k)) fun k => hf (q k)]
      change Except.ok _ = Except.ok _
      congr 1
      funext k
      simp [List.getD_eq_getElem?_getD]
    rw [this, this]
    rfl

omit [LinearOrder K] in
theorem modelOfCoef_reorder (mt : ModelType) (coef : Fin m → Vec K (nCols n mt)) (shift scale : Vec K n) :
    modelOfCoef mt (fun k => coef (σ k)) shift scale = (modelOfCoef mt coef shift scale).reorder σ := by
  cases mt <;> rfl

theorem fitTemplate_reorder {N : Nat} (b : BuiltinSettings K n m) (region : Region K n)
    (old : VectorModel K n m) (xs : Fin N → Vec K n) (y : Fin N → Fin m → XVal K) :
    builtinFitTemplate b region (old.reorder σ) xs (fun s k => y s (σ k)) =
      (builtinFitTemplate b region old xs y).map (VectorModel.reorder σ) := by
  unfold builtinFitTemplate
  split_ifs with h0 h1
  · rfl
  · dsimp only
    simp only [VectorModel.reorder_move, VectorModel.reorder_predict]
    have := collectColumns_reorder σ (builtinFitter_cases b fun s => region.mapToUnit b.cubeRadius (xs s))
      fun k s => clipColumns y s k -
        (old.move b.cubeRadius region).predict (region.mapToUnit b.cubeRadius (xs s)) k
    have hc : ∀ s k, clipColumns (fun s k => y s (σ k)) s k = clipColumns y s (σ k) := fun _ _ => rfl
    simp only [hc]
    rw [this]
    cases collectColumns fun k => builtinFitter b (fun s => region.mapToUnit b.cubeRadius (xs s)) fun s =>
        clipColumns y s k - (old.move b.cubeRadius region).predict (region.mapToUnit b.cubeRadius (xs s)) k with
    | error e => rfl
    | ok coef =>
      change VectorModel.add (modelOfCoef _ (fun k => coef (σ k)) _ _) _ = Except.map _ (VectorModel.add _ _)
      rw [modelOfCoef_reorder, VectorModel.reorder_add]
  · dsimp only
    have := collectColumns_reorder σ (builtinFitter_cases b fun s => region.mapToUnit b.cubeRadius (xs s))
      fun k s => clipColumns y s k
    have hc : ∀ s k, clipColumns (fun s k => y s (σ k)) s k = clipColumns y s (σ k) := fun _ _ => rfl
    simp only [hc]
    rw [this]
    cases collectColumns fun k => builtinFitter b (fun s => region.mapToUnit b.cubeRadius (xs s)) fun s =>
        clipColumns y s k with
    | error e => rfl
    | ok coef =>
      change Except.ok _ = Except.ok _
      rw [modelOfCoef_reorder]

end Tranquilo
