import Verif.Lemmas.Models
import Mathlib.Tactic.NormNum
import Mathlib.Tactic.FinCases

/-!
# C31 (moving models), C32 (adding models), and part of C36 (number of parameters)
-/

namespace Tranquilo

variable {K : Type} [Field K] [LinearOrder K] [IsStrictOrderedRing K] {n m : Nat}

/-- C31 for vector models. What is missing: models with second order terms when one of
the regions is a box with unequal sides; there the claim is false, see `C31_violated_in_boxes`. -/
theorem C31_vector_model_partial (cr : K → K) (v : VectorModel K n m) (old new : Region K n)
    (hv : v.FittedOn cr old)
    (hold : ∀ i, old.effectiveRadius cr i ≠ 0) (hnew : ∀ i, new.effectiveRadius cr i ≠ 0)
    (hsym : ∀ h, v.squareTerms = some h → ∀ k, SymmetricMat (h k))
    (hu : v.squareTerms = none ∨
      (Uniform (old.effectiveRadius cr) ∧ Uniform (new.effectiveRadius cr))) :
    (∀ x, (v.move cr new).predict (new.mapToUnit cr x) = v.predict (old.mapToUnit cr x)) ∧
    (v.move cr new).FittedOn cr new := by
  obtain ⟨hsh, hsc⟩ := hv
  refine ⟨fun x => ?_, ?_, ?_⟩
  · funext k
    rw [VectorModel.predict_eq, VectorModel.predict_eq]
    set f : Vec K n := fun i => 1 / v.scale i with hf
    set d : Vec K n := fun i => new.effectiveCenter cr i - v.shift i with hd
    set sq : Option (Mat K n n) := v.squareTerms.map fun h => h k with hsq
    have hsqn : v.squareTerms = none → sq = none := fun h => by rw [hsq, h]; rfl
    have hunif : ∀ i j, (v.squareTerms = none ∨ f i = f j) := fun i j => by
      rcases hu with h | h
      · exact .inl h
      · right; simp only [hf, hsc]; rw [h.1 i j]
    set sq1 : Option (Mat K n n) := sq.map fun h i j => h i j * f j ^ 2 with hsq1
    -- coefficients of the moved model
    have hmv : polyVal ((v.move cr new).intercepts k) ((v.move cr new).linearTerms k)
        ((v.move cr new).squareTerms.map fun h => h k) (new.mapToUnit cr x)
        = polyVal (polyVal (v.intercepts k) (fun i => v.linearTerms k i * f i) sq1 d)
            (fun i => (v.linearTerms k i * f i + sqMul sq1 d i) * new.effectiveRadius cr i)
            (sq1.map fun h i j => h i j * new.effectiveRadius cr j ^ 2) (new.mapToUnit cr x) := by
      unfold VectorModel.move VectorModel.shiftBy VectorModel.scaleBy
      simp only [VectorModel.predict_eq]
      cases hv2 : v.squareTerms with
      | none => simp [hsq1, hsq, hv2, hf, hd, sqMul]
      | some h =>
        simp only [hsq1, hsq, hv2, Option.map_some, sqMul]
        congr 1
        funext i
        congr 2
        refine Finset.sum_congr rfl fun j _ => ?_
        have hs := hsym h hv2 k i j
        rcases hunif i j with h0 | h0
        · rw [h0] at hv2; cases hv2
        · simp only [hf, hd] at h0 ⊢
          rw [hs, h0]; ring
    rw [hmv, polyVal_scale _ _ _ _ _ (by
      rcases hu with h | h
      · left; rw [hsq1, hsqn h]; rfl
      · exact .inr h.2)]
    rw [polyVal_shift _ _ sq1 d _ (by
      intro a ha i j
      cases hv2 : v.squareTerms with
      | none => rw [hsq1, hsqn hv2] at ha; cases ha
      | some h =>
        simp only [hsq1, hsq, hv2, Option.map_some, Option.some.injEq] at ha
        subst ha
        simp only
        rw [hsym h hv2 k i j]
        rcases hunif i j with h0 | h0
        · rw [h0] at hv2; cases hv2
        · rw [h0])]
    rw [hsq1, polyVal_scale _ _ _ _ _ (by
      rcases hu with h | h
      · exact .inl (hsqn h)
      · right; intro i j; simp only [hf, hsc]; rw [h.1 i j])]
    congr 1
    funext i
    rw [mapToUnit_eq cr new x hnew i, mapToUnit_eq cr old x hold i]
    simp only [hf, hd, hsc, hsh]
    have h1 := hnew i
    have h2 := hold i
    field_simp
    ring
  · funext i; simp [VectorModel.move, VectorModel.scaleBy, VectorModel.shiftBy]
  · funext i
    have h2 := hold i
    rw [← hsc] at h2
    simp only [VectorModel.move, VectorModel.scaleBy, VectorModel.shiftBy]
    field_simp

/-- C31 for models on balls. -/
theorem C31_spheres (cr : K → K) (v : VectorModel K n m) (old new : Region K n)
    (hv : v.FittedOn cr old) (hso : old.shape = .sphere) (hsn : new.shape = .sphere)
    (hold : old.radius ≠ 0) (hnew : new.radius ≠ 0)
    (hsym : ∀ h, v.squareTerms = some h → ∀ k, SymmetricMat (h k)) (x : Vec K n) :
    (v.move cr new).predict (new.mapToUnit cr x) = v.predict (old.mapToUnit cr x) :=
  (C31_vector_model_partial cr v old new hv
    (fun i => by simp [Region.effectiveRadius, hso, hold])
    (fun i => by simp [Region.effectiveRadius, hsn, hnew]) hsym
    (.inr ⟨uniform_of_sphere cr old hso, uniform_of_sphere cr new hsn⟩)).1 x

/-- C31 for linear models (no second order terms) on all regions, boxes included. -/
theorem C31_linear_models (cr : K → K) (v : VectorModel K n m) (old new : Region K n)
    (hv : v.FittedOn cr old) (hlin : v.squareTerms = none)
    (hold : ∀ i, old.effectiveRadius cr i ≠ 0) (hnew : ∀ i, new.effectiveRadius cr i ≠ 0)
    (x : Vec K n) :
    (v.move cr new).predict (new.mapToUnit cr x) = v.predict (old.mapToUnit cr x) :=
  (C31_vector_model_partial cr v old new hv hold hnew (fun h hh => by rw [hlin] at hh; cases hh)
    (.inl hlin)).1 x

/-- A scalar model as a vector model with one residual. -/
def ScalarModel.toVector (s : ScalarModel K n) : VectorModel K n 1 where
  intercepts _ := s.intercept
  linearTerms _ := s.linearTerms
  squareTerms := s.squareTerms.map fun h _ => h
  scale := s.scale
  shift := s.shift

omit [LinearOrder K] [IsStrictOrderedRing K] in
theorem toVector_predict (s : ScalarModel K n) (x : Vec K n) : s.toVector.predict x 0 = s.predict x := by
  rw [VectorModel.predict_eq, ScalarModel.predict_eq]
  congr 1
  unfold ScalarModel.toVector
  cases s.squareTerms <;> rfl

/-- C31 for scalar models on balls; models without second order terms raise a `TypeError` instead. -/
theorem C31_scalar_model_partial (cr : K → K) (s : ScalarModel K n) (old new : Region K n)
    (hv : s.FittedOn cr old) (h : Mat K n n) (hsq : s.squareTerms = some h) (hsym : SymmetricMat h)
    (hold : ∀ i, old.effectiveRadius cr i ≠ 0) (hnew : ∀ i, new.effectiveRadius cr i ≠ 0)
    (huo : Uniform (old.effectiveRadius cr)) (hun : Uniform (new.effectiveRadius cr)) :
    ∃ s', s.move cr new = .ok s' ∧ s'.FittedOn cr new ∧
      ∀ x, s'.predict (new.mapToUnit cr x) = s.predict (old.mapToUnit cr x) := by
  have key := C31_vector_model_partial cr s.toVector old new hv hold hnew
    (fun h' hh k => by
      simp only [ScalarModel.toVector, hsq, Option.map_some, Option.some.injEq] at hh
      subst hh; exact hsym) (.inr ⟨huo, hun⟩)
  unfold ScalarModel.move ScalarModel.shiftBy
  simp only [ScalarModel.scaleBy, hsq, Option.map_some]
  refine ⟨_, rfl, ?_, ?_⟩
  · exact ⟨key.2.1, key.2.2⟩
  · intro x
    rw [← toVector_predict s, ← key.1 x, VectorModel.predict_eq, ScalarModel.predict_eq]
    simp only [VectorModel.move, VectorModel.shiftBy, VectorModel.scaleBy, VectorModel.predict_eq,
      ScalarModel.predict_eq, ScalarModel.toVector, hsq, Option.map_some]
    congr 1
    funext i
    congr 2
    refine Finset.sum_congr rfl fun j _ => ?_
    rw [hsym i j, hv.2, huo i j]; ring

/-- A scalar model without second order terms cannot be moved. -/
theorem C31_violated_for_linear_scalar_models (cr : K → K) (s : ScalarModel K n) (new : Region K n)
    (h : s.squareTerms = none) : s.move cr new = .error .typeError := by
  unfold ScalarModel.move ScalarModel.shiftBy
  simp only [ScalarModel.scaleBy, h, Option.map_none]
  rfl

/-- Box used in the counterexample: the first parameter is close to its upper bound. -/
def witnessBox : Region ℚ 2 where
  center := fun _ => 0
  radius := 2
  bounds := ⟨fun _ => none, fun i => if i = 0 then some 0 else none⟩

/-- Ball used in the counterexample. -/
def witnessBall : Region ℚ 2 where
  center := fun _ => 0
  radius := 2
  bounds := ⟨fun _ => none, fun _ => none⟩

/-- The model `x ↦ x_0 * x_1`, in unit coordinates of `witnessBall`. -/
def witnessModel : VectorModel ℚ 2 1 where
  intercepts _ := 0
  linearTerms _ _ := 0
  squareTerms := some fun _ i j => if i = j then 0 else 4
  scale _ := 2
  shift _ := 0

/-- C31 is false in boxes: moving `x_0 * x_1` from a ball to a box with sides 2 and 4 changes the
prediction at the point (-2, 2) from -4 to another value. -/
theorem C31_violated_in_boxes :
    witnessModel.FittedOn id witnessBall ∧ witnessBall.shape = .sphere ∧ witnessBox.shape = .cube ∧
    (∀ h, witnessModel.squareTerms = some h → ∀ k, SymmetricMat (h k)) ∧
    (witnessModel.predict (witnessBall.mapToUnit id ![-2, 2]) = fun _ => -4) ∧
    ((witnessModel.move id witnessBox).predict (witnessBox.mapToUnit id ![-2, 2])
      ≠ witnessModel.predict (witnessBall.mapToUnit id ![-2, 2])) := by
  refine ⟨⟨?_, ?_⟩, by decide +kernel, by decide +kernel, ?_, by decide +kernel, by decide +kernel⟩
  · decide +kernel
  · decide +kernel
  · intro h hh k i j
    simp only [witnessModel, Option.some.injEq] at hh
    subst hh
    simp only [eq_comm]

/-- C31 is not vacuous: a quadratic model moved between two balls. -/
example :
    let new : Region ℚ 2 := { center := ![1, 3], radius := 5, bounds := ⟨fun _ => none, fun _ => none⟩ }
    new.shape = .sphere ∧ (witnessModel.move id new).intercepts 0 = 3 := by
  decide +kernel

omit [IsStrictOrderedRing K] in
theorem allClose_iff (a b : Vec K n) : allClose a b = true ↔ Close a b := by
  unfold allClose Close; exact decide_eq_true_iff

omit [IsStrictOrderedRing K] in
theorem polyVal_add (c c' : K) (g g' : Vec K n) (sq sq' : Option (Mat K n n)) (x : Vec K n)
    (s : Option (Mat K n n))
    (h : (sq = none ∧ s = none ∧ ∀ a, sq' = some a → halfQuad a x = 0) ∨
      ∃ a b, sq = some a ∧ sq' = some b ∧ s = some fun i j => a i j + b i j) :
    polyVal (c + c') (fun i => g i + g' i) s x = polyVal c g sq x + polyVal c' g' sq' x := by
  have hl : ∑ i, (g i + g' i) * x i = ∑ i, g i * x i + ∑ i, g' i * x i := by
    rw [← Finset.sum_add_distrib]; exact Finset.sum_congr rfl fun i _ => by ring
  unfold polyVal
  rcases h with ⟨rfl, rfl, h⟩ | ⟨a, b, rfl, rfl, rfl⟩
  · rw [hl]
    cases sq' with
    | none => simp only []; ring
    | some b =>
      have := h b rfl
      rw [halfQuad_eq] at this
      simp only [this]; ring
  · rw [hl]
    have : ∑ i, ∑ j, (a i j + b i j) * x i * x j
        = ∑ i, ∑ j, a i j * x i * x j + ∑ i, ∑ j, b i j * x i * x j := by
      simp only [← Finset.sum_add_distrib]
      exact Finset.sum_congr rfl fun i _ => Finset.sum_congr rfl fun j _ => by ring
    simp only [this]; ring

/-- C32, vector models. Whenever a sum is returned the models were close in shift and scale and, if
both or none have second order terms, the sum predicts the sum. Missing: a first model without and a
second model with second order terms, see `C32_violated`. -/
theorem C32_vector_models_partial (a b s : VectorModel K n m) (h : a.add b = .ok s)
    (hq : a.squareTerms.isSome ∨ b.squareTerms = none ∨
      ∀ q, b.squareTerms = some q → ∀ k i j, q k i j = 0) :
    Close a.shift b.shift ∧ Close a.scale b.scale ∧ s.shift = a.shift ∧ s.scale = a.scale ∧
    ∀ x k, s.predict x k = a.predict x k + b.predict x k := by
  unfold VectorModel.add at h
  split at h
  · cases h
  · rename_i h1
    split at h
    · cases h
    · rename_i h2
      have c1 : Close a.shift b.shift := (allClose_iff _ _).1 (by simpa using h1)
      have c2 : Close a.scale b.scale := (allClose_iff _ _).1 (by simpa using h2)
      refine ⟨c1, c2, ?_⟩
      cases ha : a.squareTerms with
      | none =>
        rw [ha] at h
        simp only [addSquare] at h
        cases h
        refine ⟨rfl, rfl, fun x k => ?_⟩
        rw [VectorModel.predict_eq, VectorModel.predict_eq, VectorModel.predict_eq]
        refine polyVal_add _ _ _ _ _ _ _ _ (.inl ⟨by rw [ha]; rfl, rfl, ?_⟩)
        intro q hq'
        cases hb : b.squareTerms with
        | none => rw [hb] at hq'; cases hq'
        | some q' =>
          rw [hb] at hq'
          simp only [Option.map_some, Option.some.injEq] at hq'
          subst hq'
          rcases hq with h' | h' | h'
          · rw [ha] at h'; cases h'
          · rw [hb] at h'; cases h'
          · simp [halfQuad, h' q' hb]
      | some qa =>
        cases hb : b.squareTerms with
        | none => rw [ha, hb] at h; cases h
        | some qb =>
          rw [ha, hb] at h
          simp only [addSquare] at h
          cases h
          refine ⟨rfl, rfl, fun x k => ?_⟩
          rw [VectorModel.predict_eq, VectorModel.predict_eq, VectorModel.predict_eq]
          exact polyVal_add _ _ _ _ _ _ _ _ (.inr ⟨qa k, qb k, by rw [ha]; rfl, by rw [hb]; rfl, rfl⟩)

/-- C32, scalar models. -/
theorem C32_scalar_models_partial (a b s : ScalarModel K n) (h : a.add b = .ok s)
    (hq : a.squareTerms.isSome ∨ b.squareTerms = none) :
    Close a.shift b.shift ∧ Close a.scale b.scale ∧ s.shift = a.shift ∧ s.scale = a.scale ∧
    ∀ x, s.predict x = a.predict x + b.predict x := by
  unfold ScalarModel.add at h
  split at h
  · cases h
  · rename_i h1
    split at h
    · cases h
    · rename_i h2
      have c1 : Close a.shift b.shift := (allClose_iff _ _).1 (by simpa using h1)
      have c2 : Close a.scale b.scale := (allClose_iff _ _).1 (by simpa using h2)
      refine ⟨c1, c2, ?_⟩
      cases ha : a.squareTerms with
      | none =>
        rw [ha] at h
        simp only [addSquare] at h
        cases h
        refine ⟨rfl, rfl, fun x => ?_⟩
        rw [ScalarModel.predict_eq, ScalarModel.predict_eq, ScalarModel.predict_eq]
        refine polyVal_add _ _ _ _ _ _ _ _ (.inl ⟨ha, rfl, ?_⟩)
        intro q hq'
        rcases hq with h' | h'
        · rw [ha] at h'; cases h'
        · rw [h'] at hq'; cases hq'
      | some qa =>
        cases hb : b.squareTerms with
        | none => rw [ha, hb] at h; cases h
        | some qb =>
          rw [ha, hb] at h
          simp only [addSquare] at h
          cases h
          refine ⟨rfl, rfl, fun x => ?_⟩
          rw [ScalarModel.predict_eq, ScalarModel.predict_eq, ScalarModel.predict_eq]
          exact polyVal_add _ _ _ _ _ _ _ _ (.inr ⟨qa, qb, ha, hb, rfl⟩)

omit [IsStrictOrderedRing K] in
/-- C32, rejections: mixed types are a `TypeError`; shifts or scales that are not close a
`ValueError`; compatible models are added. -/
theorem C32_rejections (a b : ScalarModel K n) (v w : VectorModel K n m) :
    addModels (AnyModel.scalar (m := m) a) (.vector v) = .error .typeError ∧
    addModels (.vector v) (AnyModel.scalar (m := m) a) = .error .typeError ∧
    (¬ (Close a.shift b.shift ∧ Close a.scale b.scale) →
      addModels (AnyModel.scalar (m := m) a) (.scalar b) = .error .valueError) ∧
    (¬ (Close v.shift w.shift ∧ Close v.scale w.scale) →
      addModels (.vector v) (.vector w) = .error .valueError) ∧
    (Close v.shift w.shift → Close v.scale w.scale → (v.squareTerms.isSome = w.squareTerms.isSome) →
      ∃ s, addModels (.vector v) (.vector w) = .ok (.vector s)) := by
  refine ⟨rfl, rfl, fun h => ?_, fun h => ?_, fun h1 h2 h3 => ?_⟩
  · simp only [addModels, ScalarModel.add]
    rw [← allClose_iff, ← allClose_iff] at h
    cases h1 : allClose a.shift b.shift <;> cases h2 : allClose a.scale b.scale <;>
      simp_all [Except.map]
  · simp only [addModels, VectorModel.add]
    rw [← allClose_iff, ← allClose_iff] at h
    cases h1 : allClose v.shift w.shift <;> cases h2 : allClose v.scale w.scale <;>
      simp_all [Except.map]
  · rw [← allClose_iff] at h1 h2
    simp only [addModels, VectorModel.add, h1, h2]
    cases hv : v.squareTerms <;> cases hw : w.squareTerms <;> rw [hv, hw] at h3
    · exact ⟨_, rfl⟩
    · cases h3
    · cases h3
    · exact ⟨_, rfl⟩

/-- C32 is false if the first model has no second order terms but the second one has: the second order
terms are dropped without an error. -/
theorem C32_violated :
    let a : ScalarModel ℚ 1 := ⟨0, fun _ => 0, none, fun _ => 1, fun _ => 0⟩
    let b : ScalarModel ℚ 1 := ⟨0, fun _ => 0, some fun _ _ => 2, fun _ => 1, fun _ => 0⟩
    okAnd (fun s => s.predict (fun _ => 1) ≠ a.predict (fun _ => 1) + b.predict (fun _ => 1))
      (a.add b) = true := by
  decide +kernel

/-- C32 is not vacuous: two quadratic models are added. -/
example :
    okAnd (fun s => s.predict ![1, 1] 0 = 8) (witnessModel.add witnessModel) = true := by
  decide +kernel

end Tranquilo
