import Verif.Lemmas.MirrorFit

/-!
# Least squares and features in mirrored parameters
-/

namespace Tranquilo

variable {K : Type} [Field K] [LinearOrder K] [IsStrictOrderedRing K] {n m N p : Nat}

/-! ### Least squares -/

theorem residSq_sign (ρ : Vec K N) (π : Vec K p) (hρ : ∀ s, ρ s * ρ s = 1) (hπ : ∀ k, π k * π k = 1)
    (a : Mat K N p) (y : Vec K N) (c : Vec K p) :
    residSq (fun s k => ρ s * a s k * π k) (fun s => ρ s * y s) (fun k => π k * c k) =
      residSq a y c := by
  simp only [residSq]
  refine Finset.sum_congr rfl fun s _ => ?_
  have : ∑ k, ρ s * a s k * π k * (π k * c k) = ρ s * ∑ k, a s k * c k := by
    rw [Finset.mul_sum]
    refine Finset.sum_congr rfl fun k _ => ?_
    linear_combination (ρ s * a s k * c k) * hπ k
  rw [this]
  linear_combination (((∑ k, a s k * c k) - y s) ^ 2) * hρ s

/-- Changing signs of equations does not matter, and changing signs of unknowns only changes their signs
in the result. -/
theorem lstsq_sign {lstsq : Lstsq K} (hl : LstsqSpec lstsq) (ρ : Vec K N) (π : Vec K p)
    (hρ : ∀ s, ρ s * ρ s = 1) (hπ : ∀ k, π k * π k = 1) (a : Mat K N p) (y : Vec K N) :
    lstsq N p (fun s k => ρ s * a s k * π k) (fun s => ρ s * y s) = fun k => π k * lstsq N p a y k := by
  have hback : ∀ z : Vec K p, ∃ w : Vec K p, z = fun k => π k * w k := fun z =>
    ⟨fun j => π j * z j, funext fun k => by rw [← mul_assoc, hπ, one_mul]⟩
  have hsq : ∀ z : Vec K p, ∑ k, (π k * z k) ^ 2 = ∑ k, z k ^ 2 := fun z =>
    Finset.sum_congr rfl fun k _ => by linear_combination (z k ^ 2) * hπ k
  refine lstsq_unique _ _ _ _ (hl.least _ _ _ _) (hl.shortest _ _ _ _) (fun z => ?_) fun z hz => ?_
  · obtain ⟨w, rfl⟩ := hback z
    rw [residSq_sign ρ π hρ hπ, residSq_sign ρ π hρ hπ]
    exact hl.least _ _ _ _ _
  · obtain ⟨w, rfl⟩ := hback z
    rw [residSq_sign ρ π hρ hπ, residSq_sign ρ π hρ hπ] at hz
    rw [hsq, hsq w]
    exact hl.shortest _ _ _ _ _ hz

/-! ### Features -/

section

variable (σ : Fin n → Bool)

/-- The sign of the intercept and the linear terms. -/
def linSign (i : Fin (n + 1)) : K := Fin.cases 1 (sgn σ) i

/-- The sign of the second order terms. -/
def quadSign (j : Fin (nSecondOrderTerms n)) : K :=
  sgn σ (triuPos n j).1.1 * sgn σ (triuPos n j).1.2

/-- The signs of the columns of the feature matrix. -/
def featSign : (mt : ModelType) → Fin (nCols n mt) → K
  | .linear => linSign σ
  | .quadratic => Fin.addCases (linSign σ) (quadSign σ)

theorem featSign_castAdd (i : Fin (n + 1)) :
    featSign (K := K) σ .quadratic (Fin.castAdd (nSecondOrderTerms n) i) = linSign σ i :=
  Fin.addCases_left (motive := fun _ => K) (left := linSign σ) (right := quadSign σ) i

theorem featSign_natAdd (j : Fin (nSecondOrderTerms n)) :
    featSign (K := K) σ .quadratic (Fin.natAdd (n + 1) j) = quadSign σ j :=
  Fin.addCases_right (motive := fun _ => K) (left := linSign σ) (right := quadSign σ) j

theorem linSign_sq (i : Fin (n + 1)) : linSign σ i * linSign σ i = (1 : K) := by
  refine Fin.cases ?_ (fun i => ?_) i
  · simp [linSign]
  · exact sgn_mul_self i

theorem quadSign_sq (j : Fin (nSecondOrderTerms n)) : quadSign σ j * quadSign σ j = (1 : K) := by
  unfold quadSign
  rw [mul_mul_mul_comm, sgn_mul_self, sgn_mul_self, one_mul]

theorem featSign_sq (mt : ModelType) (k : Fin (nCols n mt)) :
    featSign σ mt k * featSign σ mt k = (1 : K) := by
  cases mt with
  | linear => exact linSign_sq σ k
  | quadratic =>
    refine Fin.addCases (fun i => ?_) (fun j => ?_) k
    · rw [featSign_castAdd, linSign_sq]
    · rw [featSign_natAdd, quadSign_sq]

end

variable {σ : Fin n → Bool}

theorem featureRow_mirror (mt : ModelType) (x : Vec K n) (k : Fin (nCols n mt)) :
    (featureRow mt (mirror σ x)).getD k.val 0 = (featureRow mt x).getD k.val 0 * featSign σ mt k := by
  have hlin : ∀ i : Fin (n + 1), (Fin.cases 1 (mirror σ x) i : K) = Fin.cases 1 x i * linSign σ i := by
    intro i
    refine Fin.cases ?_ (fun i => ?_) i
    · simp [linSign]
    · simp only [Fin.cases_succ, linSign, mirror_apply]
      ring
  cases mt with
  | linear =>
    have h1 := featureRow_lin .linear (mirror σ x) k
    have h2 := featureRow_lin .linear x k
    rw [h1, h2]
    exact hlin k
  | quadratic =>
    refine Fin.addCases (fun i => ?_) (fun j => ?_) k
    · rw [featSign_castAdd, Fin.val_castAdd, featureRow_lin, featureRow_lin, hlin]
    · rw [featSign_natAdd, Fin.val_natAdd, featureRow_quad, featureRow_quad, quadSign, mirror_apply,
        mirror_apply]
      ring

theorem featureMatrix_mirror (mt : ModelType) (xs : Fin N → Vec K n) :
    featureMatrix mt (fun s => mirror σ (xs s)) =
      fun s k => featureMatrix mt xs s k * featSign σ mt k := by
  funext s k
  exact featureRow_mirror mt (xs s) k

/-! ### The model that belongs to coefficients -/

theorem reshape_mirror (coef : Vec K (nCols n .quadratic)) (i j : Fin n) :
    reshapeToHess n ((List.ofFn fun k => featSign σ .quadratic k * coef k).drop (n + 1)) i j =
      if σ i = σ j then reshapeToHess n ((List.ofFn coef).drop (n + 1)) i j
      else -reshapeToHess n ((List.ofFn coef).drop (n + 1)) i j := by
  have hmem : (if i ≤ j then (i, j) else (j, i)) ∈ triuIndices n := by
    rw [mem_triuIndices]
    split_ifs with h
    · exact h
    · exact (not_le.1 h).le
  obtain ⟨k, hk⟩ : ∃ k, (triuPos n k).1 = if i ≤ j then (i, j) else (j, i) :=
    ⟨(triuPos n).symm ⟨_, hmem⟩, by simp⟩
  have hq : (quadSign σ k : K) = sgn σ i * sgn σ j := by
    rw [quadSign, hk]
    split_ifs
    · rfl
    · exact mul_comm _ _
  rw [mirror_hess, reshape_entry _ i j k hk, reshape_entry coef i j k hk, featSign_natAdd, hq]
  ring

theorem featSign_lin (mt : ModelType) (i : Fin (n + 1)) (h : i.val < nCols n mt) :
    featSign (K := K) σ mt ⟨i.val, h⟩ = linSign σ i := by
  cases mt with
  | linear => rfl
  | quadratic => exact featSign_castAdd σ i

theorem modelOfCoef_mirror (mt : ModelType) (coef : Fin m → Vec K (nCols n mt)) (shift scale : Vec K n) :
    modelOfCoef mt (fun k j => featSign σ mt j * coef k j) (mirror σ shift) scale =
      (modelOfCoef mt coef shift scale).mirror σ := by
  have hlin : ∀ (k : Fin m) (i : Fin (n + 1)),
      (List.ofFn fun j => featSign σ mt j * coef k j).getD i.val 0 =
        linSign σ i * (List.ofFn (coef k)).getD i.val 0 := by
    intro k i
    rw [getD_ofFn_lin mt _ _ i.isLt, getD_ofFn_lin mt _ _ i.isLt]
    congr 1
    exact featSign_lin mt i _
  simp only [modelOfCoef, VectorModel.mirror, VectorModel.mk.injEq, true_and, and_true]
  refine ⟨?_, ?_, ?_⟩
  · funext k
    have := hlin k 0
    rw [show (linSign σ 0 : K) = 1 from rfl, one_mul] at this
    exact this
  · funext k i
    have := hlin k i.succ
    rw [show (linSign σ i.succ : K) = sgn σ i from rfl] at this
    rw [mirror_apply]
    simpa [Fin.val_succ, Nat.add_comm] using this
  · cases mt with
    | linear => rfl
    | quadratic =>
      simp only [Option.map_some, Option.some.injEq]
      funext k i j
      exact reshape_mirror (coef k) i j

/-- For all built in fitters but "powell" the directions of the parameters do not matter. -/
theorem builtinFitter_mirror (b : BuiltinSettings K n m) (hl : LstsqSpec b.lstsq)
    (hp : b.fitter ≠ .powell) (xs : Fin N → Vec K n) (y : Vec K N) :
    SameOutcome (fun u u' => u' = fun k => featSign σ b.modelType k * u k) (builtinFitter b xs y)
      (builtinFitter b (fun s => mirror σ (xs s)) y) := by
  have hw : ∀ {q : Nat} (a : Mat K N q), weightMat b.root none a = a := fun a => rfl
  have hv : weightVec b.root none y = y := rfl
  have hone : ∀ a : Mat K N (nCols n b.modelType),
      b.lstsq N _ (fun s k => a s k * featSign σ b.modelType k) y =
        fun k => featSign σ b.modelType k * b.lstsq N _ a y k := by
    intro a
    have := lstsq_sign hl (fun _ => 1) (featSign σ b.modelType) (fun _ => one_mul 1)
      (featSign_sq σ b.modelType) a y
    simpa only [one_mul] using this
  simp only [builtinFitter]
  cases hf : b.fitter with
  | ols =>
    simp only [SameOutcome, fitOls, featureMatrix_mirror, hw, hv]
    exact hone _
  | ridge pl ps =>
    simp only [SameOutcome, fitRidge, fitRidgeRaw, featureMatrix_mirror, hw, hv]
    rw [← lstsq_sign hl (featSign σ b.modelType) (featSign σ b.modelType) (featSign_sq σ _)
      (featSign_sq σ _)]
    congr 1
    · funext i j
      have hs : ∑ x, featureMatrix b.modelType xs x i * featSign σ b.modelType i *
          (featureMatrix b.modelType xs x j * featSign σ b.modelType j) =
          featSign σ b.modelType i *
            (∑ x, featureMatrix b.modelType xs x i * featureMatrix b.modelType xs x j) *
            featSign σ b.modelType j := by
        rw [Finset.mul_sum, Finset.sum_mul]
        exact Finset.sum_congr rfl fun x _ => by ring
      rw [hs]
      by_cases hij : i = j
      · subst hij
        rw [if_pos rfl]
        linear_combination (-byTerm n 0 pl ps i.val) * featSign_sq (K := K) σ b.modelType i
      · rw [if_neg hij]
        ring
    · funext i
      rw [Finset.mul_sum]
      exact Finset.sum_congr rfl fun x _ => by ring
  | tranquilo pi pl ps =>
    simp only [SameOutcome, fitTranquilo, featureMatrix_mirror, hw, hv]
    funext k
    have := congrFun (hone fun s k => featureMatrix b.modelType xs s k *
      byTerm n (1 / pi) (1 / pl) (1 / ps) k.val) k
    simp only [mul_right_comm _ (byTerm n (1 / pi) (1 / pl) (1 / ps) _) (featSign σ b.modelType _)] at this
    rw [this]
    ring
  | powell => exact absurd hf hp

end Tranquilo
