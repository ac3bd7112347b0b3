import Verif.Model.NoiseVariance
import Verif.Props.Aggregate
import Verif.Props.Fit
import Verif.Props.Subproblem

/-!
# C72: the simulation of the noise of rho
-/

namespace Tranquilo

variable {K : Type} [Field K] [LinearOrder K] [IsStrictOrderedRing K] {n m N : Nat}

/-- What is assumed about `rng.multivariate_normal` (numpy documentation): it returns as many draws as
requested, and without variance all draws are equal to the mean, which is zero here. -/
structure DrawsSpec (draws : Mat K m m → Nat → List (Fin N → Vec K m)) : Prop where
  count : ∀ cov k, (draws cov k).length = k
  noNoise : ∀ k, ∀ d ∈ draws (fun _ _ => 0) k, ∀ s a, d s a = 0

omit [Field K] [LinearOrder K] [IsStrictOrderedRing K] in
theorem except_mapM_length {α β : Type} (g : α → Except Err β) (l : List α) (out : List β)
    (h : l.mapM g = .ok out) : out.length = l.length := by
  induction l generalizing out with
  | nil =>
    simp only [List.mapM_nil] at h
    cases h
    rfl
  | cons a l ih =>
    rw [List.mapM_cons] at h
    cases ha : g a with
    | error e => rw [ha] at h; cases h
    | ok b =>
      cases hl : l.mapM g with
      | error e => rw [ha, hl] at h; cases h
      | ok bs =>
        rw [ha, hl] at h
        cases h
        simp [ih bs hl]

omit [Field K] [LinearOrder K] [IsStrictOrderedRing K] in
theorem except_mapM_const {α β : Type} (g : α → Except Err β) (l : List α) (b : β)
    (h : ∀ a ∈ l, g a = .ok b) : l.mapM g = .ok (List.replicate l.length b) := by
  induction l with
  | nil => rfl
  | cons a l ih =>
    rw [List.mapM_cons, h a (by simp), ih fun a' ha' => h a' (by simp [ha'])]
    rfl

variable (cr : K → K)
  (fit : (Fin N → Vec K n) → (Fin N → Vec K m) → Region K n → VectorModel K n m →
    Except Err (VectorModel K n m))
  (aggregator : VectorModel K n m → Except Err (ScalarModel K n))
  (solve : ScalarModel K n → Region K n → Except Err (SubproblemResult K n))
  (draws : Mat K m m → Nat → List (Fin N → Vec K m))

omit [IsStrictOrderedRing K] in
/-- C72: as many values as requested. -/
theorem C72_number_of_values (hd : DrawsSpec draws) (k : Int) (ignore : Bool) (xs : Fin N → Vec K n)
    (model old : VectorModel K n m) (region : Region K n) (cov : Mat K m m) (rhos : List (XVal K))
    (h : simulateRhoNoise cr fit aggregator solve draws k ignore xs model old region cov = .ok rhos) :
    0 ≤ k ∧ (rhos.length : Int) = k := by
  unfold simulateRhoNoise at h
  cases ha : aggregator model with
  | error e => rw [ha] at h; cases h
  | ok tm =>
    rw [ha] at h
    change (if k < 0 then _ else _) = _ at h
    by_cases hk : k < 0
    · simp only [hk, if_true] at h
      cases h
    · have h' : (draws (dropCorrelation ignore cov) k.toNat).mapM (fun draw =>
          simulateOneRho cr fit aggregator solve region old xs
            (fun s => model.predict (region.mapToUnit cr (xs s))) tm draw) = .ok rhos := by
        simpa only [hk, if_false] using h
      have := except_mapM_length _ _ _ h'
      rw [hd.count] at this
      omega

omit [IsStrictOrderedRing K] in
/-- C72: with `ignore_corelation` the noise is drawn with the variances on the diagonal and without
covariances. -/
theorem C72_correlation_ignored (k : Int) (xs : Fin N → Vec K n) (model old : VectorModel K n m)
    (region : Region K n) (cov : Mat K m m) :
    simulateRhoNoise cr fit aggregator solve draws k true xs model old region cov
      = simulateRhoNoise cr fit aggregator solve draws k false xs model old region
          (fun a b => if a = b then cov a a else 0) := by
  unfold simulateRhoNoise
  have h : dropCorrelation true cov = dropCorrelation false fun a b => if a = b then cov a a else 0 := by
    funext a b
    unfold dropCorrelation
    by_cases hab : a = b
    · subst hab; simp
    · simp [hab]
  rw [h]

omit [IsStrictOrderedRing K] in
/-- C72: otherwise the noise is drawn with the given covariance matrix: a generator that agrees for this
matrix leads to the same result. -/
theorem C72_noise_as_given (draws' : Mat K m m → Nat → List (Fin N → Vec K m)) (k : Int)
    (xs : Fin N → Vec K n) (model old : VectorModel K n m) (region : Region K n) (cov : Mat K m m)
    (h : ∀ k, draws cov k = draws' cov k) :
    simulateRhoNoise cr fit aggregator solve draws k false xs model old region cov
      = simulateRhoNoise cr fit aggregator solve draws' k false xs model old region cov := by
  unfold simulateRhoNoise
  have hc : dropCorrelation false cov = cov := by
    funext a b
    simp [dropCorrelation]
  rw [hc, h]

omit [Field K] [LinearOrder K] [IsStrictOrderedRing K] in
theorem except_mapM_get {α β : Type} (g : α → Except Err β) (l : List α) (out : List β)
    (h : l.mapM g = .ok out) (i : Nat) (hi : i < out.length) (hl : i < l.length) :
    g l[i] = .ok out[i] := by
  induction l generalizing out i with
  | nil => cases hl
  | cons a l ih =>
    rw [List.mapM_cons] at h
    cases ha : g a with
    | error e => rw [ha] at h; cases h
    | ok b =>
      cases hm : l.mapM g with
      | error e => rw [ha, hm] at h; cases h
      | ok bs =>
        rw [ha, hm] at h
        cases h
        cases i with
        | zero => exact ha
        | succ i =>
          exact ih bs hm i (by simpa using hi) (by simpa using hl)

omit [IsStrictOrderedRing K] in
/-- C72: each value belongs to one draw. It is the true reduction (by the given model) of a step that is
computed from a model of the values with noise, relative to the reduction that model promises. -/
theorem C72_value_of_a_draw (k : Int) (xs : Fin N → Vec K n) (model old : VectorModel K n m)
    (region : Region K n) (cov : Mat K m m) (rhos : List (XVal K))
    (h : simulateRhoNoise cr fit aggregator solve draws k false xs model old region cov = .ok rhos)
    (i : Nat) (hi : i < rhos.length) (hd : i < (draws cov k.toNat).length) :
    ∃ noisy truth simulated sub,
      fit xs (fun s a => model.predict (region.mapToUnit cr (xs s)) a + (draws cov k.toNat)[i] s a)
        region old = .ok noisy ∧
      aggregator model = .ok truth ∧ aggregator noisy = .ok simulated ∧
      solve simulated region = .ok sub ∧
      (sub.expectedImprovement ≠ 0 →
        rhos[i] = .fin ((truth.predict (region.mapToUnit cr region.center) - truth.predict sub.xUnit)
          / sub.expectedImprovement)) := by
  unfold simulateRhoNoise at h
  have hc : dropCorrelation false cov = cov := by
    funext a b
    simp [dropCorrelation]
  rw [hc] at h
  cases ht : aggregator model with
  | error e => rw [ht] at h; cases h
  | ok truth =>
  rw [ht] at h
  change (if k < 0 then _ else _) = _ at h
  split at h
  · cases h
  · have h1 := except_mapM_get _ _ _ h i hi hd
    unfold simulateOneRho at h1
    cases hn : fit xs (fun s a => model.predict (region.mapToUnit cr (xs s)) a
        + (draws cov k.toNat)[i] s a) region old with
    | error e => rw [hn] at h1; cases h1
    | ok noisy =>
    rw [hn] at h1
    cases hs : aggregator noisy with
    | error e => change (aggregator noisy >>= _) = _ at h1; rw [hs] at h1; cases h1
    | ok simulated =>
    change (aggregator noisy >>= _) = _ at h1
    rw [hs] at h1
    cases hsub : solve simulated region with
    | error e => change (solve simulated region >>= _) = _ at h1; rw [hsub] at h1; cases h1
    | ok sub =>
    change (solve simulated region >>= _) = _ at h1
    rw [hsub] at h1
    refine ⟨noisy, truth, simulated, sub, rfl, rfl, hs, hsub, fun h0 => ?_⟩
    have h2 : calculateRho (.fin (-(truth.predict sub.xUnit
        - truth.predict (region.mapToUnit cr region.center)))) sub.expectedImprovement = rhos[i] := by
      exact Except.ok.inj h1
    rw [← h2]
    unfold calculateRho
    rw [if_neg (fun hh => h0 hh.1), if_neg h0, neg_sub]
    unfold XVal.divBy
    rfl

/-- C72: without noise, and if the fitter recovers the model from its own values (the prediction of the
fitted and aggregated model is that of the true one), all simulated values are one when the model
promises an improvement. (If it promises none, they are minus infinity.) The subproblem is solved by
the template of solve_subproblem.py around arbitrary solvers. -/
theorem C72_exact_fit (hd : DrawsSpec draws)
    (sphere cube fbSphere fbCube : SubSolver K n) (retry : Bool)
    (k : Nat) (ignore : Bool) (xs : Fin N → Vec K n)
    (model old : VectorModel K n m) (region : Region K n) (tm : ScalarModel K n)
    (htm : aggregator model = .ok tm)
    (vm : VectorModel K n m)
    (hfit : fit xs (fun s => model.predict (region.mapToUnit cr (xs s))) region old = .ok vm)
    (sm : ScalarModel K n) (hsm : aggregator vm = .ok sm) (hexact : ∀ u, sm.predict u = tm.predict u)
    (sub : SubproblemResult K n)
    (hsub : solveSubproblem cr sphere cube fbSphere fbCube retry sm region = .ok sub) :
    simulateRhoNoise cr fit aggregator (solveSubproblem cr sphere cube fbSphere fbCube retry) draws k
        ignore xs model old region (fun _ _ => 0)
      = .ok (List.replicate k (if 0 < sub.expectedImprovement then .fin 1 else .ninf)) := by
  have hone : ∀ d ∈ draws (dropCorrelation ignore fun _ _ => 0) k,
      simulateOneRho cr fit aggregator (solveSubproblem cr sphere cube fbSphere fbCube retry) region old
        xs (fun s => model.predict (region.mapToUnit cr (xs s))) tm d
        = .ok (if 0 < sub.expectedImprovement then .fin 1 else .ninf) := by
    intro d hdm
    have hzero : (dropCorrelation ignore fun _ _ => (0 : K)) = (fun _ _ => 0 : Mat K m m) := by
      funext a b
      simp [dropCorrelation]
    rw [hzero] at hdm
    have hdata : (fun s a => model.predict (region.mapToUnit cr (xs s)) a + d s a)
        = fun s => model.predict (region.mapToUnit cr (xs s)) := by
      funext s a
      rw [hd.noNoise k d hdm s a, add_zero]
    have hval : -(tm.predict sub.xUnit - tm.predict (region.mapToUnit cr region.center))
        = sub.expectedImprovement ∧ 0 ≤ sub.expectedImprovement := by
      obtain ⟨-, raw, -, -, ⟨-, -, -, h3, h4⟩ | ⟨-, h2, h3, -⟩⟩ :=
        solveSubproblem_cases cr sphere cube fbSphere fbCube retry sm region sub hsub
      · rw [← hexact, ← hexact, h3]
        exact ⟨by ring, h3 ▸ h4⟩
      · rw [h2, h3]
        exact ⟨by ring, le_rfl⟩
    unfold simulateOneRho
    rw [hdata, hfit]
    change (aggregator vm >>= _) = _
    rw [hsm]
    change (solveSubproblem cr sphere cube fbSphere fbCube retry sm region >>= _) = _
    rw [hsub]
    change Except.ok (calculateRho (.fin (-(tm.predict sub.xUnit
      - tm.predict (region.mapToUnit cr region.center)))) sub.expectedImprovement) = _
    rw [hval.1]
    congr 1
    unfold calculateRho
    rcases hval.2.eq_or_lt with h0 | h0
    · rw [← h0]; simp
    · rw [if_neg (by intro h; exact h0.ne' h.1), if_neg h0.ne', if_pos h0]
      simp [XVal.divBy, h0.ne']
  unfold simulateRhoNoise
  rw [htm]
  have hk : ¬ ((k : Int) < 0) := by omega
  simp only [hk, if_false, Int.toNat_natCast]
  change List.mapM _ _ = _
  rw [except_mapM_const _ _ _ hone, hd.count]

/-- A sample determines the polynomials of a type: none of them but zero vanishes on it. -/
def Determines (mt : ModelType) (us : Fin N → Vec K n) : Prop :=
  ∀ f, IsPoly mt f → (∀ s, f (us s) = 0) → ∀ u, f u = 0

omit [IsStrictOrderedRing K] in
theorem vectorModel_isPoly (mt : ModelType) (v : VectorModel K n m)
    (hv : mt = .linear → v.squareTerms = none) (k : Fin m) : IsPoly mt fun u => v.predict u k :=
  ⟨v.intercepts k, v.linearTerms k, v.squareTerms.map fun q => q k, fun h => by rw [hv h]; rfl,
    fun u => VectorModel.predict_eq v u k⟩

/-- Fitting the values of a model of the requested type at a sample that determines it gives the
model back. -/
theorem fit_own_values (mt : ModelType)
    (fitter : (Fin N → Vec K n) → Vec K N → Vec K (nCols n mt)) (hfit : FitterInterpolates mt fitter)
    (clip : (Fin N → Fin m → XVal K) → (Fin N → Fin m → K))
    (hclip : ∀ y : Fin N → Fin m → K, clip (fun s k => .fin (y s k)) = y)
    (region : Region K n) (old : VectorModel K n m) (xs : Fin N → Vec K n)
    (hdet : Determines mt fun s => region.mapToUnit cr (xs s))
    (model : VectorModel K n m) (hmodel : mt = .linear → model.squareTerms = none) :
    ∃ vm, fitModel cr mt fitter clip false region old xs
        (fun s k => .fin (model.predict (region.mapToUnit cr (xs s)) k)) = .ok vm ∧
      (mt = .linear → vm.squareTerms = none) ∧ ∀ u k, vm.predict u k = model.predict u k := by
  obtain ⟨vm, h1, -, h3⟩ := C35_fit_reproduces_data cr mt fitter hfit clip false region old
    (by simp) (by simp) xs (fun s k => .fin (model.predict (region.mapToUnit cr (xs s)) k))
    fun k => ⟨_, vectorModel_isPoly mt model hmodel k, fun s => by rw [hclip]⟩
  have hsq : mt = .linear → vm.squareTerms = none := by
    rintro rfl
    simp only [fitModel] at h1
    cases h1
    rfl
  refine ⟨vm, h1, hsq, fun u k => ?_⟩
  have := hdet _ (isPoly_sub mt _ _ (vectorModel_isPoly mt vm hsq k)
    (vectorModel_isPoly mt model hmodel k)) (fun s => by rw [h3, hclip, sub_self]) u
  linarith

/-- The common part of the two theorems below: `value` is the criterion that belongs to the values of the
residuals. -/
theorem rhoNoise_determined (hd : DrawsSpec draws) (mt : ModelType)
    (fitter : (Fin N → Vec K n) → Vec K N → Vec K (nCols n mt)) (hfit : FitterInterpolates mt fitter)
    (clip : (Fin N → Fin m → XVal K) → (Fin N → Fin m → K))
    (hclip : ∀ y : Fin N → Fin m → K, clip (fun s k => .fin (y s k)) = y)
    (value : Vec K m → K)
    (haggr : ∀ v : VectorModel K n m, (mt = .linear → v.squareTerms = none) →
      ∃ s, aggregator v = .ok s ∧ ∀ u, s.predict u = value (v.predict u))
    (sphere cube fbSphere fbCube : SubSolver K n) (retry : Bool)
    (k : Nat) (ignore : Bool) (xs : Fin N → Vec K n)
    (model old : VectorModel K n m) (region : Region K n)
    (hmodel : mt = .linear → model.squareTerms = none)
    (hdet : Determines mt fun s => region.mapToUnit cr (xs s))
    (hsolve : ∀ sm, ∃ sub, solveSubproblem cr sphere cube fbSphere fbCube retry sm region = .ok sub) :
    ∃ (u : Vec K n) (promise : K),
      promise = value (model.predict (region.mapToUnit cr region.center)) - value (model.predict u) ∧
      0 ≤ promise ∧
      simulateRhoNoise cr
        (fun xs y region old => fitModel cr mt fitter clip false region old xs (fun s k => .fin (y s k)))
        aggregator (solveSubproblem cr sphere cube fbSphere fbCube retry) draws k
        ignore xs model old region (fun _ _ => 0)
      = .ok (List.replicate k (if 0 < promise then .fin 1 else .ninf)) := by
  obtain ⟨tm, htm, htmv⟩ := haggr model hmodel
  obtain ⟨vm, hvm, hsq, hpred⟩ := fit_own_values cr mt fitter hfit clip hclip region old xs hdet model
    hmodel
  obtain ⟨sm, hsm, hsmv⟩ := haggr vm hsq
  obtain ⟨sub, hsub⟩ := hsolve sm
  have hexact : ∀ u, sm.predict u = tm.predict u := fun u => by
    rw [hsmv, htmv, show vm.predict u = model.predict u from funext fun k => hpred u k]
  refine ⟨sub.xUnit, sub.expectedImprovement, ?_, ?_,
    C72_exact_fit cr _ aggregator draws hd sphere cube fbSphere fbCube retry k ignore xs model old region
      tm htm vm hvm sm hsm hexact sub hsub⟩
  all_goals
    obtain ⟨-, raw, -, -, ⟨-, -, -, h3, h4⟩ | ⟨-, h2, h3, -⟩⟩ :=
      solveSubproblem_cases cr sphere cube fbSphere fbCube retry sm region sub hsub
  · rw [← htmv, ← htmv, ← hexact, ← hexact]; exact h3
  · rw [h2, h3, sub_self]
  · exact h4
  · exact h3.ge

/-- C72 for the default components of least squares problems (linear models, `ols`, finite values are
not clipped): with a sample that determines linear functions, solvers that do not fail, and without
noise, all simulated values are one, or minus infinity if the model promises no reduction of the sum
of squares. -/
theorem C72_least_squares (hd : DrawsSpec draws)
    (lstsq : Lstsq K) (hl : LstsqSpec lstsq) (root : K → K) (hroot : RootSpec root)
    (clip : (Fin N → Fin m → XVal K) → (Fin N → Fin m → K))
    (hclip : ∀ y : Fin N → Fin m → K, clip (fun s k => .fin (y s k)) = y)
    (sphere cube fbSphere fbCube : SubSolver K n) (retry : Bool)
    (k : Nat) (ignore : Bool) (xs : Fin N → Vec K n)
    (model old : VectorModel K n m) (region : Region K n) (hmodel : model.squareTerms = none)
    (hdet : Determines .linear fun s => region.mapToUnit cr (xs s))
    (hsolve : ∀ sm, ∃ sub, solveSubproblem cr sphere cube fbSphere fbCube retry sm region = .ok sub) :
    ∃ (u : Vec K n) (promise : K),
      promise = ∑ j, model.predict (region.mapToUnit cr region.center) j ^ 2
        - ∑ j, model.predict u j ^ 2 ∧
      0 ≤ promise ∧
      simulateRhoNoise cr
        (fun xs y region old => fitModel cr .linear (fun xs y => fitOls lstsq root .linear xs y none) clip
          false region old xs (fun s k => .fin (y s k)))
        (aggregate "least_squares_linear")
        (solveSubproblem cr sphere cube fbSphere fbCube retry) draws k
        ignore xs model old region (fun _ _ => 0)
      = .ok (List.replicate k (if 0 < promise then .fin 1 else .ninf)) := by
  refine rhoNoise_determined cr _ draws hd .linear _
    (C35_ols lstsq hl root hroot .linear none (by simp [weightsOf])) clip hclip
    (fun r => ∑ j, r j ^ 2) (fun v hv => ?_) sphere cube fbSphere fbCube retry k ignore xs model old
    region (fun _ => hmodel) hdet hsolve
  obtain ⟨s, _, h1, -, h2, -⟩ := C37_least_squares v (hv rfl)
  exact ⟨s, h1, h2⟩

/-- C72 for scalar problems whose sample is large enough for `ols` (quadratic models). -/
theorem C72_scalar (draws : Mat K 1 1 → Nat → List (Fin N → Vec K 1)) (hd : DrawsSpec draws)
    (lstsq : Lstsq K) (hl : LstsqSpec lstsq) (root : K → K) (hroot : RootSpec root)
    (clip : (Fin N → Fin 1 → XVal K) → (Fin N → Fin 1 → K))
    (hclip : ∀ y : Fin N → Fin 1 → K, clip (fun s k => .fin (y s k)) = y)
    (sphere cube fbSphere fbCube : SubSolver K n) (retry : Bool)
    (k : Nat) (ignore : Bool) (xs : Fin N → Vec K n)
    (model old : VectorModel K n 1) (region : Region K n)
    (hdet : Determines .quadratic fun s => region.mapToUnit cr (xs s))
    (hsolve : ∀ sm, ∃ sub, solveSubproblem cr sphere cube fbSphere fbCube retry sm region = .ok sub) :
    ∃ (u : Vec K n) (promise : K),
      promise = model.predict (region.mapToUnit cr region.center) 0 - model.predict u 0 ∧
      0 ≤ promise ∧
      simulateRhoNoise cr
        (fun xs y region old => fitModel cr .quadratic
          (fun xs y => fitOls lstsq root .quadratic xs y none) clip
          false region old xs (fun s k => .fin (y s k)))
        (aggregate "identity")
        (solveSubproblem cr sphere cube fbSphere fbCube retry) draws k
        ignore xs model old region (fun _ _ => 0)
      = .ok (List.replicate k (if 0 < promise then .fin 1 else .ninf)) := by
  refine rhoNoise_determined cr _ draws hd .quadratic _
    (C35_ols lstsq hl root hroot .quadratic none (by simp [weightsOf])) clip hclip
    (fun r => r 0) (fun v _ => ?_) sphere cube fbSphere fbCube retry k ignore xs model old
    region (by simp) hdet hsolve
  obtain ⟨s, h1, h2, -⟩ := C37_identity v
  exact ⟨s, h1, h2⟩

/-- Example of draws that satisfy the contract: the generator returns standard numbers scaled by the
variances. -/
example : DrawsSpec (N := 2) (m := 1) fun (cov : Mat ℚ 1 1) k =>
    List.replicate k fun s _ => if s = 0 then cov 0 0 else -cov 0 0 where
  count := by simp
  noNoise := by
    intro k d hd s a
    rw [List.eq_of_mem_replicate hd]
    simp

/-- Example: two points determine the linear functions of one variable. -/
example : Determines (K := ℚ) .linear ![![0], ![1]] := by
  rintro f ⟨c, g, sq, hsq, hf⟩ h u
  obtain rfl := hsq rfl
  have h0 := h 0
  have h1 := h 1
  simp only [hf, polyVal] at h0 h1 ⊢
  simp [dot] at h0 h1 ⊢
  rw [h0] at h1 ⊢
  simp at h1
  rw [h1]; simp

end Tranquilo
