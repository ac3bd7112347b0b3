import Verif.Spec.Poised
import Verif.Props.ExactModels
import Verif.Lemmas.LagrangeBasis

/-!
# C120: poised points give accurate models
-/

namespace Tranquilo

variable {K : Type} [Field K] [LinearOrder K] [IsStrictOrderedRing K] {n m p : Nat}

/-- The interpolation polynomial of a function. -/
theorem interpolant {mt : ModelType} {inRegion : Vec K n → Prop} {cap : K} {points : List (Vec K n)}
    (h : PoisedOn mt inRegion cap points) (f : Vec K n → K) :
    ∃ P, IsPoly mt P ∧ (∀ y ∈ points, P y = f y) ∧
      ∀ T e, IsPoly mt T → (∀ y ∈ points, |f y - T y| ≤ e) → ∀ y, inRegion y → |P y - T y| ≤ cap * e := by
  obtain ⟨hdet, ell, h1, h2, h3⟩ := h
  set P : Vec K n → K := fun u => ∑ i, f points[i] * ell i u with hP
  have hpoly : IsPoly mt P := isPoly_sum mt _ _ _ h1
  have hval : ∀ y ∈ points, P y = f y := by
    intro y hy
    obtain ⟨j, hj, rfl⟩ := List.getElem_of_mem hy
    have := fun i => h2 i ⟨j, hj⟩
    simp only [Fin.getElem_fin] at this
    simp only [hP, this]
    simp
  refine ⟨P, hpoly, hval, fun T e hT he y hy => ?_⟩
  set Q : Vec K n → K := fun u => ∑ i, (f points[i] - T points[i]) * ell i u with hQ
  have hQpoly : IsPoly mt Q := isPoly_sum mt _ _ _ h1
  have hzero := hdet _ (isPoly_sub mt _ _ (isPoly_sub mt _ _ hpoly hT) hQpoly) (by
    intro z hz
    obtain ⟨j, hj, rfl⟩ := List.getElem_of_mem hz
    have := fun i => h2 i ⟨j, hj⟩
    simp only [Fin.getElem_fin] at this
    rw [hval _ hz]
    simp only [hQ, this]
    simp) y
  rw [sub_eq_zero] at hzero
  rw [hzero]
  calc |Q y| ≤ ∑ i, |(f points[i] - T points[i]) * ell i y| := Finset.abs_sum_le_sum_abs _ _
    _ ≤ ∑ i, e * |ell i y| := Finset.sum_le_sum fun i _ => by
        rw [abs_mul]
        exact mul_le_mul_of_nonneg_right (he _ (List.getElem_mem _)) (abs_nonneg _)
    _ = e * ∑ i, |ell i y| := by rw [Finset.mul_sum]
    _ ≤ e * cap := by
        by_cases hn : points = []
        · subst hn
          exact absurd (hdet (fun _ => 1) (isPoly_const mt 1) (by simp) y) one_ne_zero
        · obtain ⟨z, hz⟩ := List.exists_mem_of_ne_nil _ hn
          exact mul_le_mul_of_nonneg_left (h3 y hy) ((abs_nonneg _).trans (he z hz))
    _ = cap * e := mul_comm _ _

/-- C120, the fit: a model that is fitted to a function at poised points is nearly as good as every polynomial of its
type. If a polynomial `T` differs from the function by at most `e` at the points, then the model differs from `T` by at
most `cap * e` in the region, and from the function by at most `(1 + cap) * e` where `T` is that accurate. -/
theorem C120_model_error (b : BuiltinSettings K n m) (hl : LstsqSpec b.lstsq) (hroot : RootSpec b.root)
    (hfit : b.fitter.Interpolates) (log : Log K n) (is : List Nat) (region : Region K n)
    (hr : Usable b.cubeRadius region) (old : VectorModel K n m) (hold : StartModel old)
    (res : Fin m → Vec K n → K)
    (hdata : ∀ i ∈ is, ∃ y, log.xs[i]? = some y ∧ ∀ k, b.data log i k = .fin (res k y))
    {inRegion : Vec K n → Prop} {cap : K} (hpoised : PoisedOn b.modelType inRegion cap (log.getXs is)) :
    ∃ v, builtinFit b log is region old = .ok v ∧ ∀ k T e, IsPoly b.modelType T →
      (∀ y ∈ log.getXs is, |res k y - T y| ≤ e) → ∀ y, inRegion y →
        |v.predict (region.mapToUnit b.cubeRadius y) k - T y| ≤ cap * e ∧
        (|res k y - T y| ≤ e → |v.predict (region.mapToUnit b.cubeRadius y) k - res k y| ≤ (1 + cap) * e) := by
  choose P hP1 hP2 hP3 using fun k => interpolant hpoised (res k)
  obtain ⟨v, hv, -, -, hv4⟩ := C103_exact_fit b hl hroot hfit log is region hr old hold P hP1 (by
    intro i hi
    obtain ⟨y, hy, hd⟩ := hdata i hi
    exact ⟨y, hy, fun k => by rw [hd k, hP2 k y (List.mem_filterMap.2 ⟨i, hi, hy⟩)]⟩) hpoised.1
  refine ⟨v, hv, fun k T e hT he y hy => ?_⟩
  rw [hv4]
  have h1 := hP3 k T e hT he y hy
  refine ⟨h1, fun h2 => ?_⟩
  have := abs_sub_le (P k y) (T y) (res k y)
  rw [abs_sub_comm (T y)] at this
  linarith

/-- Poisedness does not depend on the coordinates. -/
theorem poisedOn_map {mt : ModelType} {inRegion : Vec K n → Prop} {cap : K} {points : List (Vec K n)}
    {a s : Vec K n} (hs : ∀ i, s i ≠ 0)
    (h : PoisedOn mt inRegion cap (points.map fun y i => (y i - a i) / s i)) :
    PoisedOn mt (fun y => inRegion fun i => (y i - a i) / s i) cap points := by
  obtain ⟨hdet, ell, h1, h2, h3⟩ := h
  have hinv : ∀ y : Vec K n, (fun i => a i + s i * ((y i - a i) / s i)) = y := fun y => by
    funext i
    have := hs i
    field_simp
    ring
  have hlen : (points.map fun y i => (y i - a i) / s i).length = points.length := List.length_map ..
  refine ⟨fun f hf h0 y => ?_, fun i y => ell (Fin.cast hlen.symm i) fun j => (y j - a j) / s j, fun i => ?_,
    fun i j => ?_, fun y hy => ?_⟩
  · have := hdet _ (isPoly_coordinates mt f hf a s) (by
      intro z hz
      obtain ⟨w, hw, rfl⟩ := List.mem_map.1 hz
      rw [hinv]
      exact h0 w hw) fun i => (y i - a i) / s i
    rw [hinv] at this
    exact this
  · have := isPoly_coordinates mt _ (h1 (Fin.cast hlen.symm i)) (fun i => -(a i / s i)) fun i => 1 / s i
    convert this using 3
    funext j
    ring
  · have := h2 (Fin.cast hlen.symm i) (Fin.cast hlen.symm j)
    simpa using this
  · refine le_trans (le_of_eq ?_) (h3 _ hy)
    exact Fintype.sum_equiv (finCongr hlen.symm) _ _ fun i => rfl

/-- The sample is poised with the number of points times its poisedness constant. -/
theorem poisedOn_of_constant (hn : n ≤ 2) (pinv) (hp : PinvSpec (K := K) (n := n) pinv)
    (minimize : Shape → (Vec K n → K) → Vec K n) (hmin : FindsMinimum minimize)
    (sample : Fin p → Vec K n) (hcount : p = nFeatures n) (hs : FullRowRank sample) (shape : String) (sh : Shape)
    (hsh : NamesShape shape sh) (l : K) (x : Vec K n) (i : Fin p)
    (h : poisednessConstant pinv minimize sample shape = .ok (l, x, i)) :
    PoisedOn .quadratic (InUnitRegion sh) (p * l) (List.ofFn sample) := by
  obtain ⟨-, -, hmax⟩ := C80_poisedness_constant_partial hn pinv minimize hmin sample shape sh hsh l x i h
  have hlen : (List.ofFn sample).length = p := List.length_ofFn
  refine ⟨fun f hf h0 y => ?_, fun j => polynomialAt (lagrangeMat pinv sample (Fin.cast hlen j)),
    fun j => polynomialAt_isPoly _, fun j k => ?_, fun y hy => ?_⟩
  · exact sample_determines sample hcount hs f hf (fun j => h0 _ (List.mem_ofFn.2 ⟨j, rfl⟩)) y
  · have := C79_lagrange_polynomials pinv hp sample hs (Fin.cast hlen j) (Fin.cast hlen k)
    have e : (List.ofFn sample)[k] = sample (Fin.cast hlen k) := List.getElem_ofFn ..
    exact (congrArg _ e).trans (this.trans (by simp))
  · calc ∑ j, |polynomialAt (lagrangeMat pinv sample (Fin.cast hlen j)) y|
        = ∑ j, |polynomialAt (lagrangeMat pinv sample j) y| := Fintype.sum_equiv (finCongr hlen) _ _ fun _ => rfl
      _ ≤ ∑ _j : Fin p, l := Finset.sum_le_sum fun j _ => hmax j y hy
      _ = p * l := by simp

/-- C120, the meaning of `get_poisedness_constant`, for up to two parameters and as many points as coefficients: a
quadratic model that is fitted to a function at the points of the sample is nearly as good as every polynomial of degree
two. If such a polynomial `T` differs from the function by at most `e` at the points and at `y` in the unit ball or cube
of the trust region, then the error of the model at `y` is at most `1 + p * l` times `e`, where `p` is the number of
points and `l` the constant. Missing for the full claim: from three parameters on the returned number is not the
constant (C55). -/
theorem C120_poisedness_constant_partial (hn : n ≤ 2) (pinv) (hp : PinvSpec (K := K) (n := n) pinv)
    (minimize : Shape → (Vec K n → K) → Vec K n) (hmin : FindsMinimum minimize)
    (b : BuiltinSettings K n m) (hl : LstsqSpec b.lstsq) (hroot : RootSpec b.root) (hfit : b.fitter.Interpolates)
    (hquad : b.modelType = .quadratic) (log : Log K n) (is : List Nat) (region : Region K n)
    (hr : Usable b.cubeRadius region) (old : VectorModel K n m) (hold : StartModel old) (res : Fin m → Vec K n → K)
    (hdata : ∀ i ∈ is, ∃ y, log.xs[i]? = some y ∧ ∀ k, b.data log i k = .fin (res k y))
    (sample : Fin p → Vec K n) (hsample : List.ofFn sample = (log.getXs is).map (region.mapToUnit b.cubeRadius))
    (hcount : p = nFeatures n) (hs : FullRowRank sample) (shape : String) (sh : Shape) (hsh : NamesShape shape sh)
    (l : K) (x : Vec K n) (i : Fin p) (h : poisednessConstant pinv minimize sample shape = .ok (l, x, i)) :
    ∃ v, builtinFit b log is region old = .ok v ∧ ∀ k T e, IsPoly .quadratic T →
      (∀ y ∈ log.getXs is, |res k y - T y| ≤ e) → ∀ y, InUnitRegion sh (region.mapToUnit b.cubeRadius y) →
        |res k y - T y| ≤ e → |v.predict (region.mapToUnit b.cubeRadius y) k - res k y| ≤ (1 + p * l) * e := by
  have hr0 := fun i => effectiveRadius_ne_zero hr i
  have hmap : ∀ y, region.mapToUnit b.cubeRadius y
      = fun i => (y i - region.effectiveCenter b.cubeRadius i) / region.effectiveRadius b.cubeRadius i := fun y => by
    funext i
    have h1 := unit_roundtrip hr0 y i
    have h2 := hr0 i
    rw [eq_div_iff h2]
    linarith
  have hpo := poisedOn_of_constant hn pinv hp minimize hmin sample hcount hs shape sh hsh l x i h
  rw [hsample, show region.mapToUnit b.cubeRadius = _ from funext hmap] at hpo
  have hpo' := poisedOn_map hr0 hpo
  rw [← hquad] at hpo'
  obtain ⟨v, hv, hv'⟩ := C120_model_error b hl hroot hfit log is region hr old hold res hdata hpo'
  refine ⟨v, hv, fun k T e hT he y hy => ?_⟩
  rw [hmap] at hy
  exact (hv' k T e (hquad ▸ hT) he y hy).2

end Tranquilo
