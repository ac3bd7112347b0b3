import Verif.Props.BuiltinFit
import Verif.Props.RhoNoise

/-!
# C103: criteria that the model class contains

The residuals of the criterion are polynomials of the model type (affine residuals with linear models in the case of
least squares, a quadratic criterion with quadratic models). Then models whose sample determines such polynomials are
exact, not only at the sample points but everywhere, and the optimizer notices: `rho` is one.
-/

namespace Tranquilo

variable {K : Type} [Field K] [LinearOrder K] [IsStrictOrderedRing K] {n m : Nat}

/-! ## The acceptance decision for criteria without noise -/

/-- For a criterion without noise, with finite values `g`, the deciders compare the values of `g` at the current
point and at the candidate. -/
theorem runDecider_exact [FloorRing K] {VM SM : Type} (c : Config K) (comp : Components K n VM SM) (it : Nat)
    (hdec : ∀ m zc zp a b, c.decider ≠ .noisy m zc zp a b) (log : Log K n) (region : Region K n)
    (sub : SubSolution K n) (cur : Current K n) (h : Log K n) (hc : h.Consistent comp.oracle)
    {g : Vec K n → K} (hdet : ∀ k x, comp.oracle k x = .fin (g x)) (hcur : cur.fval = .fin (g cur.x)) :
    (runDecider c comp it log region sub cur h).2.rho
      = calculateRho (.fin (g cur.x - g sub.x)) sub.expectedImprovement ∧
    (c.decider.minImprovement ≤ g cur.x - g sub.x →
      (runDecider c comp it log region sub cur h).2.accepted = true) ∧
    ((runDecider c comp it log region sub cur h).2.accepted = true →
      g (runDecider c comp it log region sub cur h).2.x ≤ g sub.x) ∧
    sub.x ∈ (runDecider c comp it log region sub cur h).1.xs := by
  have hsimple : ∀ (m : K) (ne : Nat), 0 < ne →
      (acceptSimple comp.nrm comp.oracle m ne sub cur h).2.rho
        = calculateRho (.fin (g cur.x - g sub.x)) sub.expectedImprovement ∧
      (m ≤ g cur.x - g sub.x → (acceptSimple comp.nrm comp.oracle m ne sub cur h).2.accepted = true) ∧
      ((acceptSimple comp.nrm comp.oracle m ne sub cur h).2.accepted = true →
        g (acceptSimple comp.nrm comp.oracle m ne sub cur h).2.x ≤ g sub.x) ∧
      sub.x ∈ (acceptSimple comp.nrm comp.oracle m ne sub cur h).1.xs := by
    intro m ne hne
    set h' := (h.addX sub.x).1.evaluate comp.oracle [(h.xs.length, ne)] with hh'
    have hgrow : Grows comp.oracle (fun _ => True) h h' := 
      (Grows.refl.addX trivial).eval _ (by simp [Log.addX]) (by simp)
    have hx : h'.xs[h.xs.length]? = some sub.x := by
      rw [hh', Log.evaluate_xs]; simp [Log.addX]
    have hnil : h'.fvals h.xs.length ≠ [] := by
      have h2 := Log.fvals_length_evaluate comp.oracle (h.addX sub.x).1 [(h.xs.length, ne)] h.xs.length
        (by simp [Log.addX])
      have h3 := count_flatMap_ge [(h.xs.length, ne)] h.xs.length ne (List.mem_singleton.2 rfl)
      intro h0
      rw [← hh', h0, List.length_nil] at h2
      omega
    have hmean : XVal.mean (h'.fvals h.xs.length) = .fin (g sub.x) :=
      mean_const _ _ hnil ((hgrow.consistent hc).fvals_eq (f := fun x => .fin (g x)) hdet hx)
    have hres : (acceptSimple comp.nrm comp.oracle m ne sub cur h).2 = finishDecision comp.nrm sub.x
        (XVal.mean (h'.fvals h.xs.length)) h.xs.length
        (calculateRho (-(XVal.mean (h'.fvals h.xs.length) - cur.fval)) sub.expectedImprovement)
        (decide (XVal.fin m ≤ -(XVal.mean (h'.fvals h.xs.length) - cur.fval))) cur ne := rfl
    have hact : -(XVal.mean (h'.fvals h.xs.length) - cur.fval) = .fin (g cur.x - g sub.x) := by
      rw [hmean, hcur]
      show XVal.fin (-(g sub.x + -g cur.x)) = _
      congr 1; ring
    rw [hact, hmean] at hres
    obtain ⟨f1, f2, -, -, f5, -⟩ := finish_spec comp.nrm sub.x (.fin (g sub.x)) h.xs.length
      (calculateRho (.fin (g cur.x - g sub.x)) sub.expectedImprovement)
      (decide (XVal.fin m ≤ .fin (g cur.x - g sub.x))) cur ne
    rw [← hres] at f1 f2 f5
    refine ⟨(f5 rfl).1, fun hm => f1.2 ⟨by simpa using hm, rfl⟩, fun ha => ?_, List.mem_of_getElem? hx⟩
    rw [(f2 ha).1]
  unfold runDecider
  cases hd : c.decider with
  | classic m => exact hsimple m 1 one_pos
  | naiveNoisy m => exact hsimple m 10 (by norm_num)
  | noisy m zc zp a b => exact absurd hd (hdec m zc zp a b)
  | lineSearch m rf =>
    simp only [DeciderChoice.minImprovement]
    by_cases hb1 : c.batchSize = 1
    · have he : acceptLineSearch comp.nrm comp.cubeRadius comp.oracle (comp.sample it 0) rf m c.batchSize sub
          cur h = acceptSimple comp.nrm comp.oracle m 1 sub cur h := by
        unfold acceptLineSearch acceptClassic; rw [if_pos hb1]
      rw [he]
      exact hsimple m 1 one_pos
    · obtain ⟨j, x, v, acc, rho, hx, hv, hacc, hrho, hres, -, hbest⟩ :=
        lineSearch_best comp.nrm comp.cubeRadius comp.oracle (comp.sample it 0) rf m c.batchSize sub cur h hb1
          hc.wf
      have h0 := hbest (by rw [hv, hdet]; simp) 0 sub.x rfl (by rw [hdet]; simp)
      rw [hv, hdet, hdet] at h0
      have h0 : g x ≤ g sub.x := by simpa using h0
      have hsub : ∀ a : K, -(XVal.fin a - cur.fval) = .fin (g cur.x - a) := by
        intro a
        rw [hcur]
        show XVal.fin (-(a + -g cur.x)) = _
        congr 1; ring
      rw [hv, hdet, hsub] at hacc
      rw [hdet, hsub] at hrho
      rw [hv, hdet] at hres
      obtain ⟨f1, f2, -, -, f5, -⟩ := finish_spec comp.nrm x (.fin (g x)) (h.xs.length + j) rho acc cur 1
      rw [← hres] at f1 f2 f5
      refine ⟨by rw [(f5 rfl).1, hrho], fun hm => f1.2 ⟨hacc.2 ?_, rfl⟩, fun ha => ?_, ?_⟩
      · have : m ≤ g cur.x - g x := by linarith
        simpa using this
      · rw [(f2 ha).1]; exact h0
      · rw [lineSearch_log _ _ _ _ _ _ _ _ _ _ hb1]
        simp [lineSearchPoints]

/-! ## Polynomials in other coordinates -/

omit [LinearOrder K] [IsStrictOrderedRing K] in
/-- Shifting and scaling the coordinates of a polynomial gives a polynomial of the same type. -/
theorem isPoly_coordinates (mt : ModelType) (f : Vec K n → K) (hf : IsPoly mt f) (a s : Vec K n) :
    IsPoly mt fun u => f fun i => a i + s i * u i := by
  obtain ⟨c, g, sq, hsq, hf⟩ := hf
  cases sq with
  | none =>
    refine ⟨polyVal c g none a, fun i => s i * g i, none, fun _ => rfl, fun u => ?_⟩
    dsimp only
    rw [hf]
    simp only [polyVal, add_zero, mul_add, Finset.sum_add_distrib, ← add_assoc]
    congr 1
    exact Finset.sum_congr rfl fun i _ => by ring
  | some h =>
    refine ⟨polyVal c g (some h) a,
      fun i => s i * (g i + ((∑ j, h i j * a j) + ∑ j, h j i * a j) / 2),
      some fun i j => h i j * s i * s j, fun hm => (by simpa using hsq hm), fun u => ?_⟩
    dsimp only
    rw [hf]
    simp only [polyVal]
    have e1 : ∑ i, g i * (a i + s i * u i) = ∑ i, g i * a i + ∑ i, s i * g i * u i := by
      rw [← Finset.sum_add_distrib]
      exact Finset.sum_congr rfl fun i _ => by ring
    have e2 : ∑ i, ∑ j, h i j * (a i + s i * u i) * (a j + s j * u j)
        = ∑ i, ∑ j, h i j * a i * a j + ∑ i, (s i * ∑ j, h i j * a j) * u i
          + ∑ i, (s i * ∑ j, h j i * a j) * u i + ∑ i, ∑ j, h i j * s i * s j * u i * u j := by
      have e3 : ∑ i, (s i * ∑ j, h j i * a j) * u i = ∑ i, ∑ j, h i j * a i * (s j * u j) := by
        rw [Finset.sum_comm]
        refine Finset.sum_congr rfl fun i _ => ?_
        rw [Finset.mul_sum, Finset.sum_mul]
        exact Finset.sum_congr rfl fun j _ => by ring
      have e4 : ∑ i, (s i * ∑ j, h i j * a j) * u i = ∑ i, ∑ j, h i j * (s i * u i) * a j := by
        refine Finset.sum_congr rfl fun i _ => ?_
        rw [Finset.mul_sum, Finset.sum_mul]
        exact Finset.sum_congr rfl fun j _ => by ring
      rw [e3, e4]
      simp only [← Finset.sum_add_distrib]
      exact Finset.sum_congr rfl fun i _ => Finset.sum_congr rfl fun j _ => by ring
    have e5 : ∑ i, s i * (g i + ((∑ j, h i j * a j) + ∑ j, h j i * a j) / 2) * u i
        = ∑ i, s i * g i * u i + (∑ i, (s i * ∑ j, h i j * a j) * u i
          + ∑ i, (s i * ∑ j, h j i * a j) * u i) / 2 := by
      rw [← Finset.sum_add_distrib, Finset.sum_div, ← Finset.sum_add_distrib]
      exact Finset.sum_congr rfl fun i _ => by ring
    rw [e1, e2, e5]
    ring

/-- Going to unit coordinates and back. -/
theorem unit_roundtrip {cr : K → K} {r : Region K n} (hr : ∀ i, r.effectiveRadius cr i ≠ 0) (y : Vec K n)
    (i : Fin n) : r.effectiveCenter cr i + r.effectiveRadius cr i * r.mapToUnit cr y i = y i := by
  have := hr i
  cases hs : r.shape
  · simp only [Region.mapToUnit, Region.effectiveRadius, Region.effectiveCenter, hs] at this ⊢
    field_simp
    ring
  · simp only [Region.mapToUnit, Region.effectiveRadius, Region.effectiveCenter, Region.cubeCenter,
      hs] at this ⊢
    have h2 : r.cubeUpper cr i - r.cubeLower cr i ≠ 0 := fun h => this (by rw [h, zero_div])
    field_simp
    ring

/-! ## The fit -/

/-- The points determine the polynomials of a type: none of them but zero vanishes at all of the points. -/
def DeterminedBy (mt : ModelType) (points : List (Vec K n)) : Prop :=
  ∀ f, IsPoly mt f → (∀ y ∈ points, f y = 0) → ∀ y, f y = 0

/-- C103, the fit: residuals that are polynomials of the model type are recovered everywhere. -/
theorem C103_exact_fit (b : BuiltinSettings K n m) (hl : LstsqSpec b.lstsq) (hroot : RootSpec b.root)
    (hfit : b.fitter.Interpolates) (log : Log K n) (is : List Nat) (region : Region K n)
    (hr : Usable b.cubeRadius region) (old : VectorModel K n m) (hold : StartModel old)
    (res : Fin m → Vec K n → K) (hres : ∀ k, IsPoly b.modelType (res k))
    (hdata : ∀ i ∈ is, ∃ y, log.xs[i]? = some y ∧ ∀ k, b.data log i k = .fin (res k y))
    (hdet : DeterminedBy b.modelType (log.getXs is)) :
    ∃ v, builtinFit b log is region old = .ok v ∧ (b.modelType = .linear ↔ v.squareTerms = none) ∧
      (∀ q, v.squareTerms = some q → ∀ k, SymmetricMat (q k)) ∧
      ∀ y k, v.predict (region.mapToUnit b.cubeRadius y) k = res k y := by
  have hr0 := fun i => effectiveRadius_ne_zero hr i
  set points : Nat → Vec K n := fun i => (log.xs[i]?).getD region.center with hpts
  have hpoints : ∀ i ∈ is, log.xs[i]? = some (points i) := by
    intro i hi
    obtain ⟨y, hy, -⟩ := hdata i hi
    simp [hpts, hy]
  have hval : ∀ i ∈ is, ∀ k, b.data log i k = .fin (res k (points i)) := by
    intro i hi k
    obtain ⟨y, hy, hd⟩ := hdata i hi
    rw [hd k]; simp [hpts, hy]
  obtain ⟨v, h1, -, h3⟩ := C35_fit_in_a_run b hl hroot hfit log is region hr0 old
    (fun _ => ⟨by
      unfold OldModelOk
      rw [hold.square]
      cases b.modelType with
      | quadratic => rfl
      | linear =>
        intro h hh k i j
        injection hh with hh
        rw [← hh], hold.scale⟩)
    points hpoints (fun i k => res k (points i)) hval (fun k =>
      ⟨_, isPoly_coordinates b.modelType (res k) (hres k) (region.effectiveCenter b.cubeRadius)
        (region.effectiveRadius b.cubeRadius), fun i _ => by
          congr 1
          funext j
          exact unit_roundtrip hr0 _ j⟩)
  obtain ⟨v', h1', h2', h4'⟩ := builtinFitTemplate_ok (N := is.length) b region hr old hold
    (fun s => (log.xs[is[s]]?).getD region.center) fun s => b.data log is[s]
  have hv : v' = v := by
    unfold builtinFit at h1
    rw [h1] at h1'
    injection h1' with h
    exact h.symm
  subst hv
  have hsq : b.modelType = .linear ↔ v'.squareTerms = none := by
    rw [← Option.not_isSome_iff_eq_none, h2']
    cases b.modelType <;> simp
  refine ⟨v', h1, hsq, h4', fun y k => ?_⟩
  have hpoly : IsPoly b.modelType fun y => v'.predict (region.mapToUnit b.cubeRadius y) k := by
    have := isPoly_coordinates b.modelType _ (vectorModel_isPoly b.modelType v' hsq.1 k)
      (fun i => -(region.effectiveCenter b.cubeRadius i / region.effectiveRadius b.cubeRadius i))
      (fun i => 1 / region.effectiveRadius b.cubeRadius i)
    convert this using 4 with y
    rename_i i
    have hi := hr0 i
    have := unit_roundtrip hr0 y i
    rw [← this]
    field_simp
    ring
  have hzero := hdet _ (isPoly_sub b.modelType _ _ hpoly (hres k)) (by
    intro z hz
    unfold Log.getXs at hz
    obtain ⟨i, hi, hiz⟩ := List.mem_filterMap.1 hz
    have := hpoints i hi
    rw [hiz] at this
    obtain rfl := Option.some.inj this
    simp only [h3 i hi k, sub_self]) y
  linarith

/-! ## The criterion and its model -/

/-- The criterion that belongs to the residuals: the sum of their squares for least squares, their sum for
likelihoods, the residual itself for scalar functions; the models of least squares are linear, those of likelihoods
quadratic. -/
def CriterionOf (aggregator : String) (mt : ModelType) (value : Vec K m → K) : Prop :=
  (aggregator = "least_squares_linear" ∧ mt = .linear ∧ ∀ r, value r = ∑ k, r k ^ 2) ∨
  (aggregator = "sum" ∧ mt = .quadratic ∧ ∀ r, value r = ∑ k, r k) ∨
  (aggregator = "identity" ∧ m = 1 ∧ ∀ r, value r = ∑ k, r k)

/-- The aggregated model predicts the criterion that belongs to the predicted residuals. -/
theorem aggregate_criterion {name : String} {mt : ModelType} {value : Vec K m → K}
    (h : CriterionOf name mt value) (v : VectorModel K n m) (hv : mt = .linear ↔ v.squareTerms = none)
    (hs : ∀ q, v.squareTerms = some q → ∀ k, SymmetricMat (q k)) :
    ∃ s, aggregate name v = .ok s ∧ SolvableModel s ∧ ∀ u, s.predict u = value (v.predict u) := by
  rcases h with ⟨rfl, hm, hval⟩ | ⟨rfl, hm, hval⟩ | ⟨rfl, rfl, hval⟩
  · obtain ⟨s, q, h1, h2, h3, h4, -⟩ := C37_least_squares v (hv.1 hm)
    exact ⟨s, h1, ⟨q, h2, h4⟩, fun u => by rw [h3, hval]⟩
  · have hne : v.squareTerms ≠ none := fun h => by rw [← hv, hm] at h; cases h
    obtain ⟨q, hq⟩ := Option.ne_none_iff_exists'.1 hne
    obtain ⟨s, h1, h3, -⟩ := C37_sum v q hq
    obtain ⟨s', h1', h5⟩ := aggregate_ok (m := m) (mt := .quadratic) (Or.inr (Or.inl ⟨rfl, rfl⟩)) v
      (fun _ => by simp [hq]) hs
    rw [h1] at h1'
    obtain rfl : s = s' := by injection h1'
    exact ⟨s, h1, h5, fun u => by rw [h3, hval]⟩
  · obtain ⟨s, h1, h3, -⟩ := C37_identity v
    obtain ⟨s', h1', h5⟩ := aggregate_ok (m := 1) (mt := mt) (Or.inl ⟨rfl, rfl⟩) v
      (fun h => by
        rw [Option.isSome_iff_ne_none]
        intro h0
        rw [← hv, h] at h0
        cases h0) hs
    rw [h1] at h1'
    obtain rfl : s = s' := by injection h1'
    exact ⟨s, h1, h5, fun u => by rw [h3, hval]; simp⟩

/-- What the theorem below says about one iteration, with criterion `g`: `s` is the state that the iteration appends
to the list of states, `points` are the evaluated points. -/
structure ExactIteration {VM : Type} (b : BuiltinSettings K n m) (minImprovement : K) (g : Vec K n → K)
    (points : List (Vec K n)) (s : LoopState K n VM (ScalarModel K n)) : Prop where
  /-- the aggregators make no other models -/
  solvable : SolvableModel s.model
  /-- the model predicts the criterion everywhere, also outside of the trust region -/
  model : ∀ y, s.model.predict (s.trustregion.mapToUnit b.cubeRadius y) = g y
  /-- `z` is the proposal of the subsolver, evaluated like all proposals -/
  decision : ∃ z ∈ points, (∃ sub, builtinSolve b s.model s.trustregion = .ok sub ∧ sub.x = z) ∧
    g z ≤ g s.trustregion.center ∧
    s.rho = (if g z < g s.trustregion.center then .fin 1 else .ninf) ∧
    (minImprovement ≤ g s.trustregion.center - g z → s.accepted = true) ∧
    (s.accepted = true → g s.x ≤ g z)

/-- The hypotheses of C103 on criterion and settings. `res` are the residuals. -/
structure ExactSetting (c : Config K) (b : BuiltinSettings K n m) (res : Fin m → Vec K n → K)
    (value : Vec K m → K) : Prop where
  lstsq : LstsqSpec b.lstsq
  fitter : b.fitter.Interpolates
  criterion : CriterionOf b.aggregator b.modelType value
  residuals : ∀ k, IsPoly b.modelType (res k)
  /-- no noise -/
  oracle : ∀ k x, b.oracle k x = .fin (value fun j => res j x)
  /-- the data of a point that has been evaluated are its residuals -/
  data : ∀ log i y, log.xs[i]? = some y → log.fvals i ≠ [] → ∀ k, b.data log i k = .fin (res k y)
  noisy : c.noisy = false
  decider : ∀ m zc zp n1 n2, c.decider ≠ .noisy m zc zp n1 n2
  evaluations : 1 ≤ c.nEvalsPerPoint

/-- One iteration. -/
theorem iteration_exact [FloorRing K] {c : Config K} {b : BuiltinSettings K n m} {bounds : Bounds K n}
    (h : SafeSettings c b bounds) {res : Fin m → Vec K n → K} {value : Vec K m → K}
    (hx : ExactSetting c b res value) {cp : Components K n (VectorModel K n m) (ScalarModel K n)}
    (hreal : Realizes (builtinComponents b) cp) (hf : FilterSelects cp) (it : Nat)
    (r : Run K n (VectorModel K n m) (ScalarModel K n)) (hr : RunSafe c cp bounds StartModel r)
    (hval : r.state.fval = .fin (value fun j => res j r.state.x)) (hne : 1 ≤ r.nEvals)
    (hdet : DeterminedBy b.modelType ((theBuild c cp it r).log.getXs (theBuild c cp it r).modelIndices)) :
    ExactIteration b c.decider.minImprovement (fun y => value fun j => res j y)
      (theDecision c cp it r).1.xs (theState c cp it r) := by
  have hcin : InBounds bounds r.state.x := hr.points _ (List.mem_of_getElem? hr.ok.point)
  have hreg : FeasibleRegion bounds r.state.trustregion :=
    ⟨hr.ok.bounds, hr.radius, by rw [hr.ok.center]; exact hcin⟩
  have hus : Usable b.cubeRadius r.state.trustregion := ⟨hreg.radius, h.cubeRadius _ hreg.radius,
    by rw [hreg.box]; exact hreg.center, by rw [hreg.box]; exact h.sides⟩
  have hbo := buildPhase_ok c cp it r.state r.log r.nEvals hf hr.ok.point
  change BuildOk cp it r.state r.log r.nEvals (theBuild c cp it r) at hbo
  have horacle : cp.oracle = b.oracle := hreal.oracle
  have hcons : (theBuild c cp it r).log.Consistent cp.oracle := hbo.grows.consistent hr.ok.consistent
  -- the data of the model
  have hdata : ∀ i ∈ (theBuild c cp it r).modelIndices, ∃ y, (theBuild c cp it r).log.xs[i]? = some y ∧
      ∀ k, b.data (theBuild c cp it r).log i k = .fin (res k y) := by
    intro i hi
    obtain ⟨l, -, h2, h3⟩ := hbo.pairs
    have hev := hbo.evals i hi
    have hi' := hi
    rw [h2, List.mem_map] at hi'
    obtain ⟨p, hp, rfl⟩ := hi'
    refine ⟨p.1, h3 p hp, hx.data _ _ _ (h3 p hp) ?_⟩
    intro h0
    rw [h0, List.length_nil] at hev
    omega
  obtain ⟨v, hv1, hv2, hv3, hv4⟩ := C103_exact_fit b hx.lstsq (fun w hw => (h.root w hw).2) hx.fitter
    (theBuild c cp it r).log (theBuild c cp it r).modelIndices r.state.trustregion hus r.state.vectorModel hr.good
    res hx.residuals hdata hdet
  obtain ⟨sm, hs1, hs2, hs3⟩ := aggregate_criterion hx.criterion v hv2 hv3
  obtain ⟨sub, hsub, -⟩ := builtinSolve_ok h sm hs2 r.state.trustregion hreg hus
  have hfit := hreal.fit _ _ _ _ _ (show (builtinComponents b).fit _ _ _ _ = _ from hv1)
  have hagg := hreal.aggregate _ _ (show (builtinComponents b).aggregate _ = _ from hs1)
  have hsol := hreal.solve _ _ _ (show (builtinComponents b).solve _ _ = _ from hsub)
  have hmodel : (theBuild c cp it r).model = sm := by
    rw [hbo.coherent]
    show cp.aggregate (cp.fit _ _ _ _) = sm
    rw [hfit, hagg]
  have hbsub : (theBuild c cp it r).sub = sub := by
    rw [hbo.coherent]
    show cp.solve (cp.aggregate (cp.fit _ _ _ _)) _ = sub
    rw [hfit, hagg, hsol]
  have hpred : ∀ y, sm.predict (r.state.trustregion.mapToUnit b.cubeRadius y) = value fun j => res j y := by
    intro y
    rw [hs3]
    congr 1
    funext k
    exact hv4 y k
  obtain ⟨he0, he⟩ := C39_expected_improvement_in_a_run b sm r.state.trustregion hus sub hsub
  rw [hpred, hpred] at he
  rw [he] at he0
  obtain ⟨d1, d2, d3, d4⟩ := runDecider_exact c cp it hx.decider (theBuild c cp it r).log r.state.trustregion
    (theBuild c cp it r).sub r.state.current (theBuild c cp it r).log hcons
    (g := fun y => value fun j => res j y) (fun k x => by rw [horacle]; exact hx.oracle k x) hval
  rw [hbsub] at d1 d2 d3 d4
  have hcur : r.state.current.x = r.state.trustregion.center := hr.ok.center.symm
  rw [hcur] at d1 d2
  rw [← hbsub] at d1 d2 d3 d4
  refine ⟨?_, fun y => ?_, (theBuild c cp it r).sub.x, d4, ⟨sub, ?_, by rw [hbsub]⟩, ?_, ?_, d2, d3⟩
  · show SolvableModel (theBuild c cp it r).model
    rw [hmodel]
    exact hs2
  · show (theBuild c cp it r).model.predict _ = _
    rw [hmodel]
    exact hpred y
  · show builtinSolve b (theBuild c cp it r).model _ = _
    rw [hmodel]
    exact hsub
  · rw [hbsub]
    exact sub_nonneg.1 he0
  · show (theDecision c cp it r).2.rho = if (value fun j => res j (theBuild c cp it r).sub.x) <
      (value fun j => res j r.state.trustregion.center) then .fin 1 else .ninf
    unfold theDecision
    rw [d1, hbsub, he]
    by_cases hlt : (value fun j => res j sub.x) < value fun j => res j r.state.trustregion.center
    · have hne' := (sub_pos.2 hlt).ne'
      rw [if_pos hlt]
      unfold calculateRho
      rw [if_neg (fun h => hne' h.1), if_neg hne']
      show XVal.fin _ = _
      rw [div_self hne']
    · have h0 : (value fun j => res j r.state.trustregion.center) - (value fun j => res j sub.x) = 0 :=
        le_antisymm (by linarith [not_lt.1 hlt]) he0
      rw [if_neg hlt]
      unfold calculateRho
      rw [h0, if_neg (by simp), if_pos rfl]

omit [IsStrictOrderedRing K] in
/-- A property that holds at the start and is preserved by iterations that return. -/
theorem runLoopR_induction [FloorRing K] {VM SM : Type} {c : Config K} {ce : ComponentsR K n VM SM}
    (P : Run K n VM SM → Prop) (hstep : ∀ it r, P r → ∃ r', iterationR c ce it r = .ok r' ∧ P r') (k it : Nat)
    (r : Run K n VM SM) (hr : P r) : ∃ r', runLoopR c ce k it r = .ok r' ∧ P r' := by
  induction k generalizing it r with
  | zero => exact ⟨r, rfl, hr⟩
  | succ k ih =>
    obtain ⟨r1, h1, hr1⟩ := hstep it r hr
    unfold runLoopR
    rw [h1]
    by_cases hs : r1.stop = true
    · refine ⟨r1, ?_, hr1⟩
      change (if _ then _ else _) = _
      rw [if_pos hs]
      rfl
    · obtain ⟨r2, h2, hr2⟩ := ih (it + 1) r1 hr1
      refine ⟨r2, ?_, hr2⟩
      change (if _ then _ else _) = _
      rw [if_neg hs]
      exact h2

omit [Field K] [LinearOrder K] [IsStrictOrderedRing K] in
theorem getXs_of_prefix {a b : Log K n} (h : a.xs <+: b.xs) (is : List Nat) (hv : ∀ i ∈ is, i < a.xs.length) :
    b.getXs is = a.getXs is := by
  unfold Log.getXs
  refine List.filterMap_congr fun i hi => ?_
  exact getElem?_of_prefix h (List.getElem?_eq_getElem (hv i hi)) ▸ (List.getElem?_eq_getElem (hv i hi)).symm

/-- C103. A run on a criterion whose residuals are polynomials of the model type returns, and in every iteration
whose model points determine such polynomials: the model is the criterion, everywhere; `rho` is one, or `-inf` if the
proposal of the subsolver is not better than the current point; a proposal that is better by `min_improvement` is
accepted, or a point that is at least as good. -/
theorem C103_exact_models [FloorRing K] {c : Config K} {b : BuiltinSettings K n m} {bounds : Bounds K n}
    (h : SafeSettings c b bounds) (hcfg : SafeConfig c bounds) {res : Fin m → Vec K n → K} {value : Vec K m → K}
    (hx : ExactSetting c b res value) (x : Vec K n) (hin : InBounds bounds x) (radius : K) (hrad : 0 < radius) :
    ∃ r, tranquiloR c (builtinComponents b) x radius bounds = .ok r ∧
      ∀ s ∈ r.states.tail, DeterminedBy b.modelType (r.log.getXs s.modelIndices) →
        ExactIteration b c.decider.minImprovement (fun y => value fun j => res j y) r.log.xs s := by
  have hsafe := C98_builtin_components_are_safe h
  set ce := builtinComponents b with hce
  obtain ⟨hgood, sm, hsm⟩ := hsafe.init (startLogR c ce.oracle x)
    { center := x, radius := radius, bounds := bounds } ⟨rfl, hrad, hin⟩
  have hstart : ∃ r, startRunR c ce x radius bounds = .ok r ∧
      r.state.trustregion.radius = radius ∧ r.log = startLogR c ce.oracle x ∧
      r.state.vectorModel = ce.initModel (startLogR c ce.oracle x)
        { center := x, radius := radius, bounds := bounds } ∧ r.state.index = 0 := by
    unfold startRunR
    dsimp only
    rw [hsm]
    exact ⟨_, rfl, rfl, rfl, rfl, rfl⟩
  obtain ⟨r0, h0, h1, h2, h3, hidx⟩ := hstart
  set cp := ce.total (fallbackComponents ce sm) with hcp
  have hreal : Realizes ce cp := ce.total_realizes _
  have hf : FilterSelects cp := total_filterSelects sm hsafe.selects
  have hr0 := startRunR_ok hreal h0
  have hrs : RunSafe c cp bounds StartModel r0 := by
    refine ⟨?_, by rw [h1]; exact hrad, ?_, by rw [h3]; exact hgood, ?_, fun hrep => by
      rw [h2, hidx]; exact startLogR_twice hcfg.batch hrep.1 ce.oracle x⟩
    · rw [← hr0]
      exact startRun_ok c cp x radius bounds
    · intro y hy
      rw [← hr0] at hy
      have : y = x := by simpa [startRun] using hy
      rw [this]; exact hin
    · rw [h2]
      exact startLogR_evals hcfg.batch ce.oracle x
  have hdet : ∀ k y, cp.oracle k y = .fin (value fun j => res j y) := hx.oracle
  let P : Run K n (VectorModel K n m) (ScalarModel K n) → Prop := fun r =>
    RunSafe c cp bounds StartModel r ∧
    DetOk cp (fun y => .fin (value fun j => res j y)) c.decider.minImprovement r ∧
    r.nEvals = c.nEvalsPerPoint ∧ r.states ≠ [] ∧
    ∀ s ∈ r.states.tail, (∀ i ∈ s.modelIndices, i < r.log.xs.length) ∧
      (DeterminedBy b.modelType (r.log.getXs s.modelIndices) →
        ExactIteration b c.decider.minImprovement (fun y => value fun j => res j y) r.log.xs s)
  have hP0 : P r0 := by
    refine ⟨hrs, ?_, ?_, ?_, ?_⟩
    · rw [← hr0]; exact startRun_det c cp hcfg.batch hdet x radius bounds
    · rw [← hr0]; rfl
    · rw [← hr0]; simp [startRun]
    · rw [← hr0]; simp [startRun]
  obtain ⟨r, hr, hPr⟩ := runLoopR_induction (c := c) (ce := ce) P (by
    rintro it r ⟨p1, p2, p3, p4, p5⟩
    obtain ⟨r', hr', hs'⟩ := iterationR_safe hsafe hcfg sm it r p1
    have heq : iteration c cp it r = r' := iterationR_ok hreal hr'
    have hgrow := iteration_grows c cp hf it r p1.ok.point
    have hd := iteration_det c cp hf hcfg.batch hdet bounds it r p1.ok p2
    refine ⟨r', hr', hs', ?_, ?_, ?_, ?_⟩
    · rw [← heq]; exact hd
    · rw [← heq, iteration_eq]
      show (theNEvals c cp it r).1 = _
      unfold theNEvals
      rw [hx.noisy]
      exact p3
    · rw [← heq, iteration_eq]; simp
    · intro s hs
      have hlog : (iteration c cp it r).log = (theDecision c cp it r).1 := by rw [iteration_eq]
      have hs'' : s ∈ r.states.tail ∨ s = theState c cp it r := by
        rw [← heq, iteration_eq] at hs
        simp only at hs
        rw [List.tail_append_of_ne_nil p4] at hs
        simpa using hs
      rw [← heq]
      rcases hs'' with hs | rfl
      · obtain ⟨q1, q2⟩ := p5 s hs
        refine ⟨fun i hi => (q1 i hi).trans_le hgrow.xs_prefix.length_le, fun hd => ?_⟩
        rw [getXs_of_prefix hgrow.xs_prefix _ q1] at hd
        obtain ⟨e0, e1, z, hz, e2⟩ := q2 hd
        exact ⟨e0, e1, z, hgrow.xs_prefix.subset hz, e2⟩
      · have hbo := buildPhase_ok c cp it r.state r.log r.nEvals hf p1.ok.point
        change BuildOk cp it r.state r.log r.nEvals (theBuild c cp it r) at hbo
        have hv : ∀ i ∈ (theBuild c cp it r).modelIndices, i < (theBuild c cp it r).log.xs.length := by
          intro i hi
          obtain ⟨l, -, e2, e3⟩ := hbo.pairs
          rw [e2, List.mem_map] at hi
          obtain ⟨p, hp, rfl⟩ := hi
          exact (List.getElem?_eq_some_iff.1 (e3 p hp)).1
        have hpre : (theBuild c cp it r).log.xs <+: (iteration c cp it r).log.xs := by
          rw [hlog]
          exact (decision_grows c cp it r ((List.getElem?_eq_some_iff.1 p1.ok.point).1.trans_le
            hbo.grows.xs_prefix.length_le)).xs_prefix
        refine ⟨fun i hi => (hv i hi).trans_le hpre.length_le, fun hd => ?_⟩
        rw [hlog]
        rw [show (theState c cp it r).modelIndices = (theBuild c cp it r).modelIndices from rfl,
          getXs_of_prefix hpre _ hv] at hd
        exact iteration_exact h hx hreal hf it r p1 p2.value (by rw [p3]; exact hx.evaluations) hd)
    c.maxIter 0 r0 hP0
  refine ⟨r, ?_, fun s hs => (hPr.2.2.2.2 s hs).2⟩
  unfold tranquiloR
  rw [h0]
  exact hr

/-- C103, example: three points determine the affine functions of two variables. -/
example : DeterminedBy .linear ([![0, 0], ![1, 0], ![1 / 2, 1]] : List (Vec ℝ 2)) := by
  rintro f ⟨c, g, sq, hsq, hf⟩ h y
  obtain rfl := hsq rfl
  have h0 := h ![0, 0] (by simp)
  have h1 := h ![1, 0] (by simp)
  have h2 := h ![1 / 2, 1] (by simp)
  rw [hf] at h0 h1 h2 ⊢
  simp only [polyVal, Fin.sum_univ_two, Matrix.cons_val_zero, Matrix.cons_val_one, add_zero] at h0 h1 h2 ⊢
  have hc : c = 0 := by linarith
  have hg0 : g 0 = 0 := by linarith
  have hg1 : g 1 = 0 := by linarith
  rw [hc, hg0, hg1]
  ring

/-- C103, example: the settings of `raisingSettings` with `fit_ols` and the criterion
`(1 + x0) ^ 2 + (x0 - x1) ^ 2`. -/
example (c : Config ℝ) (hn : c.noisy = false) (hd : ∃ m, c.decider = .classic m) (he : 1 ≤ c.nEvalsPerPoint) :
    ∃ b : BuiltinSettings ℝ 2 2, SafeSettings c b ⟨fun _ => some (-1), fun _ => some 1⟩ ∧
      ExactSetting c b (fun k x => if k = 0 then 1 + x 0 else x 0 - x 1) (fun r => ∑ k, r k ^ 2) := by
  obtain ⟨l, hl⟩ := exists_lstsq
  refine ⟨{ raisingSettings with
      lstsq := l, fitter := .ols,
      oracle := fun _ x => .fin (∑ k : Fin 2, (if k = 0 then 1 + x 0 else x 0 - x 1) ^ 2)
      data := fun log i k => match log.xs[i]? with
        | some x => .fin (if k = 0 then 1 + x 0 else x 0 - x 1)
        | none => .nan }, ?_, ?_⟩
  · exact
      { zero := by simp [raisingSettings]
        root := sqrtSpec_realSqrt
        radial := fun _ => ⟨zero_le_one, le_rfl⟩
        cubeRadius := fun _ h => h
        dimRoot := fun a _ => Real.sqrt_nonneg a
        rng := fun _ _ _ => constantRng_spec
        filter := ⟨zero_le_one, rfl⟩
        sampler := Or.inl rfl
        aggregator := Or.inr (Or.inr (Or.inr rfl))
        sides := by
          intro i l u hl hu
          cases hl
          cases hu
          norm_num
        noise := by rw [hn]; intro h; cases h
        values := by
          obtain ⟨m, hm⟩ := hd
          rw [hm]
          intro m' rf h
          cases h
        sphere := fun model hm => (C98_fallback_solvers_return _ _ _ model hm _).1
        cube := fun model hm x _ => (C98_fallback_solvers_return Real.sqrt _ _ model hm x).2
        ball := Or.inr fun model _ x raw => ⟨fun h => (by cases h), fun h =>
          C52_inscribed_cube Real.sqrt sqrtSpec_realSqrt _ (fun _ _ _ _ h => ⟨fun i => npClip_mem (h i), rfl⟩)
            model x raw h⟩ }
  · exact
      { lstsq := hl
        fitter := trivial
        criterion := Or.inl ⟨rfl, rfl, fun _ => rfl⟩
        residuals := by
          intro k
          refine ⟨if k = 0 then 1 else 0, fun i => if k = 0 then (if i = 0 then 1 else 0) else
            (if i = 0 then 1 else -1), none, fun _ => rfl, fun u => ?_⟩
          by_cases hk : k = 0 <;> simp [polyVal, hk, Fin.sum_univ_two]
          ring
        oracle := fun _ _ => rfl
        data := by
          intro log i y hy _ k
          simp only [hy]
        noisy := hn
        decider := by
          obtain ⟨m, hm⟩ := hd
          rw [hm]
          intro _ _ _ _ _ h
          cases h
        evaluations := he }

end Tranquilo
