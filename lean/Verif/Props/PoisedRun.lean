import Verif.Props.PoisedModels
import Verif.Props.StationaryBuiltin
import Verif.Props.RunRadius

/-!
# C120: runs with poised model points reach points with small gradients
-/

namespace Tranquilo

variable {K : Type} [Field K] [LinearOrder K] [IsStrictOrderedRing K] {n m : Nat}

/-- Criterion and settings of runs that interpolate: the residuals `res` may be any functions. -/
structure InterpolationSetting (c : Config K) (b : BuiltinSettings K n m) (res : Fin m → Vec K n → K)
    (value : Vec K m → K) : Prop where
  lstsq : LstsqSpec b.lstsq
  fitter : b.fitter.Interpolates
  criterion : CriterionOf b.aggregator b.modelType value
  /-- no noise -/
  oracle : ∀ k x, b.oracle k x = .fin (value fun j => res j x)
  /-- the data of a point that has been evaluated are its residuals -/
  data : ∀ log i y, log.xs[i]? = some y → log.fvals i ≠ [] → ∀ k, b.data log i k = .fin (res k y)
  noisy : c.noisy = false
  evaluations : 1 ≤ c.nEvalsPerPoint

/-- The model of one iteration: if polynomials agree with the residuals at the model points, and these determine
polynomials, the model predicts the criterion of the polynomials. -/
theorem iteration_interpolates [FloorRing K] {c : Config K} {b : BuiltinSettings K n m} {bounds : Bounds K n}
    (h : SafeSettings c b bounds) {res : Fin m → Vec K n → K} {value : Vec K m → K}
    (hx : InterpolationSetting c b res value) {cp : Components K n (VectorModel K n m) (ScalarModel K n)}
    (hreal : Realizes (builtinComponents b) cp) (hf : FilterSelects cp) (it : Nat)
    (r : Run K n (VectorModel K n m) (ScalarModel K n)) (hr : RunSafe c cp bounds StartModel r) (hne : 1 ≤ r.nEvals)
    (hdet : DeterminedBy b.modelType ((theBuild c cp it r).log.getXs (theBuild c cp it r).modelIndices))
    (P : Fin m → Vec K n → K) (hP : ∀ k, IsPoly b.modelType (P k))
    (heq : ∀ y ∈ (theBuild c cp it r).log.getXs (theBuild c cp it r).modelIndices, ∀ k, P k y = res k y)
    (y : Vec K n) :
    (theBuild c cp it r).model.predict (r.state.trustregion.mapToUnit b.cubeRadius y) = value fun k => P k y := by
  have hcin : InBounds bounds r.state.x := hr.points _ (List.mem_of_getElem? hr.ok.point)
  have hreg : FeasibleRegion bounds r.state.trustregion :=
    ⟨hr.ok.bounds, hr.radius, by rw [hr.ok.center]; exact hcin⟩
  have hus : Usable b.cubeRadius r.state.trustregion := ⟨hreg.radius, h.cubeRadius _ hreg.radius,
    by rw [hreg.box]; exact hreg.center, by rw [hreg.box]; exact h.sides⟩
  have hbo := buildPhase_ok c cp it r.state r.log r.nEvals hf hr.ok.point
  change BuildOk cp it r.state r.log r.nEvals (theBuild c cp it r) at hbo
  have hdata : ∀ i ∈ (theBuild c cp it r).modelIndices, ∃ y, (theBuild c cp it r).log.xs[i]? = some y ∧
      ∀ k, b.data (theBuild c cp it r).log i k = .fin (P k y) := by
    intro i hi
    obtain ⟨l, -, h2, h3⟩ := hbo.pairs
    have hev := hbo.evals i hi
    have hi' := hi
    rw [h2, List.mem_map] at hi'
    obtain ⟨p, hp, rfl⟩ := hi'
    refine ⟨p.1, h3 p hp, fun k => ?_⟩
    rw [heq p.1 (List.mem_filterMap.2 ⟨_, hi, h3 p hp⟩) k]
    refine hx.data _ _ _ (h3 p hp) ?_ k
    intro h0
    rw [h0, List.length_nil] at hev
    omega
  obtain ⟨v, hv1, hv2, hv3, hv4⟩ := C103_exact_fit b hx.lstsq (fun w hw => (h.root w hw).2) hx.fitter
    (theBuild c cp it r).log (theBuild c cp it r).modelIndices r.state.trustregion hus r.state.vectorModel hr.good
    P hP hdata hdet
  obtain ⟨sm, hs1, hs2, hs3⟩ := aggregate_criterion hx.criterion v hv2 hv3
  have hfit := hreal.fit _ _ _ _ _ (show (builtinComponents b).fit _ _ _ _ = _ from hv1)
  have hagg := hreal.aggregate _ _ (show (builtinComponents b).aggregate _ = _ from hs1)
  have hmodel : (theBuild c cp it r).model = sm := by
    rw [hbo.coherent]
    show cp.aggregate (cp.fit _ _ _ _) = sm
    rw [hfit, hagg]
  rw [hmodel, hs3]
  congr 1
  funext k
  exact hv4 y k

/-- The same for all iterations of a run. -/
theorem run_interpolates [FloorRing K] {c : Config K} {b : BuiltinSettings K n m} {bounds : Bounds K n}
    (h : SafeSettings c b bounds) (hcfg : SafeConfig c bounds) {res : Fin m → Vec K n → K} {value : Vec K m → K}
    (hx : InterpolationSetting c b res value) (x : Vec K n) (hin : InBounds bounds x) (radius : K) (hrad : 0 < radius) :
    ∃ r, tranquiloR c (builtinComponents b) x radius bounds = .ok r ∧
      ∀ s ∈ r.states.tail, DeterminedBy b.modelType (r.log.getXs s.modelIndices) →
        ∀ P : Fin m → Vec K n → K, (∀ k, IsPoly b.modelType (P k)) →
          (∀ y ∈ r.log.getXs s.modelIndices, ∀ k, P k y = res k y) →
          ∀ y, s.model.predict (s.trustregion.mapToUnit b.cubeRadius y) = value fun k => P k y := by
  have hsafe := C98_builtin_components_are_safe h
  set ce := builtinComponents b with hce
  obtain ⟨hgood, sm, hsm⟩ := hsafe.init (startLogR c ce.oracle x)
    { center := x, radius := radius, bounds := bounds } ⟨rfl, hrad, hin⟩
  have hstart : ∃ r, startRunR c ce x radius bounds = .ok r ∧
      r.state.trustregion.radius = radius ∧ r.log = startLogR c ce.oracle x ∧
      r.state.vectorModel = ce.initModel (startLogR c ce.oracle x)
        { center := x, radius := radius, bounds := bounds } ∧ r.state.index = 0 := by
    unfold startRunR
    dsimp only
    rw [hsm]
    exact ⟨_, rfl, rfl, rfl, rfl, rfl⟩
  obtain ⟨r0, h0, h1, h2, h3, hidx⟩ := hstart
  set cp := ce.total (fallbackComponents ce sm) with hcp
  have hreal : Realizes ce cp := ce.total_realizes _
  have hf : FilterSelects cp := total_filterSelects sm hsafe.selects
  have hr0 := startRunR_ok hreal h0
  have hrs : RunSafe c cp bounds StartModel r0 := by
    refine ⟨?_, by rw [h1]; exact hrad, ?_, by rw [h3]; exact hgood, ?_, fun hrep => by
      rw [h2, hidx]; exact startLogR_twice hcfg.batch hrep.1 ce.oracle x⟩
    · rw [← hr0]
      exact startRun_ok c cp x radius bounds
    · intro y hy
      rw [← hr0] at hy
      have : y = x := by simpa [startRun] using hy
      rw [this]; exact hin
    · rw [h2]
      exact startLogR_evals hcfg.batch ce.oracle x
  let P : Run K n (VectorModel K n m) (ScalarModel K n) → Prop := fun r =>
    RunSafe c cp bounds StartModel r ∧ r.nEvals = c.nEvalsPerPoint ∧ r.states ≠ [] ∧
    ∀ s ∈ r.states.tail, (∀ i ∈ s.modelIndices, i < r.log.xs.length) ∧
      (DeterminedBy b.modelType (r.log.getXs s.modelIndices) →
        ∀ P : Fin m → Vec K n → K, (∀ k, IsPoly b.modelType (P k)) →
          (∀ y ∈ r.log.getXs s.modelIndices, ∀ k, P k y = res k y) →
          ∀ y, s.model.predict (s.trustregion.mapToUnit b.cubeRadius y) = value fun k => P k y)
  have hP0 : P r0 := by
    refine ⟨hrs, ?_, ?_, ?_⟩
    · rw [← hr0]; rfl
    · rw [← hr0]; simp [startRun]
    · rw [← hr0]; simp [startRun]
  obtain ⟨r, hr, hPr⟩ := runLoopR_induction (c := c) (ce := ce) P (by
    rintro it r ⟨p1, p3, p4, p5⟩
    obtain ⟨r', hr', hs'⟩ := iterationR_safe hsafe hcfg sm it r p1
    have heq : iteration c cp it r = r' := iterationR_ok hreal hr'
    have hgrow := iteration_grows c cp hf it r p1.ok.point
    refine ⟨r', hr', hs', ?_, ?_, ?_⟩
    · rw [← heq, iteration_eq]
      show (theNEvals c cp it r).1 = _
      unfold theNEvals
      rw [hx.noisy]
      exact p3
    · rw [← heq, iteration_eq]; simp
    · intro s hs
      have hlog : (iteration c cp it r).log = (theDecision c cp it r).1 := by rw [iteration_eq]
      have hs'' : s ∈ r.states.tail ∨ s = theState c cp it r := by
        rw [← heq, iteration_eq] at hs
        simp only at hs
        rw [List.tail_append_of_ne_nil p4] at hs
        simpa using hs
      rw [← heq]
      rcases hs'' with hs | rfl
      · obtain ⟨q1, q2⟩ := p5 s hs
        refine ⟨fun i hi => (q1 i hi).trans_le hgrow.xs_prefix.length_le, fun hd Q hQ hQe => ?_⟩
        rw [getXs_of_prefix hgrow.xs_prefix _ q1] at hd hQe
        exact q2 hd Q hQ hQe
      · have hbo := buildPhase_ok c cp it r.state r.log r.nEvals hf p1.ok.point
        change BuildOk cp it r.state r.log r.nEvals (theBuild c cp it r) at hbo
        have hv : ∀ i ∈ (theBuild c cp it r).modelIndices, i < (theBuild c cp it r).log.xs.length := by
          intro i hi
          obtain ⟨l, -, e2, e3⟩ := hbo.pairs
          rw [e2, List.mem_map] at hi
          obtain ⟨p, hp, rfl⟩ := hi
          exact (List.getElem?_eq_some_iff.1 (e3 p hp)).1
        have hpre : (theBuild c cp it r).log.xs <+: (iteration c cp it r).log.xs := by
          rw [hlog]
          exact (decision_grows c cp it r ((List.getElem?_eq_some_iff.1 p1.ok.point).1.trans_le
            hbo.grows.xs_prefix.length_le)).xs_prefix
        refine ⟨fun i hi => (hv i hi).trans_le hpre.length_le, fun hd Q hQ hQe => ?_⟩
        rw [show (theState c cp it r).modelIndices = (theBuild c cp it r).modelIndices from rfl,
          getXs_of_prefix hpre _ hv] at hd hQe
        exact iteration_interpolates h hx hreal hf it r p1 (by rw [p3]; exact hx.evaluations) hd Q hQ hQe)
    c.maxIter 0 r0 hP0
  refine ⟨r, ?_, fun s hs => (hPr.2.2.2 s hs).2⟩
  unfold tranquiloR
  rw [h0]
  exact hr

/-- A quadratic function that is nearly affine in the unit ball has nearly the linear terms of the affine function, and
small curvature. -/
theorem nearly_affine {root : K → K} (hroot : SqrtSpec root) {model : ScalarModel K n} {h : Mat K n n}
    (hm : model.squareTerms = some h) {a e : K} {w : Vec K n}
    (hne : ∀ u, sumSq u ≤ 1 → |model.predict u - (a + ∑ i, w i * u i)| ≤ e) :
    sumSq (fun i => model.linearTerms i - w i) ≤ e ^ 2 ∧ ∀ u, |∑ i, ∑ j, h i j * u i * u j| ≤ 4 * e * sumSq u := by
  have hpred : ∀ u, model.predict u = model.intercept + ∑ i, model.linearTerms i * u i
      + (∑ i, ∑ j, h i j * u i * u j) / 2 := fun u => by
    rw [predict_quadModel hm]; unfold quadModel; ring
  have hneg : ∀ u : Vec K n, sumSq (fun i => -u i) = sumSq u := fun u => by simp [sumSq]
  have hl : ∀ (v u : Vec K n), ∑ i, v i * -u i = -∑ i, v i * u i := fun v u => by
    rw [← Finset.sum_neg_distrib]; exact Finset.sum_congr rfl fun i _ => by ring
  have hq : ∀ u : Vec K n, ∑ i, ∑ j, h i j * -u i * -u j = ∑ i, ∑ j, h i j * u i * u j := fun u =>
    Finset.sum_congr rfl fun i _ => Finset.sum_congr rfl fun j _ => by ring
  have he : 0 ≤ e := (abs_nonneg _).trans (hne (fun _ => 0) (by simp [sumSq]))
  constructor
  · set d : Vec K n := fun i => model.linearTerms i - w i with hd
    have h0 : 0 ≤ sumSq d := Finset.sum_nonneg fun i _ => sq_nonneg _
    obtain ⟨g1, g2⟩ := hroot _ h0
    set t := root (sumSq d) with ht
    rcases g1.eq_or_lt with h1 | h1
    · rw [← g2, ← h1]; simp; positivity
    · have hu : sumSq (fun i => d i / t) = 1 := by
        simp only [sumSq, div_pow, ← Finset.sum_div]
        rw [div_eq_one_iff_eq (by positivity), sq, g2]
        rfl
      have a1 := hne _ hu.le
      have a2 := hne (fun i => -(d i / t)) (by rw [hneg, hu])
      rw [hpred] at a1 a2
      simp only [hq] at a2
      simp only [hl] at a2
      have e1 : ∑ i, model.linearTerms i * (d i / t) - ∑ i, w i * (d i / t) = t := by
        rw [← Finset.sum_sub_distrib]
        have : ∀ i, model.linearTerms i * (d i / t) - w i * (d i / t) = d i ^ 2 / t := fun i => by
          simp only [hd]; ring
        simp only [this, ← Finset.sum_div]
        rw [div_eq_iff h1.ne', g2]; rfl
      have : t ≤ e := by
        have := (abs_le.1 a1).2
        have := (abs_le.1 a2).1
        linarith
      rw [← g2, ← sq]
      exact pow_le_pow_left₀ g1 this 2
  · intro u
    have h0 : 0 ≤ sumSq u := Finset.sum_nonneg fun i _ => sq_nonneg _
    obtain ⟨g1, g2⟩ := hroot _ h0
    set t := root (sumSq u) with ht
    rcases g1.eq_or_lt with h1 | h1
    · have hz : ∀ i, u i = 0 := by
        intro i
        have : sumSq u = 0 := by rw [← g2, ← h1]; ring
        have := (Finset.sum_eq_zero_iff_of_nonneg fun i _ => sq_nonneg (u i)).1 this i (Finset.mem_univ i)
        exact pow_eq_zero_iff two_ne_zero |>.1 this
      have : sumSq u = 0 := by rw [← g2, ← h1]; ring
      simp [hz, this]
    · have hu : sumSq (fun i => u i / t) = 1 := by
        simp only [sumSq, div_pow, ← Finset.sum_div]
        rw [div_eq_one_iff_eq (by positivity), sq, g2]
        rfl
      have a1 := hne _ hu.le
      have a2 := hne (fun i => -(u i / t)) (by rw [hneg, hu])
      have a3 := hne (fun _ => 0) (by simp [sumSq])
      rw [hpred] at a1 a2 a3
      simp only [hq] at a2
      simp only [hl] at a2
      simp only [mul_zero, Finset.sum_const_zero, zero_div, add_zero] at a3
      have e1 : ∑ i, ∑ j, h i j * (u i / t) * (u j / t) = (∑ i, ∑ j, h i j * u i * u j) / t ^ 2 := by
        simp only [Finset.sum_div]
        exact Finset.sum_congr rfl fun i _ => Finset.sum_congr rfl fun j _ => by field_simp
      rw [e1] at a1 a2
      have a4 : |(∑ i, ∑ j, h i j * u i * u j) / t ^ 2| ≤ 4 * e := by
        obtain ⟨b1, b2⟩ := abs_le.1 a1
        obtain ⟨b3, b4⟩ := abs_le.1 a2
        obtain ⟨b5, b6⟩ := abs_le.1 a3
        rw [abs_le]
        constructor <;> linarith
      rw [abs_div, abs_of_pos (by positivity : 0 < t ^ 2), div_le_iff₀ (by positivity)] at a4
      rwa [sq, g2] at a4

/-- The run of C117 for models that are nearly affine: `err` is the error of the models, per squared radius. -/
theorem nearly_affine_run [FloorRing K] {c : Config K} (hc : ProgressOptions c) {b : BuiltinSettings K n m}
    {bounds : Bounds K n} (hno : ∀ y, InBounds bounds y) (h : SafeSettings c b bounds) (hcfg : SafeConfig c bounds)
    {theta slack : K} (htheta : 0 < theta) (hslack : 0 ≤ slack) {g : Vec K n → K} (hdet : ∀ k x, b.oracle k x = .fin (g x))
    {grad : Vec K n → Vec K n} {lip : K} (hsmooth : SmoothWith g grad lip) (hlip : 0 ≤ lip) {low : K}
    (hlow : ∀ y, low ≤ g y) {x : Vec K n} {radius : K} (hrad : 0 < radius) {eps err : K} (heps : 0 < eps)
    (herr : 0 < err) {kappa eta least : K}
    (hkappa : kappa = (1 + slack) ^ 2 * (lip + 4 * err) / 2 + (1 + slack) * err)
    (heta : eta = theta * eps / 2) (hleast : least = leastRadius c eta (eps / (4 * err)) kappa radius)
    (hmin : c.radius.minRadius ≤ least) (himp : c.decider.minImprovement ≤ c.radius.rhoDecrease * eta * least)
    {k p q : Nat} (hk : g x - low < k * (c.radius.rhoDecrease * eta * least))
    (hp : c.radius.expansionFactor * c.radius.shrinkingFactor ^ p ≤ 1)
    (hq : radius * c.radius.shrinkingFactor ^ q < least) :
    ∃ r, tranquiloR c (builtinComponents b) x radius bounds = .ok r ∧
      ((∀ s ∈ r.states.tail, eps ^ 2 ≤ sumSq (fun i => s.model.linearTerms i / s.trustregion.radius) →
          DescentAt theta slack (callSolver b.retry b.sphere b.fallbackSphere) s.model) →
        (∀ s ∈ r.states.tail, ∀ u, sumSq u ≤ 1 → |s.model.predict u - (g s.trustregion.center
          + ∑ i, s.trustregion.radius * grad s.trustregion.center i * u i)| ≤ err * s.trustregion.radius ^ 2) →
        (p + 1) * k + q < r.states.length →
        ∃ s ∈ r.states.tail, sumSq (grad s.trustregion.center) < (eps + err * s.trustregion.radius) ^ 2) := by
  obtain ⟨r, hr, hgood⟩ := run_models h hcfg x (hno x) radius hrad
  obtain ⟨r', hr', hmain⟩ := C117_small_gradient (beta := 4 * err) (err := err) hc hno h hcfg htheta hslack hdet hsmooth
    hlip hlow hrad heps (by linarith) herr.le hkappa heta hleast hmin himp hk hp hq
  rw [hr] at hr'
  obtain rfl : r = r' := Except.ok.inj hr'
  refine ⟨r, hr, fun hdesc hne hlen => hmain (fun s hs _ => ⟨fun hh hm u => ?_, hdesc s hs⟩) (fun s hs => ?_) hlen⟩
  · refine ((nearly_affine h.root hm (hne s hs)).2 u).trans (le_of_eq (by ring))
  · have hD : 0 < s.trustregion.radius := (hgood s hs).1.radius
    obtain ⟨hh, hm, -⟩ := (hgood s hs).2
    have h1 := (nearly_affine h.root hm (hne s hs)).1
    set D := s.trustregion.radius
    have e : sumSq (fun i => s.model.linearTerms i / D - grad s.trustregion.center i)
        = sumSq (fun i => s.model.linearTerms i - D * grad s.trustregion.center i) / D ^ 2 := by
      simp only [sumSq, Finset.sum_div]
      exact Finset.sum_congr rfl fun i _ => by rw [← div_pow]; congr 1; field_simp
    rw [e, div_le_iff₀ (by positivity)]
    exact h1.trans (le_of_eq (by ring))

/-- The interpolation polynomials of smooth residuals, in the trust region. -/
theorem poised_residuals {mt : ModelType} {center : Vec K n} {D cap reach lip : K} (hcap : 0 ≤ cap)
    (hlip : 0 ≤ lip) {points : List (Vec K n)} (hpo : PoisedOn mt (InBallSq center D) cap points)
    (hnear : ∀ y ∈ points, InBallSq center (reach * D) y) {res : Fin m → Vec K n → K}
    {jac : Fin m → Vec K n → Vec K n} (hs : ∀ k, SmoothWith (res k) (jac k) lip) :
    ∃ P : Fin m → Vec K n → K, (∀ k, IsPoly mt (P k)) ∧ (∀ y ∈ points, ∀ k, P k y = res k y) ∧
      ∀ k u, sumSq u ≤ 1 → |P k (fun i => u i * D + center i) - (res k center + ∑ i, D * jac k center i * u i)|
        ≤ cap * (lip / 2 * reach ^ 2) * D ^ 2 := by
  choose P hP1 hP2 hP3 using fun k => interpolant hpo (res k)
  refine ⟨P, hP1, fun y hy k => hP2 k y hy, fun k u hu => ?_⟩
  have := hP3 k (fun y => res k center + ∑ i, jac k center i * (y i - center i)) (lip / 2 * (reach * D) ^ 2)
    ⟨res k center - ∑ i, jac k center i * center i, jac k center, none, fun _ => rfl, fun y => by
      simp only [polyVal, mul_sub, Finset.sum_sub_distrib]; ring⟩
    (fun y hy => by
      have h1 := hs k center y
      have h2 : sumSq (fun i => y i - center i) ≤ (reach * D) ^ 2 := hnear y hy
      rw [← sub_sub]
      exact h1.trans (mul_le_mul_of_nonneg_left h2 (by linarith)))
    (fun i => u i * D + center i) (by
      unfold InBallSq
      have : sumSq (fun i => u i * D + center i - center i) = D ^ 2 * sumSq u := by
        simp only [sumSq, Finset.mul_sum]
        exact Finset.sum_congr rfl fun i _ => by ring
      rw [this]
      exact mul_le_of_le_one_right (sq_nonneg _) hu)
  have e : ∑ i, jac k center i * (u i * D + center i - center i) = ∑ i, D * jac k center i * u i :=
    Finset.sum_congr rfl fun i _ => by ring
  rw [e] at this
  exact this.trans (le_of_eq (by ring))

/-- C120, runs on criteria that are sums of smooth terms (or a single smooth number). In a run whose model points are
poised with the constant `cap` and not further away than `reach` times the radius, the error of the models is
proportional to `err`; so a run that is long enough visits a point where the gradient of the criterion is shorter than
`eps` plus `err` times the radius. That the models are accurate is a conclusion here, it was a hypothesis of C117. -/
theorem C120_small_gradient [FloorRing K] {c : Config K} (hc : ProgressOptions c) {b : BuiltinSettings K n m}
    {bounds : Bounds K n} (hno : ∀ y, InBounds bounds y) (h : SafeSettings c b bounds) (hcfg : SafeConfig c bounds)
    {theta slack : K} (htheta : 0 < theta) (hslack : 0 ≤ slack) {res : Fin m → Vec K n → K} {value : Vec K m → K}
    (hx : InterpolationSetting c b res value) (hval : ∀ v, value v = ∑ k, v k)
    {jac : Fin m → Vec K n → Vec K n} {lip : K} (hsmooth : ∀ k, SmoothWith (res k) (jac k) lip) (hlip : 0 ≤ lip)
    {low : K} (hlow : ∀ y, low ≤ ∑ k, res k y) {x : Vec K n} {radius : K} (hrad : 0 < radius)
    {eps cap reach err : K} (heps : 0 < eps) (hcap : 0 ≤ cap) (herr : err = m * (cap * (lip / 2 * reach ^ 2)))
    (hpos : 0 < err) {kappa eta least : K}
    (hkappa : kappa = (1 + slack) ^ 2 * (m * lip + 4 * err) / 2 + (1 + slack) * err)
    (heta : eta = theta * eps / 2) (hleast : least = leastRadius c eta (eps / (4 * err)) kappa radius)
    (hmin : c.radius.minRadius ≤ least) (himp : c.decider.minImprovement ≤ c.radius.rhoDecrease * eta * least)
    {k p q : Nat} (hk : (∑ j, res j x) - low < k * (c.radius.rhoDecrease * eta * least))
    (hp : c.radius.expansionFactor * c.radius.shrinkingFactor ^ p ≤ 1)
    (hq : radius * c.radius.shrinkingFactor ^ q < least) :
    ∃ r, tranquiloR c (builtinComponents b) x radius bounds = .ok r ∧
      ((∀ s ∈ r.states.tail, PoisedOn b.modelType (InBallSq s.trustregion.center s.trustregion.radius) cap
            (r.log.getXs s.modelIndices) ∧
          ∀ y ∈ r.log.getXs s.modelIndices, InBallSq s.trustregion.center (reach * s.trustregion.radius) y) →
        (∀ s ∈ r.states.tail, eps ^ 2 ≤ sumSq (fun i => s.model.linearTerms i / s.trustregion.radius) →
          DescentAt theta slack (callSolver b.retry b.sphere b.fallbackSphere) s.model) →
        (p + 1) * k + q < r.states.length →
        ∃ s ∈ r.states.tail, sumSq (fun i => ∑ j, jac j s.trustregion.center i)
          < (eps + err * s.trustregion.radius) ^ 2) := by
  have hg : SmoothWith (fun y => ∑ j, res j y) (fun y i => ∑ j, jac j y i) (m * lip) := by
    intro y z
    have e : (∑ j, res j z) - (∑ j, res j y) - ∑ i, (∑ j, jac j y i) * (z i - y i)
        = ∑ j, (res j z - res j y - ∑ i, jac j y i * (z i - y i)) := by
      simp only [Finset.sum_sub_distrib, Finset.sum_mul]
      congr 1
      exact Finset.sum_comm
    rw [e]
    refine (Finset.abs_sum_le_sum_abs _ _).trans ((Finset.sum_le_sum fun j _ => hsmooth j y z).trans (le_of_eq ?_))
    simp; ring
  obtain ⟨r, hr, hgood⟩ := run_models h hcfg x (hno x) radius hrad
  obtain ⟨r', hr', hmain⟩ := nearly_affine_run (g := fun y => ∑ j, res j y) hc hno h hcfg htheta hslack
    (fun k y => by rw [hx.oracle, hval]) hg (by positivity) hlow hrad heps hpos hkappa heta hleast hmin himp hk hp hq
  rw [hr] at hr'
  obtain rfl : r = r' := Except.ok.inj hr'
  obtain ⟨r', hr', hint⟩ := run_interpolates h hcfg hx x (hno x) radius hrad
  rw [hr] at hr'
  obtain rfl : r = r' := Except.ok.inj hr'
  refine ⟨r, hr, fun hpo hdesc hlen => hmain hdesc (fun s hs u hu => ?_) hlen⟩
  have hD : 0 < s.trustregion.radius := (hgood s hs).1.radius
  have hshape : s.trustregion.shape = .sphere := shape_of_no_bounds (by rw [(hgood s hs).1.box]; exact hno)
  obtain ⟨P, hP1, hP2, hP3⟩ := poised_residuals hcap hlip (hpo s hs).1 (hpo s hs).2 hsmooth
  have hpred := hint s hs (hpo s hs).1.1 P hP1 hP2 fun i => u i * s.trustregion.radius + s.trustregion.center i
  have hunit : s.trustregion.mapToUnit b.cubeRadius
      (fun i => u i * s.trustregion.radius + s.trustregion.center i) = u := by
    funext i
    simp only [Region.mapToUnit, hshape]
    field_simp
    ring
  rw [hunit, hval] at hpred
  rw [hpred]
  have e : (∑ j, P j fun i => u i * s.trustregion.radius + s.trustregion.center i) - ((∑ j, res j s.trustregion.center)
      + ∑ i, s.trustregion.radius * (∑ j, jac j s.trustregion.center i) * u i)
      = ∑ j, ((P j fun i => u i * s.trustregion.radius + s.trustregion.center i) - (res j s.trustregion.center
        + ∑ i, s.trustregion.radius * jac j s.trustregion.center i * u i)) := by
    simp only [Finset.sum_sub_distrib, Finset.sum_add_distrib, Finset.mul_sum, Finset.sum_mul]
    congr 2
    exact Finset.sum_comm
  rw [e]
  refine (Finset.abs_sum_le_sum_abs _ _).trans ((Finset.sum_le_sum fun j _ => hP3 j u hu).trans (le_of_eq ?_))
  rw [herr]; simp; ring

/-- The sum of squares of smooth residuals is smooth. -/
theorem smooth_squares {res : Fin m → Vec K n → K} {jac : Fin m → Vec K n → Vec K n} {size slope lip : K}
    (hs : SmoothResiduals res jac size slope lip) (hlip : 0 ≤ lip) :
    SmoothWith (fun y => ∑ j, res j y ^ 2) (fun y i => ∑ j, 2 * res j y * jac j y i)
      (2 * (m * (slope ^ 2 + size * lip))) := by
  intro y z
  set d := sumSq fun i => z i - y i with hd
  have hd0 : 0 ≤ d := Finset.sum_nonneg fun i _ => sq_nonneg _
  have e : (∑ j, res j z ^ 2) - (∑ j, res j y ^ 2) - ∑ i, (∑ j, 2 * res j y * jac j y i) * (z i - y i)
      = ∑ j, ((res j z - res j y) ^ 2 + 2 * res j y * (res j z - res j y - ∑ i, jac j y i * (z i - y i))) := by
    have e1 : ∑ i, (∑ j, 2 * res j y * jac j y i) * (z i - y i)
        = ∑ j, 2 * res j y * ∑ i, jac j y i * (z i - y i) := by
      simp only [Finset.sum_mul, Finset.mul_sum]
      rw [Finset.sum_comm]
      exact Finset.sum_congr rfl fun j _ => Finset.sum_congr rfl fun i _ => by ring
    rw [e1, ← Finset.sum_sub_distrib, ← Finset.sum_sub_distrib]
    exact Finset.sum_congr rfl fun j _ => by ring
  rw [e]
  refine (Finset.abs_sum_le_sum_abs _ _).trans ((Finset.sum_le_sum (g := fun _ => (slope ^ 2 + size * lip) * d)
    fun j _ => ?_).trans (le_of_eq ?_))
  · refine (abs_add_le _ _).trans ?_
    rw [abs_of_nonneg (sq_nonneg _), abs_mul, abs_mul, abs_two]
    have h1 := hs.lipschitz j y z
    have h2 := hs.smooth j y z
    have h3 := hs.bounded j y
    have h4 := mul_le_mul h3 h2 (abs_nonneg _) ((abs_nonneg _).trans h3)
    rw [← hd] at h1 h4
    have h5 : size * (lip / 2 * d) = size * lip * d / 2 := by ring
    linarith
  · simp; ring

/-- C120, runs on least squares problems: the same for the sum of the squares of smooth residuals. The model points are
poised for the models of the residuals; `top` bounds the radius. -/
theorem C120_least_squares [FloorRing K] {c : Config K} (hc : ProgressOptions c) {b : BuiltinSettings K n m}
    {bounds : Bounds K n} (hno : ∀ y, InBounds bounds y) (h : SafeSettings c b bounds) (hcfg : SafeConfig c bounds)
    {theta slack : K} (htheta : 0 < theta) (hslack : 0 ≤ slack) {res : Fin m → Vec K n → K} {value : Vec K m → K}
    (hx : InterpolationSetting c b res value) (hval : ∀ v, value v = ∑ k, v k ^ 2)
    {jac : Fin m → Vec K n → Vec K n} {size slope lip : K} (hsmooth : SmoothResiduals res jac size slope lip)
    (hsize : 0 ≤ size) (hslope : 0 ≤ slope) (hlip : 0 ≤ lip) {x : Vec K n} {radius : K} (hrad : 0 < radius)
    {eps cap reach top part err : K} (heps : 0 < eps) (hcap : 0 ≤ cap) (htop : radius ≤ top ∧ c.radius.maxRadius ≤ top)
    (hpart : part = cap * (lip / 2 * reach ^ 2))
    (herr : err = m * (part * (2 * size + 2 * slope * top + part * top ^ 2) + slope ^ 2))
    (hpos : 0 < err) {kappa eta least : K}
    (hkappa : kappa = (1 + slack) ^ 2 * (2 * (m * (slope ^ 2 + size * lip)) + 4 * err) / 2 + (1 + slack) * err)
    (heta : eta = theta * eps / 2) (hleast : least = leastRadius c eta (eps / (4 * err)) kappa radius)
    (hmin : c.radius.minRadius ≤ least) (himp : c.decider.minImprovement ≤ c.radius.rhoDecrease * eta * least)
    {k p q : Nat} (hk : ∑ j, res j x ^ 2 < k * (c.radius.rhoDecrease * eta * least))
    (hp : c.radius.expansionFactor * c.radius.shrinkingFactor ^ p ≤ 1)
    (hq : radius * c.radius.shrinkingFactor ^ q < least) :
    ∃ r, tranquiloR c (builtinComponents b) x radius bounds = .ok r ∧
      ((∀ s ∈ r.states.tail, PoisedOn b.modelType (InBallSq s.trustregion.center s.trustregion.radius) cap
            (r.log.getXs s.modelIndices) ∧
          ∀ y ∈ r.log.getXs s.modelIndices, InBallSq s.trustregion.center (reach * s.trustregion.radius) y) →
        (∀ s ∈ r.states.tail, eps ^ 2 ≤ sumSq (fun i => s.model.linearTerms i / s.trustregion.radius) →
          DescentAt theta slack (callSolver b.retry b.sphere b.fallbackSphere) s.model) →
        (p + 1) * k + q < r.states.length →
        ∃ s ∈ r.states.tail, s.trustregion.radius ≤ top ∧ sumSq (fun i => ∑ j, 2 * res j s.trustregion.center
          * jac j s.trustregion.center i) < (eps + err * s.trustregion.radius) ^ 2) := by
  obtain ⟨r, hr, hgood⟩ := run_models h hcfg x (hno x) radius hrad
  obtain ⟨r', hr', hmain⟩ := nearly_affine_run (g := fun y => ∑ j, res j y ^ 2) (low := 0) hc hno h hcfg htheta hslack
    (fun k y => by rw [hx.oracle, hval]) (smooth_squares hsmooth hlip) (by positivity)
    (fun y => Finset.sum_nonneg fun j _ => sq_nonneg _) hrad heps hpos hkappa heta hleast hmin himp
    (by rw [sub_zero]; exact hk) hp hq
  rw [hr] at hr'
  obtain rfl : r = r' := Except.ok.inj hr'
  obtain ⟨r', hr', hint⟩ := run_interpolates h hcfg hx x (hno x) radius hrad
  rw [hr] at hr'
  obtain rfl : r = r' := Except.ok.inj hr'
  have hlim : c.radius.minRadius ≤ c.radius.maxRadius := by
    refine hmin.trans ?_
    rw [hleast]
    exact (min_le_left _ _).trans (min_le_right _ _)
  obtain ⟨c1, c2, -⟩ := C20_radius_in_a_run_partial hr hlim hc.ratio
  have hle : ∀ s ∈ r.states.tail, s.trustregion.radius ≤ top := by
    intro s hs
    obtain ⟨j, hj⟩ := List.mem_iff_getElem?.1 (List.mem_of_mem_tail hs)
    by_cases h2 : 2 ≤ j
    · exact (c2 j s hj h2).2.trans htop.2
    · rw [c1 j s hj (by omega)]; exact htop.1
  refine ⟨r, hr, fun hpo hdesc hlen => ?_⟩
  refine Exists.imp (fun s hs => ⟨hs.1, hle s hs.1, hs.2⟩) (hmain hdesc (fun s hs u hu => ?_) hlen)
  have hD : 0 < s.trustregion.radius := (hgood s hs).1.radius
  have hDt := hle s hs
  have hshape : s.trustregion.shape = .sphere := shape_of_no_bounds (by rw [(hgood s hs).1.box]; exact hno)
  obtain ⟨P, hP1, hP2, hP3⟩ := poised_residuals hcap hlip (hpo s hs).1 (hpo s hs).2 hsmooth.smooth
  have hpred := hint s hs (hpo s hs).1.1 P hP1 hP2 fun i => u i * s.trustregion.radius + s.trustregion.center i
  have hunit : s.trustregion.mapToUnit b.cubeRadius
      (fun i => u i * s.trustregion.radius + s.trustregion.center i) = u := by
    funext i
    simp only [Region.mapToUnit, hshape]
    field_simp
    ring
  rw [hunit, hval] at hpred
  rw [hpred]
  have hpart0 : 0 ≤ part := by rw [hpart]; positivity
  set D := s.trustregion.radius with hDdef
  set z := s.trustregion.center with hz
  set v : Fin m → K := fun j => P j fun i => u i * D + z i with hv
  set t : Fin m → K := fun j => ∑ i, D * jac j z i * u i with ht
  have e : (∑ j, v j ^ 2) - ((∑ j, res j z ^ 2) + ∑ i, D * (∑ j, 2 * res j z * jac j z i) * u i)
      = ∑ j, ((v j - (res j z + t j)) * (v j - (res j z + t j) + 2 * (res j z + t j)) + t j ^ 2) := by
    have e1 : ∑ i, D * (∑ j, 2 * res j z * jac j z i) * u i = ∑ j, 2 * res j z * t j := by
      simp only [ht, Finset.sum_mul, Finset.mul_sum]
      rw [Finset.sum_comm]
      exact Finset.sum_congr rfl fun j _ => Finset.sum_congr rfl fun i _ => by ring
    rw [e1, ← Finset.sum_add_distrib, ← Finset.sum_sub_distrib]
    exact Finset.sum_congr rfl fun j _ => by ring
  change |(∑ j, v j ^ 2) - _| ≤ _
  rw [e]
  refine (Finset.abs_sum_le_sum_abs _ _).trans ((Finset.sum_le_sum
    (g := fun _ => (part * (2 * size + 2 * slope * top + part * top ^ 2) + slope ^ 2) * D ^ 2)
    fun j _ => ?_).trans (le_of_eq ?_))
  · have h1 : |v j - (res j z + t j)| ≤ part * D ^ 2 := by rw [hpart]; exact hP3 j u hu
    have h2 : |t j| ≤ D * slope := by
      have := dot_le_of_squares (mul_nonneg hD.le hslope) zero_le_one (u := fun i => D * jac j z i) (v := u) (by
        have : sumSq (fun i => D * jac j z i) = D ^ 2 * sumSq (jac j z) := by
          simp only [sumSq, Finset.mul_sum]
          exact Finset.sum_congr rfl fun i _ => by ring
        rw [this, mul_pow]
        exact mul_le_mul_of_nonneg_left (hsmooth.gradient j z) (sq_nonneg _)) (by rw [one_pow]; exact hu)
      rwa [mul_one] at this
    have h3 : |t j| ≤ slope * top := h2.trans (by nlinarith)
    have h4 := hsmooth.bounded j z
    have h5 : part * D ^ 2 ≤ part * top ^ 2 := mul_le_mul_of_nonneg_left (pow_le_pow_left₀ hD.le hDt 2) hpart0
    have h6 : |v j - (res j z + t j) + 2 * (res j z + t j)| ≤ 2 * size + 2 * slope * top + part * top ^ 2 := by
      refine (abs_add_le _ _).trans ?_
      rw [abs_mul, abs_two]
      have := abs_add_le (res j z) (t j)
      linarith
    have h7 : t j ^ 2 ≤ slope ^ 2 * D ^ 2 := by
      rw [← sq_abs, ← mul_pow, mul_comm slope]
      exact pow_le_pow_left₀ (abs_nonneg _) h2 2
    refine (abs_add_le _ _).trans ?_
    rw [abs_mul, abs_of_nonneg (sq_nonneg (t j))]
    have h8 := mul_le_mul h1 h6 (abs_nonneg _) (by positivity)
    have h9 : part * D ^ 2 * (2 * size + 2 * slope * top + part * top ^ 2) + slope ^ 2 * D ^ 2
        = (part * (2 * size + 2 * slope * top + part * top ^ 2) + slope ^ 2) * D ^ 2 := by ring
    linarith
  · rw [herr]; simp; ring

/-- Two points at the distance of the radius are poised for linear polynomials of one parameter. -/
theorem poisedOn_two {p q : Vec K 1} {D : K} (hD : 0 < D) (hq : (q 0 - p 0) ^ 2 = D ^ 2) :
    PoisedOn .linear (InBallSq p D) 3 [p, q] := by
  have hne : q 0 - p 0 ≠ 0 := by
    intro h0
    rw [h0] at hq
    have := pow_pos hD 2
    rw [← hq] at this
    simp at this
  have habs : |q 0 - p 0| = D := by rw [← abs_of_pos hD]; exact sq_eq_sq_iff_abs_eq_abs _ _ |>.1 hq
  refine ⟨determinedBy_two (p := p) (q := q) (by simp) (by simp) fun he => hne (by rw [he, sub_self]),
    fun i z => if i.val = 0 then (q 0 - z 0) / (q 0 - p 0) else (z 0 - p 0) / (q 0 - p 0), fun i => ?_, fun i j => ?_,
    fun z hz => ?_⟩
  · by_cases hi : i.val = 0
    · simp only [if_pos hi]
      exact ⟨q 0 / (q 0 - p 0), fun _ => -1 / (q 0 - p 0), none, fun _ => rfl, fun z => by
        simp only [polyVal, Fin.sum_univ_one]; field_simp; ring⟩
    · simp only [if_neg hi]
      exact ⟨-p 0 / (q 0 - p 0), fun _ => 1 / (q 0 - p 0), none, fun _ => rfl, fun z => by
        simp only [polyVal, Fin.sum_univ_one]; field_simp; ring⟩
  · fin_cases i <;> fin_cases j <;> simp [hne]
  · have hz' : |z 0 - p 0| ≤ D := by
      have : sumSq (fun i => z i - p i) ≤ D ^ 2 := hz
      simp only [sumSq, Fin.sum_univ_one] at this
      exact abs_le_of_sq_le_sq this hD.le
    have h1 : |z 0 - p 0| / D ≤ 1 := (div_le_one hD).2 hz'
    have h2 : |q 0 - z 0| ≤ 2 * D := by
      have : q 0 - z 0 = (q 0 - p 0) - (z 0 - p 0) := by ring
      rw [this]
      refine (abs_sub _ _).trans ?_
      rw [habs]; linarith
    have h3 : |q 0 - z 0| / D ≤ 2 := (div_le_iff₀ hD).2 h2
    have e : (∑ i : Fin [p, q].length,
        |if i.val = 0 then (q 0 - z 0) / (q 0 - p 0) else (z 0 - p 0) / (q 0 - p 0)|)
        = |q 0 - z 0| / D + |z 0 - p 0| / D := by
      change (∑ i : Fin 2, _) = _
      rw [Fin.sum_univ_two]
      simp [abs_div, habs]
    rw [e]
    linarith

/-- C120, the hypothesis about the model points is met for one parameter: with the settings of `one_parameter_points`,
least squares runs on smooth residuals reach points with small derivatives. -/
theorem C120_one_parameter [FloorRing K] {c : Config K} (hc : ProgressOptions c) {b : BuiltinSettings K 1 m}
    {bounds : Bounds K 1} (hno : ∀ y, InBounds bounds y) (h : SafeSettings c b bounds) (hcfg : SafeConfig c bounds)
    (hfilter : b.filter = .discardAll) {dist : Option String} (hsampler : b.sampler = .randomHull dist)
    (htarget : c.targetSize = 2) (hbatch : c.batchSize = 1) (hstag : c.stagnation.minRelativeStep ≤ 0)
    (hnrm : ∀ v, 0 ≤ b.nrm v) (hmt : b.modelType = .linear)
    {theta slack : K} (htheta : 0 < theta) (hslack : 0 ≤ slack) {res : Fin m → Vec K 1 → K} {value : Vec K m → K}
    (hx : InterpolationSetting c b res value) (hval : ∀ v, value v = ∑ k, v k ^ 2)
    {jac : Fin m → Vec K 1 → Vec K 1} {size slope lip : K} (hsmooth : SmoothResiduals res jac size slope lip)
    (hsize : 0 ≤ size) (hslope : 0 ≤ slope) (hlip : 0 ≤ lip) {x : Vec K 1} {radius : K} (hrad : 0 < radius)
    {eps top part err : K} (heps : 0 < eps) (htop : radius ≤ top ∧ c.radius.maxRadius ≤ top)
    (hpart : part = 3 * (lip / 2))
    (herr : err = m * (part * (2 * size + 2 * slope * top + part * top ^ 2) + slope ^ 2))
    (hpos : 0 < err) {kappa eta least : K}
    (hkappa : kappa = (1 + slack) ^ 2 * (2 * (m * (slope ^ 2 + size * lip)) + 4 * err) / 2 + (1 + slack) * err)
    (heta : eta = theta * eps / 2) (hleast : least = leastRadius c eta (eps / (4 * err)) kappa radius)
    (hmin : c.radius.minRadius ≤ least) (himp : c.decider.minImprovement ≤ c.radius.rhoDecrease * eta * least)
    {k p q : Nat} (hk : ∑ j, res j x ^ 2 < k * (c.radius.rhoDecrease * eta * least))
    (hp : c.radius.expansionFactor * c.radius.shrinkingFactor ^ p ≤ 1)
    (hq : radius * c.radius.shrinkingFactor ^ q < least)
    (hdesc : ∀ model h, model.squareTerms = some h →
      DescentAt theta slack (callSolver b.retry b.sphere b.fallbackSphere) model) :
    ∃ r, tranquiloR c (builtinComponents b) x radius bounds = .ok r ∧
      ((p + 1) * k + q < r.states.length →
        ∃ s ∈ r.states.tail, s.trustregion.radius ≤ top ∧ |∑ j, 2 * res j s.trustregion.center
          * jac j s.trustregion.center 0| < eps + err * s.trustregion.radius) := by
  obtain ⟨r, hr, hmain⟩ := C120_least_squares hc hno h hcfg htheta hslack hx hval hsmooth hsize hslope hlip hrad heps
    (cap := 3) (reach := 1) (by norm_num) htop (by rw [hpart]; ring) herr hpos hkappa heta hleast hmin himp hk hp hq
  obtain ⟨r', hr', hpts⟩ := one_parameter_points h hcfg hno hfilter hsampler htarget hbatch hstag hnrm x radius hrad
  rw [hr] at hr'
  obtain rfl : r = r' := Except.ok.inj hr'
  obtain ⟨r', hr', hgood⟩ := run_models h hcfg x (hno x) radius hrad
  rw [hr] at hr'
  obtain rfl : r = r' := Except.ok.inj hr'
  refine ⟨r, hr, fun hlen => ?_⟩
  obtain ⟨s, hs, hrt, hsmall⟩ := hmain (fun s hs => by
    obtain ⟨hD, y, hy, hxs⟩ := hpts s hs
    rw [hxs, hmt]
    refine ⟨poisedOn_two hD hy, fun z hz => ?_⟩
    rw [one_mul]
    rcases List.mem_cons.1 hz with rfl | hz
    · simpa [InBallSq, sumSq] using sq_nonneg _
    · obtain rfl := List.mem_singleton.1 hz
      simpa [InBallSq, sumSq] using hy.le)
    (fun s hs _ => by
      obtain ⟨hh, hm, -⟩ := (hgood s hs).2
      exact hdesc _ hh hm) hlen
  refine ⟨s, hs, hrt, ?_⟩
  have hD := (hpts s hs).1
  simp only [sumSq, Fin.sum_univ_one] at hsmall
  exact abs_lt_of_sq_lt_sq hsmall (by positivity)

/-- C120, example: the residual `1 / (1 + x ^ 2)`, which is not a polynomial, with the largest radius `1 / 1000`. From
every start, a run with more than `427300` states reaches a point where the derivative of the criterion is below
`0.11`. -/
example (c : Config ℝ) (hcfg : SafeConfig c oneFree) (hn : c.noisy = false) (hdec : c.decider = .classic 0)
    (he : 1 ≤ c.nEvalsPerPoint) (ht : c.targetSize = 2) (hb : c.batchSize = 1) (hmin : c.stagnation.minRelativeStep = 0)
    (hr1 : c.radius.rhoDecrease = 1 / 10) (hr2 : c.radius.rhoIncrease = 1 / 10) (hr3 : c.radius.shrinkingFactor = 1 / 2)
    (hr4 : c.radius.expansionFactor = 2) (hr5 : c.radius.maxRadius = 1 / 1000) (hr6 : c.radius.minRadius ≤ 1 / 10000)
    (x : Vec ℝ 1) :
    ∃ b : BuiltinSettings ℝ 1 1, (∀ k y, b.oracle k y = .fin ((1 / (1 + y 0 ^ 2)) ^ 2)) ∧
      ∃ r, tranquiloR c (builtinComponents b) x (1 / 1000) oneFree = .ok r ∧
        (427300 < r.states.length → ∃ s ∈ r.states.tail,
          |2 * (1 / (1 + s.trustregion.center 0 ^ 2))
            * (-(2 * s.trustregion.center 0) / (1 + s.trustregion.center 0 ^ 2) ^ 2)| < 11 / 100) := by
  obtain ⟨l, hl⟩ := exists_lstsq
  choose best hbest using exists_ball_minimizer (n := 1)
  have hs0 := oneDim_safe hn hdec l best
  let b : BuiltinSettings ℝ 1 1 := { oneDimSettings l best with
    oracle := fun _ y => .fin ((1 / (1 + y 0 ^ 2)) ^ 2)
    data := fun log i _ => match log.xs[i]? with
      | some y => .fin (1 / (1 + y 0 ^ 2))
      | none => .nan }
  have hsafe : SafeSettings c b oneFree :=
    { zero := hs0.zero, root := hs0.root, radial := hs0.radial, cubeRadius := hs0.cubeRadius, dimRoot := hs0.dimRoot
      rng := hs0.rng, filter := hs0.filter, sampler := hs0.sampler, aggregator := hs0.aggregator, sides := hs0.sides
      noise := by rw [hn]; intro h; cases h
      values := by rw [hdec]; intro m' rf h; cases h
      sphere := hs0.sphere, cube := hs0.cube, ball := hs0.ball }
  have hx : InterpolationSetting c b (fun _ y => 1 / (1 + y 0 ^ 2)) (fun v => ∑ k, v k ^ 2) :=
    { lstsq := hl
      fitter := trivial
      criterion := Or.inl ⟨rfl, rfl, fun _ => rfl⟩
      oracle := fun _ _ => by simp [b]
      data := fun log i y hy _ k => by simp only [b, hy]
      noisy := hn
      evaluations := he }
  have hprog : ProgressOptions c :=
    { batch := by omega
      noisy := hn
      decider := by rw [hdec]; intro _ _ _ _ _ h; cases h
      improvement := by rw [hdec]; exact le_rfl
      rhoPos := by rw [hr1]; norm_num
      rhoLt := by rw [hr1]; norm_num
      rhoLe := by rw [hr1, hr2]
      shrinkPos := by rw [hr3]; norm_num
      shrinkLt := by rw [hr3]; norm_num
      expansion := by rw [hr4]; norm_num
      ratio := fun r h => by rw [hcfg.ratio] at h; cases h }
  have hsm : SmoothResiduals (fun (_ : Fin 1) (y : Vec ℝ 1) => 1 / (1 + y 0 ^ 2))
      (fun _ y _ => -(2 * y 0) / (1 + y 0 ^ 2) ^ 2) 1 1 2 :=
    { bounded := fun _ y => by
        rw [abs_of_nonneg (by positivity), div_le_one (by positivity)]
        nlinarith [sq_nonneg (y 0)]
      gradient := fun _ y => by
        simp only [sumSq, Fin.sum_univ_one]
        rw [div_pow, one_pow, div_le_one (by positivity)]
        nlinarith [sq_nonneg (1 - y 0 ^ 2), sq_nonneg (y 0), sq_nonneg (y 0 ^ 2), sq_nonneg (y 0 ^ 3),
          sq_nonneg (y 0 ^ 4)]
      lipschitz := fun _ y z => by
        simp only [sumSq, Fin.sum_univ_one]
        have e : 1 / (1 + z 0 ^ 2) - 1 / (1 + y 0 ^ 2)
            = -(z 0 - y 0) * ((y 0 + z 0) / ((1 + z 0 ^ 2) * (1 + y 0 ^ 2))) := by
          field_simp; ring
        have h1 : |(y 0 + z 0) / ((1 + z 0 ^ 2) * (1 + y 0 ^ 2))| ≤ 1 := by
          rw [abs_div, abs_of_pos (show 0 < (1 + z 0 ^ 2) * (1 + y 0 ^ 2) by positivity), div_le_one (by positivity),
            abs_le]
          constructor <;> nlinarith [sq_nonneg (y 0 - 1), sq_nonneg (z 0 - 1), sq_nonneg (y 0 + 1), sq_nonneg (z 0 + 1),
            sq_nonneg (y 0 * z 0)]
        rw [e, mul_pow, neg_sq, one_pow, one_mul]
        refine mul_le_of_le_one_right (sq_nonneg _) ?_
        rw [← sq_abs]
        exact pow_le_one₀ (abs_nonneg _) h1
      smooth := fun _ y z => by
        simp only [sumSq, Fin.sum_univ_one]
        have e : 1 / (1 + z 0 ^ 2) - 1 / (1 + y 0 ^ 2) - -(2 * y 0) / (1 + y 0 ^ 2) ^ 2 * (z 0 - y 0)
            = (z 0 - y 0) ^ 2 * ((-1 + 2 * y 0 * z 0 + y 0 ^ 2) / ((1 + z 0 ^ 2) * (1 + y 0 ^ 2) ^ 2)) := by
          field_simp; ring
        have h1 : |(-1 + 2 * y 0 * z 0 + y 0 ^ 2) / ((1 + z 0 ^ 2) * (1 + y 0 ^ 2) ^ 2)| ≤ 1 := by
          rw [abs_div, abs_of_pos (show 0 < (1 + z 0 ^ 2) * (1 + y 0 ^ 2) ^ 2 by positivity),
            div_le_one (by positivity), abs_le]
          constructor <;> nlinarith [sq_nonneg (y 0 - z 0), sq_nonneg (y 0 + z 0), sq_nonneg (y 0 * z 0),
            sq_nonneg (y 0 ^ 2), sq_nonneg (y 0 ^ 2 * z 0), sq_nonneg (y 0)]
        rw [e, abs_mul, abs_of_nonneg (sq_nonneg _)]
        have := mul_le_of_le_one_right (sq_nonneg (z 0 - y 0)) h1
        linarith }
  have hleast : (45000 : ℝ) / 48036054 = leastRadius c (1 / 20) (1 / 10 / (4 * (7006009 / 1000000))) (24018027 / 1000000)
      (1 / 1000) := by
    unfold leastRadius trustedRadius
    rw [hr1, hr3, hr5]
    norm_num
  refine ⟨b, fun _ _ => rfl, ?_⟩
  obtain ⟨r, hr, hmain⟩ := C120_one_parameter (theta := 1) (slack := 0) (eps := 1 / 10) (top := 1 / 1000) (part := 3)
    (err := 7006009 / 1000000) (kappa := 24018027 / 1000000) (eta := 1 / 20) (least := 45000 / 48036054)
    (k := 213549) (p := 1) (q := 1) (x := x) (radius := 1 / 1000) hprog oneFree_free hsafe hcfg rfl (dist := none) rfl
    ht hb hmin.le (fun v => abs_nonneg _) rfl one_pos le_rfl hx (fun _ => rfl) hsm zero_le_one zero_le_one two_pos.le
    (by norm_num) (by norm_num) ⟨le_rfl, hr5.le⟩ (by norm_num) (by norm_num) (by norm_num) (by norm_num) (by norm_num)
    hleast (hr6.trans (by norm_num)) (by rw [hdec, hr1]; simp only [DeciderChoice.minImprovement]; norm_num)
    (by
      rw [hr1]
      have h1 := hsm.bounded 0 x
      simp only [Fin.sum_univ_one]
      have h2 : (1 / (1 + x 0 ^ 2)) ^ 2 ≤ 1 := by rw [← sq_abs]; exact pow_le_one₀ (abs_nonneg _) h1
      refine h2.trans_lt ?_
      norm_num)
    (by rw [hr3, hr4]; norm_num) (by rw [hr3]; norm_num)
    (fun model _ _ raw hraw => by
      have : raw.x = best model := by cases hraw; rfl
      rw [this]
      refine ⟨by simpa using (hbest model).1, fun t _ htn => ?_⟩
      have := (hbest model).2 _ htn
      linarith)
  refine ⟨r, hr, fun hlen => ?_⟩
  obtain ⟨s, hs, h1, h2⟩ := hmain (by omega)
  refine ⟨s, hs, ?_⟩
  simp only [Fin.sum_univ_one] at h2
  linarith

/-- C120, example for `get_poisedness_constant`: the points `-1 / 2`, `0` and `1` in the unit ball, and the exponential
function. -/
example : ∃ (b : BuiltinSettings ℝ 1 1) (log : Log ℝ 1) (pinv : _) (minimize : Shape → (Vec ℝ 1 → ℝ) → Vec ℝ 1)
    (l : ℝ) (x : Vec ℝ 1) (i : Fin (nFeatures 1)) (v : VectorModel ℝ 1 1),
    poisednessConstant pinv minimize threePoints "sphere" = .ok (l, x, i) ∧ 1 ≤ l ∧
    builtinFit b log [0, 1, 2] { center := fun _ => 0, radius := 1, bounds := oneFree }
      ⟨0, 0, some fun _ _ _ => 0, fun _ => 1, 0⟩ = .ok v ∧
    ∀ T e, IsPoly .quadratic T → (∀ y : Vec ℝ 1, sumSq y ≤ 1 → |Real.exp (y 0) - T y| ≤ e) → ∀ y, sumSq y ≤ 1 →
      |v.predict y 0 - Real.exp (y 0)| ≤ (1 + 3 * l) * e := by
  obtain ⟨ls, hl⟩ := exists_lstsq
  obtain ⟨pinv, hp⟩ := pinv_exists (K := ℝ) (n := 1)
  obtain ⟨minimize, hmin⟩ := findsMinimum_exists (n := 1)
  let b : BuiltinSettings ℝ 1 1 := { oneDimSettings ls (fun _ => 0) with
    modelType := .quadratic
    data := fun log i _ => match log.xs[i]? with
      | some y => .fin (Real.exp (y 0))
      | none => .nan }
  let log : Log ℝ 1 := ⟨[threePoints (0 : Fin 3), threePoints (1 : Fin 3), threePoints (2 : Fin 3)], []⟩
  let region : Region ℝ 1 := { center := fun _ => 0, radius := 1, bounds := oneFree }
  have hin : ∀ i, InUnitRegion .sphere (threePoints i) := by
    intro i
    show sumSq _ ≤ 1
    unfold threePoints
    simp only [sumSq, Fin.sum_univ_one]
    split_ifs <;> norm_num
  have hrank : FullRowRank threePoints :=
    ⟨(basisMat threePoints)⁻¹, Matrix.mul_nonsing_inv _ (isUnit_iff_ne_zero.2 threePoints_det)⟩
  obtain ⟨l, x, i, h1, h2⟩ := C80_at_least_one_partial (n := 1) (by norm_num) pinv hp minimize hmin threePoints
    (by decide) hrank "sphere" .sphere (Or.inl ⟨rfl, rfl⟩) hin
  have hshape : region.shape = .sphere := shape_of_no_bounds oneFree_free
  have hunit : ∀ y, region.mapToUnit b.cubeRadius y = y := by
    intro y
    funext j
    simp [Region.mapToUnit, hshape, region]
  have hget : log.getXs [0, 1, 2] = [threePoints (0 : Fin 3), threePoints (1 : Fin 3), threePoints (2 : Fin 3)] := rfl
  have hus : Usable b.cubeRadius region :=
    ⟨one_pos, one_pos, fun i => ⟨fun _ h => (by cases h), fun _ h => (by cases h)⟩, fun _ _ _ h => (by cases h)⟩
  have hdata : ∀ k ∈ [0, 1, 2], ∃ y, log.xs[k]? = some y ∧ ∀ j, b.data log k j = .fin (Real.exp (y 0)) := by
    intro k hk
    simp only [List.mem_cons, List.not_mem_nil, or_false] at hk
    rcases hk with rfl | rfl | rfl <;> exact ⟨_, rfl, fun _ => rfl⟩
  have hsample : List.ofFn threePoints = (log.getXs [0, 1, 2]).map (region.mapToUnit b.cubeRadius) := by
    rw [hget]
    simp only [List.map, hunit]
    rfl
  obtain ⟨v, hv, hv'⟩ := C120_poisedness_constant_partial (n := 1) (by norm_num) pinv hp minimize hmin b hl
    (fun w hw => (sqrtSpec_realSqrt w hw).2) trivial rfl log [0, 1, 2] region hus
    ⟨0, 0, some fun _ _ _ => 0, fun _ => 1, 0⟩ ⟨rfl, fun _ => one_ne_zero⟩ (fun _ y => Real.exp (y 0)) hdata threePoints
    hsample rfl hrank "sphere" .sphere (Or.inl ⟨rfl, rfl⟩) l x i h1
  refine ⟨b, log, pinv, minimize, l, x, i, v, h1, h2, hv, fun T e hT he y hy => ?_⟩
  have := hv' 0 T e hT (fun z hz => he z (by
    rw [hget] at hz
    simp only [List.mem_cons, List.not_mem_nil, or_false] at hz
    rcases hz with rfl | rfl | rfl <;> exact hin _)) y (by rw [hunit]; exact hy) (he y hy)
  rw [hunit] at this
  exact this

end Tranquilo
