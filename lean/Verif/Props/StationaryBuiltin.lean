import Verif.Props.Stationary
import Verif.Props.GradientTolerance
import Verif.Props.GqtparTotal
import Verif.Lemmas.ConjugateGradient

/-!
# C117 for the built in components: a run reaches a flat model, and a small gradient
-/

namespace Tranquilo

variable {K : Type} [Field K] [LinearOrder K] [IsStrictOrderedRing K] {n m : Nat}

/-- In a run with the built in components the models of all iterations can be passed to the subsolvers. -/
theorem run_models [FloorRing K] {c : Config K} {b : BuiltinSettings K n m} {bounds : Bounds K n}
    (h : SafeSettings c b bounds) (hcfg : SafeConfig c bounds) (x : Vec K n) (hin : InBounds bounds x)
    (radius : K) (hrad : 0 < radius) :
    ∃ r, tranquiloR c (builtinComponents b) x radius bounds = .ok r ∧
      ∀ s ∈ r.states.tail, FeasibleRegion bounds s.trustregion ∧ SolvableModel s.model := by
  have hsafe := C98_builtin_components_are_safe h
  set ce := builtinComponents b with hce
  obtain ⟨hgood, sm, hsm⟩ := hsafe.init (startLogR c ce.oracle x)
    { center := x, radius := radius, bounds := bounds } ⟨rfl, hrad, hin⟩
  have hstart : ∃ r, startRunR c ce x radius bounds = .ok r ∧
      r.state.trustregion.radius = radius ∧ r.log = startLogR c ce.oracle x ∧
      r.state.vectorModel = ce.initModel (startLogR c ce.oracle x)
        { center := x, radius := radius, bounds := bounds } ∧ r.state.index = 0 := by
    unfold startRunR
    dsimp only
    rw [hsm]
    exact ⟨_, rfl, rfl, rfl, rfl, rfl⟩
  obtain ⟨r0, h0, h1, h2, h3, hidx⟩ := hstart
  set cp := ce.total (fallbackComponents ce sm) with hcp
  have hreal : Realizes ce cp := ce.total_realizes _
  have hr0 := startRunR_ok hreal h0
  have hrs : RunSafe c cp bounds StartModel r0 := by
    refine ⟨?_, by rw [h1]; exact hrad, ?_, by rw [h3]; exact hgood, ?_, fun hrep => by
      rw [h2, hidx]; exact startLogR_twice hcfg.batch hrep.1 ce.oracle x⟩
    · rw [← hr0]
      exact startRun_ok c cp x radius bounds
    · intro y hy
      rw [← hr0] at hy
      have : y = x := by simpa [startRun] using hy
      rw [this]; exact hin
    · rw [h2]
      exact startLogR_evals hcfg.batch ce.oracle x
  obtain ⟨r, hr, hPr⟩ := runLoopR_induction (c := c) (ce := ce)
    (fun r => RunSafe c cp bounds StartModel r ∧ r.states ≠ [] ∧
      ∀ s ∈ r.states.tail, FeasibleRegion bounds s.trustregion ∧ SolvableModel s.model) (by
      rintro it r ⟨p1, p2, p3⟩
      obtain ⟨r', hr', hs'⟩ := iterationR_safe hsafe hcfg sm it r p1
      have heq : iteration c cp it r = r' := iterationR_ok hreal hr'
      refine ⟨r', hr', hs', by rw [← heq, iteration_eq]; simp, fun s hs => ?_⟩
      have hs'' : s ∈ r.states.tail ∨ s = theState c cp it r := by
        rw [← heq, iteration_eq] at hs
        simp only at hs
        rw [List.tail_append_of_ne_nil p2] at hs
        simpa using hs
      rcases hs'' with hs | rfl
      · exact p3 s hs
      · have hreg : FeasibleRegion bounds r.state.trustregion := ⟨p1.ok.bounds, p1.radius, by
          rw [p1.ok.center]
          exact p1.points _ (List.mem_of_getElem? p1.ok.point)⟩
        refine ⟨hreg, ?_⟩
        unfold iterationR at hr'
        obtain ⟨p, g1, -⟩ := bindOk hr'
        obtain ⟨-, log', is, vm, g2, g3⟩ := buildPhaseR_solved g1
        have g4 := buildPhaseR_ok hreal g1
        have hus : Usable b.cubeRadius r.state.trustregion := ⟨hreg.radius, h.cubeRadius _ hreg.radius,
          by rw [hreg.box]; exact hreg.center, by rw [hreg.box]; exact h.sides⟩
        obtain ⟨vm', k1, k2, k3⟩ := builtinFitTemplate_ok (N := is.length) b r.state.trustregion hus
          r.state.vectorModel p1.good (fun s => (log'.xs[is[s]]?).getD r.state.trustregion.center)
          fun s => b.data log' is[s]
        have he : vm' = vm := by
          have : builtinFit b log' is r.state.trustregion r.state.vectorModel = .ok vm' := k1
          change builtinFit b log' is r.state.trustregion r.state.vectorModel = .ok vm at g2
          rw [this] at g2
          exact Except.ok.inj g2
        rw [he] at k2 k3
        obtain ⟨sm', k4, k5⟩ := aggregate_ok h.aggregator vm k2.2 k3
        change aggregate b.aggregator vm = .ok p.2.model at g3
        rw [k4] at g3
        have hm : (theState c cp it r).model = p.2.model := by
          show (buildPhase c cp it r.state r.log r.nEvals).2.model = _
          rw [g4]
        rw [hm, ← Except.ok.inj g3]
        exact k5)
    c.maxIter 0 r0 ⟨hrs, by rw [← hr0]; simp [startRun], fun s hs => by
      rw [← hr0] at hs
      simp [startRun] at hs⟩
  refine ⟨r, ?_, hPr.2.2⟩
  unfold tranquiloR
  rw [h0]
  exact hr

/-- What the built in solver does with a sufficient solver for balls. -/
theorem builtinSolve_descent {b : BuiltinSettings K n m} {theta slack : K} (hslack : 0 ≤ slack)
    {region : Region K n} (hs : region.shape = .sphere) {model : ScalarModel K n}
    (hdesc : DescentAt theta slack (callSolver b.retry b.sphere b.fallbackSphere) model) {sub : SubSolution K n}
    (hsub : builtinSolve b model region = .ok sub) :
    InBallSq region.center (region.radius * (1 + slack)) sub.x ∧
    ∀ t, 0 ≤ t → sumSq (fun i => -(t * model.linearTerms i)) ≤ 1 →
      theta * (model.predict (fun _ => 0) - model.predict fun i => -(t * model.linearTerms i))
        ≤ sub.expectedImprovement := by
  unfold builtinSolve at hsub
  obtain ⟨res, hres, rfl⟩ := except_map_ok.1 hsub
  simp only [solveSubproblem, hs] at hres
  rw [mapToUnit_center_sphere hs] at hres
  cases hc : callSolver b.retry b.sphere b.fallbackSphere model (fun _ => 0) with
  | error e => rw [hc] at hres; cases hres
  | ok raw =>
    rw [hc] at hres
    simp only at hres
    obtain ⟨h1, h2⟩ := hdesc raw hc
    by_cases h : 0 ≤ -(model.predict raw.x - model.predict fun _ => 0)
    · rw [if_pos h] at hres
      rw [← Except.ok.inj hres]
      refine ⟨?_, fun t ht hin => by have := h2 t ht hin; dsimp only; linarith⟩
      simp only [hs, Region.mapFromUnit, InBallSq, add_sub_cancel_right]
      have : sumSq (fun i => raw.x i * region.radius) = region.radius ^ 2 * sumSq raw.x := by
        simp only [sumSq, Finset.mul_sum]
        exact Finset.sum_congr rfl fun i _ => by ring
      rw [this, mul_pow]
      exact mul_le_mul_of_nonneg_left h1 (sq_nonneg _)
    · rw [if_neg h] at hres
      rw [← Except.ok.inj hres]
      refine ⟨?_, fun t ht hin => by have := h2 t ht hin; rw [not_le] at h; dsimp only; linarith⟩
      simp only [InBallSq, sumSq, sub_self]
      simp only [ne_eq, OfNat.ofNat_ne_zero, not_false_eq_true, zero_pow, Finset.sum_const_zero]
      positivity

omit [LinearOrder K] [IsStrictOrderedRing K] in
theorem predict_line {model : ScalarModel K n} {h : Mat K n n} (hm : model.squareTerms = some h) (t : K) :
    model.predict (fun _ => 0) - model.predict (fun i => -(t * model.linearTerms i))
      = t * sumSq model.linearTerms
        - t ^ 2 / 2 * ∑ i, ∑ j, h i j * model.linearTerms i * model.linearTerms j := by
  unfold ScalarModel.predict
  rw [hm]
  have e1 : dot (fun i => -(t * model.linearTerms i)) model.linearTerms = -(t * sumSq model.linearTerms) := by
    simp only [dot, sumSq, Finset.mul_sum, ← Finset.sum_neg_distrib]
    exact Finset.sum_congr rfl fun i _ => by ring
  have e2 : halfQuad h (fun i => -(t * model.linearTerms i))
      = t ^ 2 / 2 * ∑ i, ∑ j, h i j * model.linearTerms i * model.linearTerms j := by
    unfold halfQuad
    rw [Finset.sum_comm (f := fun i j => h i j * model.linearTerms i * model.linearTerms j), div_mul_eq_mul_div]
    congr 1
    rw [Finset.mul_sum]
    refine Finset.sum_congr rfl fun j _ => ?_
    rw [Finset.sum_mul, Finset.mul_sum]
    exact Finset.sum_congr rfl fun i _ => by ring
  have e3 : halfQuad h (fun _ => (0 : K)) = 0 := by simp [halfQuad]
  have e4 : dot (fun _ => (0 : K)) model.linearTerms = 0 := by simp [dot]
  simp only [e1, e2, e3, e4]
  ring

/-- The reduction along the direction of steepest descent. -/
theorem steepest_descent_gain {root : K → K} (hroot : SqrtSpec root) {model : ScalarModel K n} {h : Mat K n n}
    (hm : model.squareTerms = some h) {a beta : K} (ha : 0 < a) (hg : a ^ 2 ≤ sumSq model.linearTerms)
    (hbeta : 0 < beta)
    (hh : ∑ i, ∑ j, h i j * model.linearTerms i * model.linearTerms j ≤ beta * sumSq model.linearTerms) :
    ∃ t, 0 ≤ t ∧ sumSq (fun i => -(t * model.linearTerms i)) ≤ 1 ∧
      a / 2 * min 1 (a / beta)
        ≤ model.predict (fun _ => 0) - model.predict fun i => -(t * model.linearTerms i) := by
  set G := sumSq model.linearTerms with hG
  have hGpos : 0 < G := (pow_pos ha 2).trans_le hg
  obtain ⟨hs0, hs1⟩ := hroot G hGpos.le
  set s := root G with hs
  have hspos : 0 < s := by
    rcases hs0.lt_or_eq with h | h
    · exact h
    · rw [← h] at hs1; linarith
  have has : a ≤ s := by
    by_contra hcon
    rw [not_le] at hcon
    have : s * s < a ^ 2 := by rw [pow_two]; exact mul_self_lt_mul_self hs0 hcon
    linarith
  set t := min (1 / s) (1 / beta) with ht
  have htpos : 0 < t := lt_min (one_div_pos.2 hspos) (one_div_pos.2 hbeta)
  refine ⟨t, htpos.le, ?_, ?_⟩
  · have e : sumSq (fun i => -(t * model.linearTerms i)) = t ^ 2 * G := by
      simp only [hG, sumSq, Finset.mul_sum]
      exact Finset.sum_congr rfl fun i _ => by ring
    rw [e, ← hs1]
    have h1 : t * s ≤ 1 := by
      have : t ≤ 1 / s := min_le_left _ _
      rwa [le_div_iff₀ hspos] at this
    have h2 : 0 ≤ t * s := (mul_pos htpos hspos).le
    calc t ^ 2 * (s * s) = (t * s) * (t * s) := by ring
      _ ≤ 1 := mul_le_one₀ h1 h2 h1
  · rw [predict_line hm]
    have h1 : t * beta ≤ 1 := by
      have : t ≤ 1 / beta := min_le_right _ _
      rwa [le_div_iff₀ hbeta] at this
    have h2 : t ^ 2 / 2 * ∑ i, ∑ j, h i j * model.linearTerms i * model.linearTerms j ≤ t * G / 2 := by
      calc t ^ 2 / 2 * ∑ i, ∑ j, h i j * model.linearTerms i * model.linearTerms j
          ≤ t ^ 2 / 2 * (beta * G) := mul_le_mul_of_nonneg_left hh (by positivity)
        _ = t * beta * (t * G / 2) := by ring
        _ ≤ 1 * (t * G / 2) := mul_le_mul_of_nonneg_right h1 (by positivity)
        _ = _ := one_mul _
    have h3 : a * min 1 (a / beta) ≤ t * G := by
      have e1 : s * min 1 (s / beta) = t * G := by
        rw [← hs1, ht]
        rcases le_total (1 / s) (1 / beta) with hle | hle
        · rw [min_eq_left hle]
          rw [min_eq_left]
          · field_simp
          · rw [div_le_div_iff₀ hspos hbeta] at hle
            rw [le_div_iff₀ hbeta]; linarith
        · rw [min_eq_right hle]
          rw [min_eq_right]
          · field_simp
          · rw [div_le_div_iff₀ hbeta hspos] at hle
            rw [div_le_iff₀ hbeta]; linarith
      rw [← e1]
      exact mul_le_mul has (min_le_min_left _ (div_le_div_of_nonneg_right has hbeta.le))
        (le_min zero_le_one (div_nonneg ha.le hbeta.le)) hs0
    linarith

/-- C117 for the built in components and problems without bounds. If the curvature of the models is bounded by `beta`,
the solver reduces models by the share `theta` of what steepest descent gains, and in the trust regions the differences
of the criterion are those of the model up to `kappa * radius ^ 2`, then a run with more than `(p + 1) * k + q` states
has a model whose gradient, with respect to the parameters, is shorter than `eps`. -/
theorem C117_flat_model [FloorRing K] {c : Config K} (hc : ProgressOptions c) {b : BuiltinSettings K n m}
    {bounds : Bounds K n} (hno : ∀ y, InBounds bounds y) (h : SafeSettings c b bounds) (hcfg : SafeConfig c bounds)
    {theta slack : K} (htheta : 0 < theta) (hslack : 0 ≤ slack) {g : Vec K n → K} (hdet : ∀ k x, b.oracle k x = .fin (g x)) {low : K} (hlow : ∀ y, low ≤ g y) {x : Vec K n} {radius : K}
    (hrad : 0 < radius) {eps beta kappa : K} (heps : 0 < eps) (hbeta : 0 < beta) (hkappa : 0 < kappa)
    {eta least : K} (heta : eta = theta * eps / 2) (hleast : least = leastRadius c eta (eps / beta) kappa radius)
    (hmin : c.radius.minRadius ≤ least) (himp : c.decider.minImprovement ≤ c.radius.rhoDecrease * eta * least)
    {k p q : Nat} (hk : g x - low < k * (c.radius.rhoDecrease * eta * least))
    (hp : c.radius.expansionFactor * c.radius.shrinkingFactor ^ p ≤ 1)
    (hq : radius * c.radius.shrinkingFactor ^ q < least) :
    ∃ r, tranquiloR c (builtinComponents b) x radius bounds = .ok r ∧
      ((∀ s ∈ r.states.tail, least ≤ s.trustregion.radius → CurvatureLe beta s ∧
          (eps ^ 2 ≤ sumSq (fun i => s.model.linearTerms i / s.trustregion.radius) →
            DescentAt theta slack (callSolver b.retry b.sphere b.fallbackSphere) s.model) ∧
          ∀ y, InBallSq s.trustregion.center (s.trustregion.radius * (1 + slack)) y →
            |g s.trustregion.center - g y - (s.model.predict (fun _ => 0)
              - s.model.predict (s.trustregion.mapToUnit b.cubeRadius y))| ≤ kappa * s.trustregion.radius ^ 2) →
        (p + 1) * k + q < r.states.length →
        ∃ s ∈ r.states.tail, sumSq (fun i => s.model.linearTerms i / s.trustregion.radius) < eps ^ 2) := by
  obtain ⟨r, hr, hgood⟩ := run_models h hcfg x (hno x) radius hrad
  refine ⟨r, hr, fun hacc hlen => ?_⟩
  by_contra hcon
  push Not at hcon
  apply absurd hlen
  rw [not_lt]
  have hetapos : 0 < eta := by rw [heta]; positivity
  have hdelta : 0 < eps / beta := div_pos heps hbeta
  subst hleast
  refine C117_iterations_with_a_promise hc (C98_builtin_components_are_safe h).selects hdet hlow hr hetapos hdelta
    hkappa hrad hcfg.maxRadius hmin himp ?_ hk hp hq
  intro s hs hle sub hsub
  obtain ⟨hreg, hsolv⟩ := hgood s hs
  obtain ⟨hcurv, hdesc, hdiff⟩ := hacc s hs hle
  change builtinSolve b s.model s.trustregion = .ok sub at hsub
  have hshape : s.trustregion.shape = .sphere := shape_of_no_bounds (by rw [hreg.box]; exact hno)
  set D := s.trustregion.radius with hD
  have hDpos : 0 < D := hreg.radius
  have hus : Usable b.cubeRadius s.trustregion := ⟨hreg.radius, h.cubeRadius _ hreg.radius,
    by rw [hreg.box]; exact hreg.center, by rw [hreg.box]; exact h.sides⟩
  have hsum : (eps * D) ^ 2 ≤ sumSq s.model.linearTerms := by
    have := hcon s hs
    have e : sumSq (fun i => s.model.linearTerms i / D) = sumSq s.model.linearTerms / D ^ 2 := by
      simp only [sumSq, Finset.sum_div]
      exact Finset.sum_congr rfl fun i _ => by rw [div_pow]
    rw [e, le_div_iff₀ (by positivity)] at this
    rw [mul_pow]; exact this
  have hep : 0 < eps * D := mul_pos heps hDpos
  obtain ⟨hball, hgain⟩ := builtinSolve_descent hslack hshape (hdesc (hcon s hs)) hsub
  obtain ⟨-, hei⟩ := C39_expected_improvement_in_a_run b s.model s.trustregion hus sub hsub
  rw [mapToUnit_center_sphere hshape] at hei
  refine ⟨?_, by rw [hei]; exact hdiff sub.x hball⟩
  obtain ⟨hh, hm, -⟩ := hsolv
  have hb' : 0 < beta * D ^ 2 := by positivity
  obtain ⟨t, t1, t2, t3⟩ := steepest_descent_gain h.root hm hep hsum hb' ((le_abs_self _).trans (hcurv hh hm _))
  have hfin := (mul_le_mul_of_nonneg_left t3 htheta.le).trans (hgain t t1 t2)
  refine le_trans (le_of_eq ?_) hfin
  rw [heta]
  have e1 : min D (eps / beta) = D * min 1 (eps * D / (beta * D ^ 2)) := by
    rw [mul_min_of_nonneg _ _ hDpos.le, mul_one]
    congr 1
    field_simp
  rw [e1]; ring

theorem dot_le_of_squares {u v : Vec K n} {a b : K} (ha : 0 ≤ a) (hb : 0 ≤ b) (hu : sumSq u ≤ a ^ 2)
    (hv : sumSq v ≤ b ^ 2) : |∑ i, u i * v i| ≤ a * b := by
  refine abs_le_of_sq_le_sq ?_ (mul_nonneg ha hb)
  have h := cauchy_schwarz u v
  rw [← sumSq_eq_dot, ← sumSq_eq_dot] at h
  have h0 : 0 ≤ sumSq v := Finset.sum_nonneg fun i _ => sq_nonneg _
  calc (∑ i, u i * v i) ^ 2 = dot u v ^ 2 := rfl
    _ ≤ sumSq u * sumSq v := h
    _ ≤ a ^ 2 * b ^ 2 := mul_le_mul hu hv h0 (sq_nonneg a)
    _ = (a * b) ^ 2 := by ring

/-- The error of a model at a point of the trust region. -/
theorem model_difference {cr : K → K} {region : Region K n} (hs : region.shape = .sphere) (hD : 0 < region.radius)
    {model : ScalarModel K n} {h : Mat K n n} (hm : model.squareTerms = some h) (y : Vec K n) :
    model.predict (fun _ => 0) - model.predict (region.mapToUnit cr y)
      = -(∑ i, model.linearTerms i / region.radius * (y i - region.center i))
        - (∑ i, ∑ j, h i j * ((y i - region.center i) / region.radius) * ((y j - region.center j) / region.radius))
          / 2 := by
  unfold ScalarModel.predict
  rw [hm]
  have e0 : region.mapToUnit cr y = fun i => (y i - region.center i) / region.radius := by
    funext i
    simp only [Region.mapToUnit, hs]
  rw [e0]
  have e1 : dot (fun i => (y i - region.center i) / region.radius) model.linearTerms
      = ∑ i, model.linearTerms i / region.radius * (y i - region.center i) :=
    Finset.sum_congr rfl fun i _ => by ring
  have e2 : halfQuad h (fun i => (y i - region.center i) / region.radius)
      = (∑ i, ∑ j, h i j * ((y i - region.center i) / region.radius) * ((y j - region.center j) / region.radius))
        / 2 := by
    unfold halfQuad
    congr 1
    rw [Finset.sum_comm]
    refine Finset.sum_congr rfl fun j _ => ?_
    rw [Finset.sum_mul]
    exact Finset.sum_congr rfl fun i _ => by ring
  have e3 : halfQuad h (fun _ => (0 : K)) = 0 := by simp [halfQuad]
  have e4 : dot (fun _ => (0 : K)) model.linearTerms = 0 := by simp [dot]
  simp only [e1, e2, e3, e4]
  ring

/-- C117 for smooth criteria. If the error of the gradients of the models is at most `err` times the radius, and the
curvature of the models is bounded, then a run with more than `(p + 1) * k + q` states reaches a point with a gradient
(of the criterion) that is shorter than `eps` plus `err` times the radius. -/
theorem C117_small_gradient [FloorRing K] {c : Config K} (hc : ProgressOptions c) {b : BuiltinSettings K n m}
    {bounds : Bounds K n} (hno : ∀ y, InBounds bounds y) (h : SafeSettings c b bounds) (hcfg : SafeConfig c bounds)
    {theta slack : K} (htheta : 0 < theta) (hslack : 0 ≤ slack) {g : Vec K n → K} (hdet : ∀ k x, b.oracle k x = .fin (g x))
    {grad : Vec K n → Vec K n} {lip : K} (hsmooth : SmoothWith g grad lip) (hlip : 0 ≤ lip) {low : K}
    (hlow : ∀ y, low ≤ g y) {x : Vec K n} {radius : K} (hrad : 0 < radius) {eps beta err : K} (heps : 0 < eps)
    (hbeta : 0 < beta) (herr : 0 ≤ err) {kappa eta least : K}
    (hkappa : kappa = (1 + slack) ^ 2 * (lip + beta) / 2 + (1 + slack) * err)
    (heta : eta = theta * eps / 2) (hleast : least = leastRadius c eta (eps / beta) kappa radius)
    (hmin : c.radius.minRadius ≤ least) (himp : c.decider.minImprovement ≤ c.radius.rhoDecrease * eta * least)
    {k p q : Nat} (hk : g x - low < k * (c.radius.rhoDecrease * eta * least))
    (hp : c.radius.expansionFactor * c.radius.shrinkingFactor ^ p ≤ 1)
    (hq : radius * c.radius.shrinkingFactor ^ q < least) :
    ∃ r, tranquiloR c (builtinComponents b) x radius bounds = .ok r ∧
      ((∀ s ∈ r.states.tail, least ≤ s.trustregion.radius → CurvatureLe beta s ∧
          (eps ^ 2 ≤ sumSq (fun i => s.model.linearTerms i / s.trustregion.radius) →
            DescentAt theta slack (callSolver b.retry b.sphere b.fallbackSphere) s.model)) →
        (∀ s ∈ r.states.tail, sumSq (fun i => s.model.linearTerms i / s.trustregion.radius
          - grad s.trustregion.center i) ≤ (err * s.trustregion.radius) ^ 2) →
        (p + 1) * k + q < r.states.length →
        ∃ s ∈ r.states.tail, sumSq (grad s.trustregion.center) < (eps + err * s.trustregion.radius) ^ 2) := by
  have hs1 : 0 < 1 + slack := by linarith
  have hkpos : 0 < kappa := by rw [hkappa]; positivity
  obtain ⟨r, hr, hgood⟩ := run_models h hcfg x (hno x) radius hrad
  obtain ⟨r', hr', hflat⟩ := C117_flat_model (beta := beta) hc hno h hcfg htheta hslack hdet hlow hrad heps hbeta hkpos
    heta hleast hmin himp hk hp hq
  rw [hr] at hr'
  obtain rfl : r = r' := Except.ok.inj hr'
  refine ⟨r, hr, fun hacc hgrad hlen => ?_⟩
  suffices hdiff : ∀ s ∈ r.states.tail, least ≤ s.trustregion.radius →
      ∀ y, InBallSq s.trustregion.center (s.trustregion.radius * (1 + slack)) y →
        |g s.trustregion.center - g y - (s.model.predict (fun _ => 0)
          - s.model.predict (s.trustregion.mapToUnit b.cubeRadius y))| ≤ kappa * s.trustregion.radius ^ 2 by
    obtain ⟨s, hs, hsmall⟩ := hflat (fun s hs hle => ⟨(hacc s hs hle).1, (hacc s hs hle).2, hdiff s hs hle⟩) hlen
    refine ⟨s, hs, ?_⟩
    have hD : 0 < s.trustregion.radius := (hgood s hs).1.radius
    set u : Vec K n := fun i => s.model.linearTerms i / s.trustregion.radius with hu
    set v : Vec K n := fun i => s.model.linearTerms i / s.trustregion.radius - grad s.trustregion.center i with hv
    have hv2 : sumSq v ≤ (err * s.trustregion.radius) ^ 2 := hgrad s hs
    have hcross := (abs_le.1 (dot_le_of_squares heps.le (mul_nonneg herr hD.le) hsmall.le hv2)).1
    have e : sumSq (grad s.trustregion.center) = sumSq u + sumSq v - 2 * ∑ i, u i * v i := by
      simp only [sumSq, Finset.mul_sum, ← Finset.sum_add_distrib, ← Finset.sum_sub_distrib]
      exact Finset.sum_congr rfl fun i _ => by simp only [hu, hv]; ring
    rw [e]
    nlinarith
  · intro s hs hle y hy
    have hD : 0 < s.trustregion.radius := (hgood s hs).1.radius
    have hshape : s.trustregion.shape = .sphere := shape_of_no_bounds (by rw [(hgood s hs).1.box]; exact hno)
    obtain ⟨hh, hm, -⟩ := (hgood s hs).2
    have hcurv := (hacc s hs hle).1 hh hm fun i => (y i - s.trustregion.center i) / s.trustregion.radius
    rw [model_difference hshape hD hm y]
    have hsm := hsmooth s.trustregion.center y
    unfold InBallSq at hy
    set D := s.trustregion.radius with hDdef
    set d : Vec K n := fun i => y i - s.trustregion.center i with hd
    have ed : sumSq (fun i => (y i - s.trustregion.center i) / D) = sumSq d / D ^ 2 := by
      simp only [hd, sumSq, Finset.sum_div]
      exact Finset.sum_congr rfl fun i _ => by rw [div_pow]
    rw [ed] at hcurv
    have hq1 : beta * D ^ 2 * (sumSq d / D ^ 2) = beta * sumSq d := by field_simp
    rw [hq1] at hcurv
    have hcross := dot_le_of_squares (mul_nonneg herr hD.le) (mul_nonneg hD.le hs1.le) (hgrad s hs) hy
    have e1 : ∑ i, (s.model.linearTerms i / D - grad s.trustregion.center i) * d i
        = ∑ i, s.model.linearTerms i / D * d i - ∑ i, grad s.trustregion.center i * d i := by
      rw [← Finset.sum_sub_distrib]
      exact Finset.sum_congr rfl fun i _ => by ring
    rw [e1] at hcross
    set A := ∑ i, s.model.linearTerms i / D * d i
    set B := ∑ i, grad s.trustregion.center i * d i
    set Q := ∑ i, ∑ j, hh i j * ((y i - s.trustregion.center i) / D) * ((y j - s.trustregion.center j) / D)
    have hb1 : beta * sumSq d ≤ beta * (D * (1 + slack)) ^ 2 := mul_le_mul_of_nonneg_left hy hbeta.le
    have hb2 : lip / 2 * sumSq d ≤ lip / 2 * (D * (1 + slack)) ^ 2 :=
      mul_le_mul_of_nonneg_left hy (by linarith)
    have ek : kappa * D ^ 2 = lip / 2 * (D * (1 + slack)) ^ 2 + err * D * (D * (1 + slack))
        + beta * (D * (1 + slack)) ^ 2 / 2 := by rw [hkappa]; ring
    rw [ek]
    obtain ⟨c1, c2⟩ := abs_le.1 hcurv
    obtain ⟨c3, c4⟩ := abs_le.1 hcross
    obtain ⟨c5, c6⟩ := abs_le.1 hsm
    rw [abs_le]
    constructor <;> linarith

theorem predict_quadModel {model : ScalarModel K n} {h : Mat K n n} (hm : model.squareTerms = some h) (u : Vec K n) :
    model.predict u = model.intercept + quadModel model.linearTerms h u := by
  unfold ScalarModel.predict
  rw [hm, quadModel_eq]
  have : dot u model.linearTerms = dot model.linearTerms u := Finset.sum_congr rfl fun i _ => mul_comm _ _
  simp only [this, halfQuad, quadForm]
  ring

/-- The condition on the solver in C117 for the default solver gqtpar: it holds for all models (convex or not)
if gqtpar reports success and the gradient is not so small that it is treated as zero. With the
default options the share is 47 percent, and the step can be 10 percent longer than the radius. -/
theorem C117_default_solver {root : K → K} (hroot : SqrtSpec root) {ext : GqExternal K n} (hext : GqSpec ext)
    (hn : 0 < n) {eps kEasy kHard : K} (heps : 0 ≤ eps) (he0 : 0 ≤ kEasy) (hh0 : 0 ≤ kHard) (hh1 : kHard ≤ 1)
    {maxiter : Nat} (hmax : 0 < maxiter) (retry : Bool) (fallback : SubSolver K n) {model : ScalarModel K n}
    {h : Mat K n n} (hm : model.squareTerms = some h) (hs : SymmetricMat h)
    (hg : gqThreshold eps h < norm2 root model.linearTerms)
    (hsucc : ∀ raw, gqtpar root ext eps kEasy kHard maxiter model (fun _ => 0) = .ok raw → raw.success = true) :
    DescentAt (min (1 - kHard) (47 / 100)) kEasy
      (callSolver retry (gqtpar root ext eps kEasy kHard maxiter) fallback) model := by
  intro raw hraw
  have hres : gqtpar root ext eps kEasy kHard maxiter model (fun _ => 0) = .ok raw := by
    unfold callSolver at hraw
    cases hr : gqtpar root ext eps kEasy kHard maxiter model (fun _ => 0) with
    | ok r => rw [hr] at hraw; exact hraw
    | error e =>
      unfold gqtpar at hr
      rw [hm] at hr
      simp only [if_neg hmax.ne'] at hr
      cases hr
  have hs1 := hsucc raw hres
  refine ⟨C40_gqtpar_norm_partial hroot hext hn heps he0 hh1
    (fun h' hh' => by rw [hm] at hh'; cases hh'; exact ⟨hs, hg⟩) hres hs1, fun t _ ht => ?_⟩
  have := C45_near_optimal hroot hext hn heps he0 hh0 hh1 hm hs hg hres hs1
    (fun i => -(t * model.linearTerms i)) (by rw [NormLe, one_pow]; exact ht)
  have h0 : quadModel model.linearTerms h (fun _ => 0) = 0 := by simp [quadModel]
  rw [predict_quadModel hm, predict_quadModel hm, predict_quadModel hm, h0]
  linarith

/-- C117, example: the criterion `(x - 3) ^ 2` with the radius options `1 / 2` and `2` for shrinking and expansion. From
every start `x`, a run with more than `2 * k + 5` states reaches a point where the derivative is below one, if `k` exceeds
`178 * (x - 3) ^ 2`. -/
example (c : Config ℝ) (hcfg : SafeConfig c oneFree) (hn : c.noisy = false) (hdec : c.decider = .classic 0)
    (he : 1 ≤ c.nEvalsPerPoint) (ht : c.targetSize = 2) (hb : c.batchSize = 1) (hmin : c.stagnation.minRelativeStep = 0)
    (hr1 : c.radius.rhoDecrease = 1 / 10) (hr2 : c.radius.rhoIncrease = 1 / 10) (hr3 : c.radius.shrinkingFactor = 1 / 2)
    (hr4 : c.radius.expansionFactor = 2) (hr5 : 1 ≤ c.radius.maxRadius) (hr6 : c.radius.minRadius ≤ 1 / 10)
    (x : Vec ℝ 1) (k : Nat) (hk : 178 * (x 0 - 3) ^ 2 < k) :
    ∃ b : BuiltinSettings ℝ 1 1, (∀ k y, b.oracle k y = .fin ((y 0 - 3) ^ 2)) ∧
      ∃ r, tranquiloR c (builtinComponents b) x 2 oneFree = .ok r ∧
        (2 * k + 5 < r.states.length → ∃ s ∈ r.states.tail, |2 * (s.trustregion.center 0 - 3)| < 1) := by
  obtain ⟨l, hl⟩ := exists_lstsq
  choose best hbest using exists_ball_minimizer (n := 1)
  have hsafe := oneDim_safe hn hdec l best
  refine ⟨oneDimSettings l best, fun _ _ => rfl, ?_⟩
  set b := oneDimSettings l best with hbdef
  obtain ⟨r, hr, hpts⟩ := C110_model_points hsafe hcfg oneFree_free rfl (dist := none) rfl ht hb hmin.le
    (fun v => abs_nonneg _) x 2 two_pos
  obtain ⟨r', hr', hex⟩ := C103_exact_models hsafe hcfg (oneDim_exact hn hdec he hl best) x (oneFree_free x) 2 two_pos
  rw [hr] at hr'
  obtain rfl : r = r' := Except.ok.inj hr'
  obtain ⟨r', hr', hgood⟩ := run_models hsafe hcfg x (oneFree_free x) 2 two_pos
  rw [hr] at hr'
  obtain rfl : r = r' := Except.ok.inj hr'
  have hprog : ProgressOptions c :=
    { batch := by omega
      noisy := hn
      decider := by rw [hdec]; intro _ _ _ _ _ h; cases h
      improvement := by rw [hdec]; exact le_rfl
      rhoPos := by rw [hr1]; norm_num
      rhoLt := by rw [hr1]; norm_num
      rhoLe := by rw [hr1, hr2]
      shrinkPos := by rw [hr3]; norm_num
      shrinkLt := by rw [hr3]; norm_num
      expansion := by rw [hr4]; norm_num
      ratio := fun r h => by rw [hcfg.ratio] at h; cases h }
  have hleast : (9 : ℝ) / 80 = leastRadius c (1 / 2) (1 / 2) 2 2 := by
    unfold leastRadius trustedRadius
    rw [hr1, hr3]
    have e1 : min (1 / 2 : ℝ) ((1 - 1 / 10) * (1 / 2) / 2) = 9 / 40 := by
      rw [min_eq_right (by norm_num)]; norm_num
    rw [e1, min_eq_right]
    · norm_num
    · exact le_trans (by norm_num) (le_min (by norm_num : (1 : ℝ) ≤ 2) hr5)
  obtain ⟨r', hr', hmain⟩ := C117_small_gradient (g := fun y : Vec ℝ 1 => (y 0 - 3) ^ 2) (theta := 1) (slack := 0)
    (grad := fun y _ => 2 * (y 0 - 3)) (lip := 2) (low := 0) (eps := 1) (beta := 2) (err := 0) (kappa := 2)
    (eta := 1 / 2) (least := 9 / 80) (k := k) (p := 1) (q := 5) (x := x) hprog
    oneFree_free hsafe hcfg one_pos le_rfl (fun _ _ => rfl)
    (fun y z => by
      simp only [Fin.sum_univ_one, sumSq]
      refine le_of_eq ?_
      rw [show (z 0 - 3) ^ 2 - (y 0 - 3) ^ 2 - 2 * (y 0 - 3) * (z 0 - y 0) = (z 0 - y 0) ^ 2 by ring,
        abs_of_nonneg (sq_nonneg _)]
      ring)
    two_pos.le (fun y => sq_nonneg _) two_pos one_pos two_pos le_rfl (by norm_num) (by norm_num) hleast
    (hr6.trans (by norm_num)) (by rw [hdec, hr1]; simp only [DeciderChoice.minImprovement]; norm_num)
    (by rw [hr1]; linarith) (by rw [hr3, hr4]; norm_num) (by rw [hr3]; norm_num)
  rw [hr] at hr'
  obtain rfl : r = r' := Except.ok.inj hr'
  refine ⟨r, hr, fun hlen => ?_⟩
  -- the models are exact
  have hmodel : ∀ s ∈ r.states.tail, ∃ h, s.model.squareTerms = some h ∧ h 0 0 = 2 * s.trustregion.radius ^ 2 ∧
      s.model.linearTerms 0 = 2 * (s.trustregion.center 0 - 3) * s.trustregion.radius := by
    intro s hs
    have hei := hex s hs (hpts s hs)
    obtain ⟨h, hm, -⟩ := hei.solvable
    refine ⟨h, hm, ?_⟩
    have hD : 0 < s.trustregion.radius := (hgood s hs).1.radius
    have hshape : s.trustregion.shape = .sphere :=
      shape_of_no_bounds (by rw [(hgood s hs).1.box]; exact oneFree_free)
    have hv : ∀ u : ℝ, s.model.intercept + s.model.linearTerms 0 * u + h 0 0 * u * u / 2
        = (u * s.trustregion.radius + s.trustregion.center 0 - 3) ^ 2 := by
      intro u
      have h1 := hei.model fun _ => u * s.trustregion.radius + s.trustregion.center 0
      have h2 : s.trustregion.mapToUnit b.cubeRadius (fun _ => u * s.trustregion.radius + s.trustregion.center 0)
          = fun _ => u := by
        funext i
        rw [Subsingleton.elim i 0]
        simp only [Region.mapToUnit, hshape]
        field_simp
        ring
      rw [h2, predict_quadModel hm] at h1
      simp only [quadModel, Fin.sum_univ_one] at h1
      rw [← h1]; ring
    have v0 := hv 0
    have v1 := hv 1
    have v2 := hv (-1)
    constructor <;> linarith
  obtain ⟨s, hs, hsmall⟩ := hmain
    (fun s hs _ => ⟨fun h' hm' u => by
        obtain ⟨h, hm, h1, -⟩ := hmodel s hs
        rw [hm] at hm'
        cases hm'
        simp only [Fin.sum_univ_one, sumSq, h1]
        refine le_of_eq ?_
        rw [show 2 * s.trustregion.radius ^ 2 * u 0 * u 0 = 2 * s.trustregion.radius ^ 2 * u 0 ^ 2 by ring]
        exact abs_of_nonneg (by positivity),
      fun _ raw hraw => by
        have : raw.x = best s.model := by cases hraw; rfl
        rw [this]
        refine ⟨by simpa using (hbest s.model).1, fun t _ htn => ?_⟩
        have := (hbest s.model).2 _ htn
        linarith⟩)
    (fun s hs => by
      obtain ⟨h, hm, -, h2⟩ := hmodel s hs
      have hD : 0 < s.trustregion.radius := (hgood s hs).1.radius
      simp only [sumSq, Fin.sum_univ_one, h2]
      rw [mul_div_assoc, div_self hD.ne']
      simp)
    (by simpa using hlen)
  refine ⟨s, hs, ?_⟩
  simp only [sumSq, Fin.sum_univ_one, zero_mul, add_zero, one_pow] at hsmall
  exact (sq_lt_one_iff_abs_lt_one _).1 hsmall

end Tranquilo
