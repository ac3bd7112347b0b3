import Verif.Spec.Convergence
import Verif.Lemmas.Regions
import Verif.Props.ExactModels
import Verif.Props.GradientTolerance
import Verif.Props.Poisedness

/-!
# C110: convex criteria that are modelled exactly are minimized; C20 and C21 for whole runs
-/

namespace Tranquilo

variable {K : Type} [Field K] [LinearOrder K] [IsStrictOrderedRing K] {n m : Nat}

/-! ## Radii -/

/-- If the radius is not to be reduced, it stays at least the smaller of the old and of the largest radius. -/
theorem min_le_adjustRadius (o : RadiusOptions K) (radius : K) (rho : XVal K) (step : K) (b : Bool)
    (hratio : ∀ r, o.maxRadiusToStepRatio ≠ .fin r) (hr0 : 0 ≤ radius) (hexp : 1 ≤ o.expansionFactor)
    (h : XVal.fin o.rhoDecrease ≤ rho) : min radius o.maxRadius ≤ adjustRadius radius rho step o b := by
  have hnew : ∀ new : K, radius ≤ new → min radius o.maxRadius ≤ npClip new o.minRadius o.maxRadius :=
    fun new hn => min_le_min_right _ (le_trans hn (le_max_left _ _))
  unfold adjustRadius
  cases hc : o.maxRadiusToStepRatio with
  | fin r => exact absurd hc (hratio r)
  | _ =>
    apply hnew
    split
    · calc radius = radius * 1 := (mul_one _).symm
        _ ≤ radius * o.expansionFactor := mul_le_mul_of_nonneg_left hexp hr0
    · rw [if_pos (Or.inl h)]

/-! ## One iteration -/

/-- The maps to the unit region are affine and reach every point. -/
theorem mapToUnit_surjective {cr : K → K} {r : Region K n} (hr : Usable cr r) (u : Vec K n) :
    ∃ y, r.mapToUnit cr y = u := by
  cases hs : r.shape with
  | sphere =>
    refine ⟨fun i => u i * r.radius + r.center i, funext fun i => ?_⟩
    simp only [Region.mapToUnit, hs]
    rw [add_sub_cancel_right, mul_div_cancel_right₀ _ hr.radius.ne']
  | cube =>
    have hnd := C29_cube_nondegenerate cr r hs hr.center hr.cubeRadius hr.sides
    refine ⟨fun i => (r.cubeUpper cr i - r.cubeLower cr i) * (u i + 1) / 2 + r.cubeLower cr i,
      funext fun i => ?_⟩
    simp only [Region.mapToUnit, hs]
    have := (sub_pos.2 (hnd i)).ne'
    field_simp
    ring

theorem mapToUnit_between {cr : K → K} {r : Region K n} (hr : Usable cr r) (t : K) (x y : Vec K n) :
    r.mapToUnit cr (between t x y) = between t (r.mapToUnit cr x) (r.mapToUnit cr y) := by
  funext i
  cases hs : r.shape with
  | sphere =>
    simp only [Region.mapToUnit, hs, between]
    have := hr.radius.ne'
    field_simp
    ring
  | cube =>
    have hnd := C29_cube_nondegenerate cr r hs hr.center hr.cubeRadius hr.sides
    simp only [Region.mapToUnit, hs, between]
    have := (sub_pos.2 (hnd i)).ne'
    field_simp
    ring

/-- A model of a convex criterion is convex. -/
theorem convex_model {cr : K → K} {r : Region K n} (hr : Usable cr r) {g : Vec K n → K} (hg : ConvexFun g)
    {model : ScalarModel K n} (h : ∀ y, model.predict (r.mapToUnit cr y) = g y) : ConvexFun model.predict := by
  intro u v t h0 h1
  obtain ⟨x, rfl⟩ := mapToUnit_surjective hr u
  obtain ⟨y, rfl⟩ := mapToUnit_surjective hr v
  rw [← mapToUnit_between hr, h, h, h]
  exact hg x y t h0 h1

/-- Without bounds the trust region is a sphere. -/
theorem shape_of_no_bounds {r : Region K n} (h : ∀ y, InBounds r.bounds y) : r.shape = .sphere := by
  have h1 : ∀ i, r.bounds.lower i = none := by
    intro i
    cases hl : r.bounds.lower i with
    | none => rfl
    | some l => exact absurd ((h (fun _ => l - 1) i).1 l hl) (by simp)
  have h2 : ∀ i, r.bounds.upper i = none := by
    intro i
    cases hl : r.bounds.upper i with
    | none => rfl
    | some l => exact absurd ((h (fun _ => l + 1) i).2 l hl) (by simp)
  unfold Region.shape lowerBinding upperBinding
  simp [h1, h2]

/-- The points of the region, in units of the subproblem. -/
def InSubproblemRegion (r : Region K n) (u : Vec K n) : Prop :=
  match r.shape with
  | .sphere => sumSq u ≤ 1
  | .cube => ∀ i, -1 ≤ u i ∧ u i ≤ 1

/-- The decrease of the solution of the subproblem. -/
theorem builtinSolve_sufficient {b : BuiltinSettings K n m} {kappa : K} {region : Region K n}
    (hr : Usable b.cubeRadius region)
    (hball : SufficientInBall kappa (callSolver b.retry b.sphere b.fallbackSphere))
    (hbox : (∀ y, InBounds region.bounds y) ∨
      SufficientInBox kappa (callSolver b.retry b.cube b.fallbackCube))
    {model : ScalarModel K n} (hm : ConvexFun model.predict) {sub : SubSolution K n}
    (hsub : builtinSolve b model region = .ok sub) (u : Vec K n) (hu : InSubproblemRegion region u) :
    kappa * (model.predict (region.mapToUnit b.cubeRadius region.center) - model.predict u)
      ≤ model.predict (region.mapToUnit b.cubeRadius region.center)
        - model.predict (region.mapToUnit b.cubeRadius sub.x) := by
  obtain ⟨-, he⟩ := C39_expected_improvement_in_a_run b model region hr sub hsub
  rw [← he]
  unfold builtinSolve at hsub
  obtain ⟨res, hres, rfl⟩ := except_map_ok.1 hsub
  show _ ≤ res.expectedImprovement
  have key : ∀ xRaw : Vec K n, ∀ res' : SubproblemResult K n,
      kappa * (model.predict (region.mapToUnit b.cubeRadius region.center) - model.predict u)
        ≤ model.predict (region.mapToUnit b.cubeRadius region.center) - model.predict xRaw →
      (0 ≤ -(model.predict xRaw - model.predict (region.mapToUnit b.cubeRadius region.center)) →
        res'.expectedImprovement
          = -(model.predict xRaw - model.predict (region.mapToUnit b.cubeRadius region.center))) →
      (¬ 0 ≤ -(model.predict xRaw - model.predict (region.mapToUnit b.cubeRadius region.center)) →
        res'.expectedImprovement = 0) →
      kappa * (model.predict (region.mapToUnit b.cubeRadius region.center) - model.predict u)
        ≤ res'.expectedImprovement := by
    intro xRaw res' h1 h2 h3
    by_cases h : 0 ≤ -(model.predict xRaw - model.predict (region.mapToUnit b.cubeRadius region.center))
    · rw [h2 h]; linarith
    · rw [h3 h]; rw [not_le] at h; linarith
  cases hs : region.shape with
  | sphere =>
    simp only [solveSubproblem, hs] at hres
    rw [mapToUnit_center_sphere hs] at hres key ⊢
    cases hc : callSolver b.retry b.sphere b.fallbackSphere model (fun _ => 0) with
    | error e => rw [hc] at hres; cases hres
    | ok raw =>
      rw [hc] at hres
      simp only at hres
      have hu' : sumSq u ≤ 1 := by simpa only [InSubproblemRegion, hs] using hu
      refine key raw.x res (hball model hm raw hc u hu') (fun h => ?_) (fun h => ?_)
      · rw [if_pos h] at hres; cases hres; rfl
      · rw [if_neg h] at hres; cases hres; rfl
  | cube =>
    rcases hbox with hno | hbox
    · exfalso
      rw [shape_of_no_bounds hno] at hs
      cases hs
    · simp only [solveSubproblem, hs] at hres
      have hcen := mapToUnit_center_cube hr hs
      generalize region.mapToUnit b.cubeRadius region.center = old at hres key hcen ⊢
      cases hc : callSolver b.retry b.cube b.fallbackCube model old with
      | error e => rw [hc] at hres; cases hres
      | ok raw =>
        rw [hc] at hres
        simp only at hres
        have hu' : ∀ i, -1 ≤ u i ∧ u i ≤ 1 := by simpa only [InSubproblemRegion, hs] using hu
        obtain ⟨h1, h2⟩ := hbox model hm old hcen raw hc
        have hclip : (fun i => npClip (raw.x i) (-1) 1) = raw.x := by
          funext i
          rw [npClip, max_eq_left (h1 i).1, min_eq_left (h1 i).2]
        rw [hclip] at hres
        refine key raw.x res (h2 u hu') (fun h => ?_) (fun h => ?_)
        · rw [if_pos h] at hres; cases hres; rfl
        · rw [if_neg h] at hres; cases hres; rfl

/-- Points on the way from the center to a feasible point that are not too far away are in the region. -/
theorem between_in_region {cr : K → K} {r : Region K n} (hr : Usable cr r) {y : Vec K n}
    (hy : InBounds r.bounds y) {t d : K} (h0 : 0 ≤ t) (h1 : t ≤ 1) (hd0 : 0 ≤ d)
    (hd : sumSq (fun i => y i - r.center i) ≤ d ^ 2) (hsph : t * d ≤ r.radius)
    (hcube : r.shape = .cube → t * d ≤ cr r.radius) :
    InSubproblemRegion r (r.mapToUnit cr (between t r.center y)) := by
  unfold InSubproblemRegion
  cases hs : r.shape with
  | sphere =>
    have hpos := hr.radius
    have he : r.mapToUnit cr (between t r.center y) = fun i => t / r.radius * (y i - r.center i) := by
      funext i
      simp only [Region.mapToUnit, hs, between]
      field_simp
      ring
    have hsum : sumSq (fun i => t / r.radius * (y i - r.center i))
        = (t / r.radius) ^ 2 * sumSq (fun i => y i - r.center i) := by
      unfold sumSq
      rw [Finset.mul_sum]
      exact Finset.sum_congr rfl fun i _ => by ring
    show sumSq _ ≤ 1
    rw [he, hsum]
    calc (t / r.radius) ^ 2 * sumSq (fun i => y i - r.center i) ≤ (t / r.radius) ^ 2 * d ^ 2 :=
          mul_le_mul_of_nonneg_left hd (sq_nonneg _)
      _ = (t * d / r.radius) ^ 2 := by ring
      _ ≤ 1 := by
        refine pow_le_one₀ (div_nonneg (mul_nonneg h0 hd0) hpos.le) ?_
        rw [div_le_one hpos]
        exact hsph
  | cube =>
    have hnd := C29_cube_nondegenerate cr r hs hr.center hr.cubeRadius hr.sides
    show ∀ i, _
    rw [← (C29_cube_bijection cr r hs hnd).2.2]
    have hR : r.cubeRadius cr = cr r.radius := by rw [Region.cubeRadius, hs]
    have hlen : ∀ i, |t * (y i - r.center i)| ≤ cr r.radius := by
      intro i
      have h2 : (y i - r.center i) ^ 2 ≤ d ^ 2 :=
        le_trans (Finset.single_le_sum (f := fun i => (y i - r.center i) ^ 2) (fun i _ => sq_nonneg _)
          (Finset.mem_univ i)) hd
      have h3 : |y i - r.center i| ≤ d := by
        rw [← abs_of_nonneg hd0]
        exact sq_le_sq.1 h2
      rw [abs_mul, abs_of_nonneg h0]
      exact (mul_le_mul_of_nonneg_left h3 h0).trans (hcube hs)
    intro i
    obtain ⟨a1, a2⟩ := abs_le.1 (hlen i)
    obtain ⟨c1, c2⟩ := hr.center i
    obtain ⟨y1, y2⟩ := hy i
    have hb : between t r.center y i = r.center i + t * (y i - r.center i) := by unfold between; ring
    constructor
    · unfold Region.cubeLower Region.clipLower
      rw [hR]
      cases hl : r.bounds.lower i with
      | none => dsimp only; rw [hb]; linarith
      | some l =>
        refine max_le (by rw [hb]; linarith) ?_
        unfold between
        nlinarith [c1 l hl, y1 l hl]
    · unfold Region.cubeUpper Region.clipUpper
      rw [hR]
      cases hu : r.bounds.upper i with
      | none => dsimp only; rw [hb]; linarith
      | some u =>
        refine le_min (by rw [hb]; linarith) ?_
        unfold between
        nlinarith [c2 u hu, y2 u hu]

/-- The hypotheses of C110 on options and subsolvers. The first five hold for the default options. `kappa` is the share
of the possible decrease that the subsolvers guarantee; the side of a trust region with bounds is at least `gamma`
times its radius (`get_radius_of_cube_...` multiplies by a number that depends on the dimension only). -/
structure DescentSetting (c : Config K) (b : BuiltinSettings K n m) (bounds : Bounds K n) (kappa gamma : K) :
    Prop where
  improvement : c.decider.minImprovement ≤ 0
  rho : c.radius.rhoDecrease ≤ 1
  expansion : 1 ≤ c.radius.expansionFactor
  ratio : ∀ r, c.radius.maxRadiusToStepRatio ≠ .fin r
  largest : 0 < c.radius.maxRadius
  kappaPos : 0 < kappa
  kappaLe : kappa ≤ 1
  gammaPos : 0 < gamma
  gammaLe : gamma ≤ 1
  ball : SufficientInBall kappa (callSolver b.retry b.sphere b.fallbackSphere)
  box : (∀ y, InBounds bounds y) ∨ (SufficientInBox kappa (callSolver b.retry b.cube b.fallbackCube) ∧
    ∀ a, 0 ≤ a → gamma * a ≤ b.cubeRadius a)

/-- No iteration makes the criterion worse. -/
theorem exactIteration_stays {c : Config K} {b : BuiltinSettings K n m} {bounds : Bounds K n} {kappa gamma : K}
    (hd : DescentSetting c b bounds kappa gamma) {g : Vec K n → K} {points : List (Vec K n)}
    {s : LoopState K n (VectorModel K n m) (ScalarModel K n)}
    (he : ExactIteration b c.decider.minImprovement g points s) : g s.x ≤ g s.trustregion.center := by
  obtain ⟨-, -, z, -, -, hz, -, hacc, hval⟩ := he
  exact (hval (hacc (by linarith [hd.improvement]))).trans hz

/-- One iteration reduces the distance to the minimum by a fixed share. -/
theorem exactIteration_decrease {c : Config K} {b : BuiltinSettings K n m} {bounds : Bounds K n} {kappa gamma : K}
    (hd : DescentSetting c b bounds kappa gamma) {g : Vec K n → K} (hg : ConvexFun g) {points : List (Vec K n)}
    {s : LoopState K n (VectorModel K n m) (ScalarModel K n)}
    (he : ExactIteration b c.decider.minImprovement g points s) (hus : Usable b.cubeRadius s.trustregion)
    (hb : s.trustregion.bounds = bounds) {y : Vec K n} (hy : InBounds bounds y) {rho d : K} (hrho : 0 < rho)
    (hd0 : 0 < d) (hle : gamma * rho ≤ d) (hrad : rho ≤ s.trustregion.radius)
    (hdist : sumSq (fun i => y i - s.trustregion.center i) ≤ d ^ 2) :
    g s.x - g y ≤ (1 - kappa * gamma * rho / d) * (g s.trustregion.center - g y) ∧
    g s.x ≤ g s.trustregion.center ∧
    (XVal.fin c.radius.rhoDecrease ≤ s.rho ∨ g s.trustregion.center ≤ g y) := by
  obtain ⟨-, hmodel, z, -, ⟨sub, hsub, rfl⟩, hz, hrho', hacc, hval⟩ := he
  have hx := hval (hacc (by linarith [hd.improvement]))
  have ht0 : 0 < gamma * rho / d := div_pos (mul_pos hd.gammaPos hrho) hd0
  have htd : gamma * rho / d * d = gamma * rho := div_mul_cancel₀ _ hd0.ne'
  have hreg := between_in_region hus (y := y) (by rw [hb]; exact hy) ht0.le ((div_le_one hd0).2 hle) hd0.le hdist
    (by
      rw [htd]
      exact le_trans (mul_le_of_le_one_left hrho.le hd.gammaLe) hrad)
    (by
      intro hs
      rw [htd]
      rcases hd.box with h | ⟨-, h⟩
      · rw [shape_of_no_bounds (by rw [hb]; exact h)] at hs
        cases hs
      · exact le_trans (mul_le_mul_of_nonneg_left hrad hd.gammaPos.le) (h _ (hrho.le.trans hrad)))
  have hdec := builtinSolve_sufficient hus hd.ball
    (by rw [hb]; exact hd.box.imp id fun h => h.1) (convex_model hus hg hmodel) hsub _ hreg
  rw [hmodel, hmodel, hmodel] at hdec
  have hconv := hg s.trustregion.center y _ ht0.le ((div_le_one hd0).2 hle)
  have hshare : kappa * (gamma * rho / d) * (g s.trustregion.center - g y) ≤ g s.trustregion.center - g sub.x := by
    refine le_trans ?_ hdec
    rw [mul_assoc]
    refine mul_le_mul_of_nonneg_left ?_ hd.kappaPos.le
    linarith
  refine ⟨?_, hx.trans hz, ?_⟩
  · have : kappa * gamma * rho / d = kappa * (gamma * rho / d) := by ring
    rw [this]
    linarith
  · by_cases hlt : g sub.x < g s.trustregion.center
    · left
      rw [hrho', if_pos hlt, XVal.fin_le_fin]
      exact hd.rho
    · right
      by_contra hcon
      rw [not_le] at hcon
      have := mul_pos (mul_pos hd.kappaPos ht0) (sub_pos.2 hcon)
      linarith [not_lt.1 hlt]

/-- C110. A convex criterion whose residuals are polynomials of the model type is minimized at a linear rate. `y` is a
minimizer within the bounds, and all points that are at least as good as the start have at most the distance `d` from
it. Then the excess of the criterion over its minimum is reduced in every iteration by the same share; the last part is
about the result of a run with `k` iterations. -/
theorem C110_linear_convergence [FloorRing K] {c : Config K} {b : BuiltinSettings K n m} {bounds : Bounds K n}
    (h : SafeSettings c b bounds) (hcfg : SafeConfig c bounds) {res : Fin m → Vec K n → K} {value : Vec K m → K}
    (hx : ExactSetting c b res value) {kappa gamma : K} (hd : DescentSetting c b bounds kappa gamma)
    (hg : ConvexFun fun y => value fun j => res j y) (x : Vec K n) (hin : InBounds bounds x) (radius : K)
    (hrad : 0 < radius) (y : Vec K n) (hy : MinimizerInBounds bounds (fun y => value fun j => res j y) y) (d : K)
    (hd0 : 0 < d) (hdist : ∀ z, InBounds bounds z → (value fun j => res j z) ≤ (value fun j => res j x) →
      sumSq (fun i => y i - z i) ≤ d ^ 2) (hle : gamma * min radius c.radius.maxRadius ≤ d) :
    ∃ r, tranquiloR c (builtinComponents b) x radius bounds = .ok r ∧
      ((∀ s ∈ r.states.tail, DeterminedBy b.modelType (r.log.getXs s.modelIndices)) →
        (∀ k s, r.states[k]? = some s →
          (value fun j => res j s.x) - (value fun j => res j y) ≤
            (1 - kappa * gamma * min radius c.radius.maxRadius / d) ^ k *
              ((value fun j => res j x) - (value fun j => res j y))) ∧
        ∀ k, r.states.length = k + 1 →
          (value fun j => res j r.state.x) - (value fun j => res j y) ≤
            (1 - kappa * gamma * min radius c.radius.maxRadius / d) ^ k *
              ((value fun j => res j x) - (value fun j => res j y))) := by
  obtain ⟨r, hr, hex⟩ := C103_exact_models h hcfg hx x hin radius hrad
  obtain ⟨r', hr', hfeas⟩ := run_regions h hcfg x hin radius hrad
  rw [hr] at hr'
  obtain rfl : r = r' := by injection hr'
  have hch := tranquiloR_regions hr
  refine ⟨r, hr, fun hdet => ?_⟩
  set g : Vec K n → K := fun y => value fun j => res j y with hgdef
  change (∀ k s, r.states[k]? = some s → g s.x - g y ≤ _ ^ k * (g x - g y)) ∧
    ∀ k, r.states.length = k + 1 → g r.state.x - g y ≤ _ ^ k * (g x - g y)
  change ∀ z, InBounds bounds z → g z ≤ g x → _ at hdist
  set rho := min radius c.radius.maxRadius with hrhodef
  have hrho : 0 < rho := lt_min hrad hd.largest
  set q := 1 - kappa * gamma * rho / d with hq
  have hq0 : 0 ≤ q := by
    rw [hq, sub_nonneg, div_le_one hd0]
    calc kappa * gamma * rho ≤ 1 * gamma * rho :=
          mul_le_mul_of_nonneg_right (mul_le_mul_of_nonneg_right hd.kappaLe hd.gammaPos.le) hrho.le
      _ ≤ d := by rw [one_mul]; exact hle
  have hgap : 0 ≤ g x - g y := sub_nonneg.2 (hy.2 x hin)
  have key : ∀ k s, r.states[k]? = some s → g s.x ≤ g x ∧ g s.x - g y ≤ q ^ k * (g x - g y) ∧
      (g s.x ≤ g y ∨ (rho ≤ s.trustregion.radius ∧ (0 < k → XVal.fin c.radius.rhoDecrease ≤ s.rho))) := by
    intro k
    induction k with
    | zero =>
      intro s hs
      obtain ⟨h1, h2⟩ := hch.first s hs
      rw [h1, h2, pow_zero, one_mul]
      exact ⟨le_rfl, le_rfl, Or.inr ⟨min_le_left _ _, fun h => absurd h (lt_irrefl 0)⟩⟩
    | succ k ih =>
      intro s' hs'
      have hk : k < r.states.length := by
        have := (List.getElem?_eq_some_iff.1 hs').1
        omega
      have hs := List.getElem?_eq_getElem hk
      set s := r.states[k] with hsdef
      obtain ⟨i1, i2, i3⟩ := ih s hs
      have hnext := hch.next k s s' hs hs'
      have hmem : s' ∈ r.states := List.mem_of_getElem? hs'
      have htail : s' ∈ r.states.tail := by
        rw [← List.drop_one]
        refine List.mem_of_getElem? (i := k) ?_
        rw [List.getElem?_drop, Nat.add_comm]
        exact hs'
      have hf := hfeas s' hmem
      have hus : Usable b.cubeRadius s'.trustregion := ⟨hf.radius, h.cubeRadius _ hf.radius,
        by rw [hf.box]; exact hf.center, by rw [hf.box]; exact h.sides⟩
      have hei := hex s' htail (hdet s' htail)
      have hcen : s'.trustregion.center = s.x := hnext.center
      have hstay := exactIteration_stays hd hei
      rw [hcen] at hstay
      rcases i3 with hmin | ⟨hrad1, hrho1⟩
      · refine ⟨hstay.trans i1, ?_, Or.inl (hstay.trans hmin)⟩
        exact le_trans (by linarith) (mul_nonneg (pow_nonneg hq0 _) hgap)
      · have hrad' : rho ≤ s'.trustregion.radius := by
          rcases Nat.eq_zero_or_pos k with rfl | hpos
          · rw [hnext.first rfl]
            exact hrad1
          · obtain ⟨len, inc, -, -, e⟩ := hnext.later hpos
            rw [e]
            refine le_trans (le_min hrad1 (min_le_right _ _)) (min_le_adjustRadius c.radius _ _ _ _ hd.ratio
              (hrho.le.trans hrad1) hd.expansion (hrho1 hpos))
        obtain ⟨d1, d2, d3⟩ := exactIteration_decrease hd hg hei hus hf.box hy.1 hrho hd0 hle hrad'
          (hdist _ hf.center (by rw [hcen]; exact i1))
        rw [hcen] at d1 d3
        refine ⟨hstay.trans i1, ?_, ?_⟩
        · calc g s'.x - g y ≤ q * (g s.x - g y) := d1
            _ ≤ q * (q ^ k * (g x - g y)) := mul_le_mul_of_nonneg_left i2 hq0
            _ = q ^ (k + 1) * (g x - g y) := by ring
        · rcases d3 with d3 | d3
          · exact Or.inr ⟨hrad', fun _ => d3⟩
          · exact Or.inl (hstay.trans d3)
  refine ⟨fun k s hs => (key k s hs).2.1, fun k hl => ?_⟩
  have hs := List.getElem?_eq_getElem (l := r.states) (i := k) (by omega)
  rw [(hch.last k _ hs hl).1]
  exact (key k _ hs).2.1

/-- C110, a single iteration suffices: if the subsolvers are exact and the first trust region contains a minimizer, all
states after the first iteration are minimizers, and so is the result if there was an iteration. -/
theorem C110_one_iteration [FloorRing K] {c : Config K} {b : BuiltinSettings K n m} {bounds : Bounds K n}
    (h : SafeSettings c b bounds) (hcfg : SafeConfig c bounds) {res : Fin m → Vec K n → K} {value : Vec K m → K}
    (hx : ExactSetting c b res value) {gamma : K} (hd : DescentSetting c b bounds 1 gamma)
    (hg : ConvexFun fun y => value fun j => res j y) (x : Vec K n) (hin : InBounds bounds x) (radius : K)
    (hrad : 0 < radius) (y : Vec K n) (hy : InBounds bounds y)
    (hdist : sumSq (fun i => y i - x i) ≤ (gamma * radius) ^ 2) :
    ∃ r, tranquiloR c (builtinComponents b) x radius bounds = .ok r ∧
      ((∀ s ∈ r.states.tail, DeterminedBy b.modelType (r.log.getXs s.modelIndices)) →
        (∀ s ∈ r.states.tail, (value fun j => res j s.x) ≤ value fun j => res j y) ∧
        (1 < r.states.length → (value fun j => res j r.state.x) ≤ value fun j => res j y)) := by
  obtain ⟨r, hr, hex⟩ := C103_exact_models h hcfg hx x hin radius hrad
  obtain ⟨r', hr', hfeas⟩ := run_regions h hcfg x hin radius hrad
  rw [hr] at hr'
  obtain rfl : r = r' := by injection hr'
  have hch := tranquiloR_regions hr
  refine ⟨r, hr, fun hdet => ?_⟩
  set g : Vec K n → K := fun y => value fun j => res j y with hgdef
  change (∀ s ∈ r.states.tail, g s.x ≤ g y) ∧ (_ → g r.state.x ≤ g y)
  have htail : ∀ k s, r.states[k + 1]? = some s → s ∈ r.states.tail := by
    intro k s hs
    rw [← List.drop_one]
    refine List.mem_of_getElem? (i := k) ?_
    rw [List.getElem?_drop, Nat.add_comm]
    exact hs
  have key : ∀ k s, r.states[k + 1]? = some s → g s.x ≤ g y := by
    intro k
    induction k with
    | zero =>
      intro s' hs'
      have hk : 0 < r.states.length := by
        have := (List.getElem?_eq_some_iff.1 hs').1
        omega
      have hs := List.getElem?_eq_getElem hk
      have hnext := hch.next 0 _ s' hs hs'
      obtain ⟨h1, h2⟩ := hch.first _ hs
      have hf := hfeas s' (List.mem_of_getElem? hs')
      have hus : Usable b.cubeRadius s'.trustregion := ⟨hf.radius, h.cubeRadius _ hf.radius,
        by rw [hf.box]; exact hf.center, by rw [hf.box]; exact h.sides⟩
      have hradius : s'.trustregion.radius = radius := by rw [hnext.first rfl, h2]
      have hcen : s'.trustregion.center = x := by rw [hnext.center, h1]
      have hgr := mul_pos hd.gammaPos hrad
      obtain ⟨d1, -⟩ := exactIteration_decrease hd hg (hex s' (htail _ _ hs') (hdet s' (htail _ _ hs'))) hus hf.box
        hy hrad hgr le_rfl hradius.ge (by rw [hcen]; exact hdist)
      rw [one_mul, div_self hgr.ne', sub_self, zero_mul] at d1
      linarith
    | succ k ih =>
      intro s' hs'
      have hk : k + 1 < r.states.length := by
        have := (List.getElem?_eq_some_iff.1 hs').1
        omega
      have hs := List.getElem?_eq_getElem hk
      have hstay := exactIteration_stays hd (hex s' (htail _ _ hs') (hdet s' (htail _ _ hs')))
      rw [(hch.next _ _ s' hs hs').center] at hstay
      exact hstay.trans (ih _ hs)
  refine ⟨fun s hs => ?_, fun hl => ?_⟩
  · rw [← List.drop_one] at hs
    obtain ⟨k, hk⟩ := List.mem_iff_getElem?.1 hs
    rw [List.getElem?_drop, Nat.add_comm] at hk
    exact key k s hk
  · obtain ⟨k, hk⟩ : ∃ k, r.states.length = k + 2 := ⟨r.states.length - 2, by omega⟩
    have hs := List.getElem?_eq_getElem (l := r.states) (i := k + 1) (by omega)
    rw [(hch.last _ _ hs hk).1]
    exact key k _ hs

/-! ## Runs whose points determine the models -/

/-- Every state after the start is the result of an iteration from a safe run. -/
theorem run_iterations [FloorRing K] {c : Config K} {b : BuiltinSettings K n m} {bounds : Bounds K n}
    (h : SafeSettings c b bounds) (hcfg : SafeConfig c bounds) (x : Vec K n) (hin : InBounds bounds x)
    (radius : K) (hrad : 0 < radius) :
    ∃ r, tranquiloR c (builtinComponents b) x radius bounds = .ok r ∧
      ∃ cp, Realizes (builtinComponents b) cp ∧ FilterSelects cp ∧ ∀ s ∈ r.states.tail, ∃ it r0,
        RunSafe c cp bounds StartModel r0 ∧ s = theState c cp it r0 ∧
        (theBuild c cp it r0).log.xs <+: r.log.xs := by
  have hsafe := C98_builtin_components_are_safe h
  set ce := builtinComponents b with hce
  obtain ⟨hgood, sm, hsm⟩ := hsafe.init (startLogR c ce.oracle x)
    { center := x, radius := radius, bounds := bounds } ⟨rfl, hrad, hin⟩
  have hstart : ∃ r, startRunR c ce x radius bounds = .ok r ∧
      r.state.trustregion.radius = radius ∧ r.log = startLogR c ce.oracle x ∧
      r.state.vectorModel = ce.initModel (startLogR c ce.oracle x)
        { center := x, radius := radius, bounds := bounds } ∧ r.state.index = 0 := by
    unfold startRunR
    dsimp only
    rw [hsm]
    exact ⟨_, rfl, rfl, rfl, rfl, rfl⟩
  obtain ⟨r0, h0, h1, h2, h3, hidx⟩ := hstart
  set cp := ce.total (fallbackComponents ce sm) with hcp
  have hreal : Realizes ce cp := ce.total_realizes _
  have hf : FilterSelects cp := total_filterSelects sm hsafe.selects
  have hr0 := startRunR_ok hreal h0
  have hrs : RunSafe c cp bounds StartModel r0 := by
    refine ⟨?_, by rw [h1]; exact hrad, ?_, by rw [h3]; exact hgood, ?_, fun hrep => by
      rw [h2, hidx]; exact startLogR_twice hcfg.batch hrep.1 ce.oracle x⟩
    · rw [← hr0]
      exact startRun_ok c cp x radius bounds
    · intro y hy
      rw [← hr0] at hy
      have : y = x := by simpa [startRun] using hy
      rw [this]; exact hin
    · rw [h2]
      exact startLogR_evals hcfg.batch ce.oracle x
  obtain ⟨r, hr, hPr⟩ := runLoopR_induction (c := c) (ce := ce)
    (fun r => RunSafe c cp bounds StartModel r ∧ r.states ≠ [] ∧ ∀ s ∈ r.states.tail, ∃ it r0,
        RunSafe c cp bounds StartModel r0 ∧ s = theState c cp it r0 ∧
        (theBuild c cp it r0).log.xs <+: r.log.xs) (by
      rintro it r ⟨p1, p2, p3⟩
      obtain ⟨r', hr', hs'⟩ := iterationR_safe hsafe hcfg sm it r p1
      have heq : iteration c cp it r = r' := iterationR_ok hreal hr'
      refine ⟨r', hr', hs', by rw [← heq, iteration_eq]; simp, fun s hs => ?_⟩
      have hs'' : s ∈ r.states.tail ∨ s = theState c cp it r := by
        rw [← heq, iteration_eq] at hs
        simp only at hs
        rw [List.tail_append_of_ne_nil p2] at hs
        simpa using hs
      rcases hs'' with hs | rfl
      · obtain ⟨it', r0', q1, q2, q3⟩ := p3 s hs
        refine ⟨it', r0', q1, q2, q3.trans ?_⟩
        rw [← heq]
        exact (iteration_grows c cp hf it r p1.ok.point).xs_prefix
      · refine ⟨it, r, p1, rfl, ?_⟩
        have hbo := buildPhase_ok c cp it r.state r.log r.nEvals hf p1.ok.point
        change BuildOk cp it r.state r.log r.nEvals (theBuild c cp it r) at hbo
        rw [← heq, show (iteration c cp it r).log = (theDecision c cp it r).1 by rw [iteration_eq]]
        exact (decision_grows c cp it r ((List.getElem?_eq_some_iff.1 p1.ok.point).1.trans_le
          hbo.grows.xs_prefix.length_le)).xs_prefix)
    c.maxIter 0 r0 ⟨hrs, by rw [← hr0]; simp [startRun], by rw [← hr0]; simp [startRun]⟩
  refine ⟨r, ?_, cp, hreal, hf, hPr.2.2⟩
  unfold tranquiloR
  rw [h0]
  exact hr

/-- Two points determine the affine functions of one variable. -/
theorem determinedBy_two {points : List (Vec K 1)} {p q : Vec K 1} (hp : p ∈ points) (hq : q ∈ points)
    (hne : p 0 ≠ q 0) : DeterminedBy .linear points := by
  rintro f ⟨c, g, sq, hsq, hf⟩ h y
  obtain rfl := hsq rfl
  have h1 := h p hp
  have h2 := h q hq
  rw [hf] at h1 h2 ⊢
  simp only [polyVal, Fin.sum_univ_one, add_zero] at h1 h2 ⊢
  have hg : g 0 * (p 0 - q 0) = 0 := by linarith
  rcases mul_eq_zero.1 hg with hg | hg
  · rw [hg] at h1 ⊢
    linarith
  · exact absurd (sub_eq_zero.1 hg) hne

/-- The model points of runs for one parameter, with the filter that discards all points but the center, the hull
sampler, samples of two points, batches of size one, and without the additional samples of the stagnation rule. -/
theorem one_parameter_points [FloorRing K] {c : Config K} {b : BuiltinSettings K 1 m} {bounds : Bounds K 1}
    (h : SafeSettings c b bounds) (hcfg : SafeConfig c bounds) (hfree : ∀ y, InBounds bounds y)
    (hfilter : b.filter = .discardAll) {dist : Option String} (hsampler : b.sampler = .randomHull dist)
    (htarget : c.targetSize = 2) (hbatch : c.batchSize = 1) (hmin : c.stagnation.minRelativeStep ≤ 0)
    (hnrm : ∀ v, 0 ≤ b.nrm v) (x : Vec K 1) (radius : K) (hrad : 0 < radius) :
    ∃ r, tranquiloR c (builtinComponents b) x radius bounds = .ok r ∧
      ∀ s ∈ r.states.tail, 0 < s.trustregion.radius ∧ ∃ y,
        (y 0 - s.trustregion.center 0) ^ 2 = s.trustregion.radius ^ 2 ∧
        r.log.getXs s.modelIndices = [s.trustregion.center, y] := by
  obtain ⟨r, hr, cp, hreal, hf, hst⟩ := run_iterations h hcfg x (hfree x) radius hrad
  refine ⟨r, hr, fun s hs => ?_⟩
  obtain ⟨it, r0, hsafe, rfl, hpre⟩ := hst s hs
  have hreg : r0.state.trustregion.bounds = bounds := hsafe.ok.bounds
  set reg := r0.state.trustregion with hregdef
  have hshape : reg.shape = .sphere := shape_of_no_bounds (by rw [hreg]; exact hfree)
  -- the filter
  have hfil : ∀ log t k xs is, cp.filter r0.state log t k xs is = ([r0.state.x], [r0.state.index]) := by
    intro log t k xs is
    refine hreal.filter _ _ _ _ _ _ _ ?_
    show builtinFilter b r0.state t xs is = _
    unfold builtinFilter
    rw [hfilter]
    rfl
  -- the sampler
  have hsam : ∃ y, (y 0 - r0.state.x 0) ^ 2 = reg.radius ^ 2 ∧ cp.sample it 1 r0.log reg 1 [r0.state.x] = [y] := by
    have hd : ValidDistribution dist := by
      have := h.sampler
      rw [hsampler] at this
      exact this
    obtain ⟨rows, h1, h2, h3⟩ := C53_hull b.root b.cubeRadius h.root reg (by rw [hreg]; exact hfree _)
      hsafe.radius.le (h.cubeRadius _ hsafe.radius).le (b.rng it 1 r0.log) (h.rng _ _ _) dist hd 1
    obtain ⟨p, rfl⟩ := List.length_eq_one_iff.1 h2
    obtain ⟨y, rfl, ⟨-, h4⟩, -⟩ := h3 p (by simp)
    refine ⟨y, ?_, hreal.sample _ _ _ _ _ _ _ ?_⟩
    · rw [hshape] at h4
      simp only [sumSq, Fin.sum_univ_one] at h4
      rw [show reg.center = r0.state.x from hsafe.ok.center] at h4
      exact h4
    · show builtinSampleR b it 1 r0.log reg 1 _ = _
      unfold builtinSampleR
      rw [hsampler]
      simp only [Nat.cast_one] at h1
      simp [h1, allRows, bind, Except.bind, pure, Except.pure]
  obtain ⟨y, hy, hsam⟩ := hsam
  have hone : (nextMultiple (K := K) 1 1).toNat = 1 := by
    have h1 := nextMultiple_ge (K := K) 1 1 le_rfl
    have h2 := nextMultiple_lt (K := K) 1 1 le_rfl
    omega
  have hnonneg : ∀ sub, ¬ relStepLength cp r0.state sub < .fin c.stagnation.minRelativeStep := by
    intro sub
    unfold relStepLength XVal.divFin
    rw [if_neg (show r0.state.trustregion.radius ≠ 0 from hsafe.radius.ne'), hreal.nrm]
    have : 0 ≤ (builtinComponents b).nrm (fun i => sub.x i - r0.state.x i) / r0.state.trustregion.radius :=
      div_nonneg (hnrm _) hsafe.radius.le
    rw [XVal.fin_lt_fin, not_lt]
    exact hmin.trans this
  have hbuild : (theBuild c cp it r0).modelIndices = [r0.state.index, r0.log.xs.length] ∧
      (theBuild c cp it r0).log.xs = r0.log.xs ++ [y] := by
    set log1 := (r0.log.addXs [y]).1.evaluate cp.oracle (((r0.log.addXs [y]).2.map fun i => (i, r0.nEvals.toNat)) ++
      additionalEvalInfo r0.log [r0.state.index] r0.nEvals) with hlog1
    have hxs1 : log1.xs = r0.log.xs ++ [y] := by rw [hlog1, Log.evaluate_xs]; rfl
    have hget : log1.getXs [r0.state.index, r0.log.xs.length] = [r0.state.x, y] := by
      simp [Log.getXs, hxs1, getElem?_of_prefix (List.prefix_append r0.log.xs [y]) hsafe.ok.point]
    have hkeep : ∀ b1 : Build K 1 (VectorModel K 1 m) (ScalarModel K 1), b1.modelXs.length = 2 →
        b1.relStep = relStepLength cp r0.state b1.sub →
        stagnationLoop c cp r0.state r0.nEvals it (max 1 c.stagnation.maxTrials) 0
          (dropLoop c cp r0.state b1.modelXs.length b1) = b1 := by
      intro b1 hb1 hb2
      rw [hb1]
      have : dropLoop c cp r0.state 2 b1 = b1 := by
        unfold dropLoop
        rw [if_neg (fun hcon => by rw [htarget, hb1] at hcon; exact lt_irrefl _ hcon.2)]
      rw [this]
      obtain ⟨t, ht⟩ : ∃ t, max 1 c.stagnation.maxTrials = t + 1 := ⟨max 1 c.stagnation.maxTrials - 1, by omega⟩
      rw [ht]
      unfold stagnationLoop
      rw [if_neg (by rw [hb2]; exact hnonneg _)]
    have hphase : theBuild c cp it r0
        = buildModel cp r0.state log1 [r0.state.x, y] [r0.state.index, r0.log.xs.length] := by
      unfold theBuild buildPhase
      simp only [hfil, htarget, hbatch, List.length_singleton]
      rw [show 2 - 1 = 1 from rfl, hone, hsam]
      have hidx : [r0.state.index] ++ (r0.log.addXs [y]).2 = [r0.state.index, r0.log.xs.length] := by
        simp [Log.addXs]
      rw [hidx]
      change stagnationLoop c cp r0.state r0.nEvals it _ 0 (dropLoop c cp r0.state (log1.getXs _).length
        (buildModel cp r0.state log1 (log1.getXs _) _)) = _
      rw [hget]
      exact hkeep (buildModel cp r0.state log1 [r0.state.x, y] [r0.state.index, r0.log.xs.length]) rfl rfl
    rw [hphase]
    exact ⟨rfl, hxs1⟩
  obtain ⟨hb1, hb2⟩ := hbuild
  have hx1 : r.log.xs[r0.state.index]? = some r0.state.x := by
    refine getElem?_of_prefix hpre ?_
    rw [hb2]
    exact getElem?_of_prefix (List.prefix_append _ _) hsafe.ok.point
  have hx2 : r.log.xs[r0.log.xs.length]? = some y := by
    refine getElem?_of_prefix hpre ?_
    rw [hb2]
    simp
  have hxs : r.log.getXs (theState c cp it r0).modelIndices = [r0.state.x, y] := by
    show r.log.getXs (theBuild c cp it r0).modelIndices = _
    rw [hb1]
    simp [Log.getXs, hx1, hx2]
  have hcen : (theState c cp it r0).trustregion.center = r0.state.x := hsafe.ok.center
  refine ⟨hsafe.radius, y, ?_, ?_⟩
  · rw [hcen]
    exact hy
  · rw [hcen]
    exact hxs

/-- C110, the hypothesis about the model points is met: for one parameter, with the filter that discards all points but
the center, the hull sampler, samples of two points, batches of size one, and without the additional samples of the
stagnation rule. -/
theorem C110_model_points [FloorRing K] {c : Config K} {b : BuiltinSettings K 1 m} {bounds : Bounds K 1}
    (h : SafeSettings c b bounds) (hcfg : SafeConfig c bounds) (hfree : ∀ y, InBounds bounds y)
    (hfilter : b.filter = .discardAll) {dist : Option String} (hsampler : b.sampler = .randomHull dist)
    (htarget : c.targetSize = 2) (hbatch : c.batchSize = 1) (hmin : c.stagnation.minRelativeStep ≤ 0)
    (hnrm : ∀ v, 0 ≤ b.nrm v) (x : Vec K 1) (radius : K) (hrad : 0 < radius) :
    ∃ r, tranquiloR c (builtinComponents b) x radius bounds = .ok r ∧
      ∀ s ∈ r.states.tail, DeterminedBy .linear (r.log.getXs s.modelIndices) := by
  obtain ⟨r, hr, hpts⟩ := one_parameter_points h hcfg hfree hfilter hsampler htarget hbatch hmin hnrm x radius hrad
  refine ⟨r, hr, fun s hs => ?_⟩
  obtain ⟨hpos, y, hy, hxs⟩ := hpts s hs
  rw [hxs]
  refine determinedBy_two (p := s.trustregion.center) (q := y) (by simp) (by simp) fun he => ?_
  rw [he, sub_self] at hy
  have := pow_pos hpos 2
  rw [← hy] at this
  simp at this

/-- Exact solvers exist over the reals. -/
theorem exists_ball_minimizer {n : Nat} (model : ScalarModel ℝ n) :
    ∃ u : Vec ℝ n, sumSq u ≤ 1 ∧ ∀ v, sumSq v ≤ 1 → model.predict u ≤ model.predict v := by
  have hc : Continuous model.predict := by
    unfold ScalarModel.predict dot halfQuad
    cases model.squareTerms with
    | none => dsimp only; fun_prop
    | some h => dsimp only [dot, matVec]; fun_prop
  obtain ⟨u, hu, hmin⟩ := (unitRegion_compact (n := n) .sphere).exists_isMinOn
    ⟨fun _ => 0, show sumSq (fun _ : Fin n => (0 : ℝ)) ≤ 1 by simp [sumSq]⟩ hc.continuousOn
  exact ⟨u, hu, fun v hv => hmin hv⟩

/-- A generator for one dimension. -/
noncomputable def oneRng : SampleRng ℝ 1 where
  normal k := List.replicate k fun _ => 1
  uniform01 k := List.replicate k fun _ => 0
  normalBlocks m k := List.replicate m (List.replicate k fun _ => 1)
  uniformBlocks01 m k := List.replicate m (List.replicate k fun _ => 0)

theorem oneRng_spec : RngSpec oneRng := by
  have h1 : (fun _ : Fin 1 => (1 : ℝ)) ≠ fun _ => 0 := by
    intro h; have := congrFun h 0; simp at this
  have h2 : (fun _ : Fin 1 => (0 : ℝ)) ≠ fun _ => 1 / 2 := by
    intro h; have := congrFun h 0; norm_num at this
  have h3 : ∀ _ : Fin 1, (0 : ℝ) ≤ 0 ∧ (0 : ℝ) < 1 := fun _ => ⟨le_rfl, one_pos⟩
  refine ⟨?_, ?_, ?_, ?_, ?_, ?_, ?_, ?_, ?_⟩
  · intro k; simp [oneRng]
  · intro k v hv; rw [List.eq_of_mem_replicate hv]; exact h1
  · intro k; simp [oneRng]
  · intro k u hu; rw [List.eq_of_mem_replicate hu]; exact h3
  · intro k u hu; rw [List.eq_of_mem_replicate hu]; exact h2
  · intro m k; simp [oneRng]
  · intro m k b hb
    rw [List.eq_of_mem_replicate hb]
    exact ⟨by simp, fun v hv => by rw [List.eq_of_mem_replicate hv]; exact h1⟩
  · intro m k; simp [oneRng]
  · intro m k b hb
    rw [List.eq_of_mem_replicate hb]
    exact ⟨by simp, fun v hv => by rw [List.eq_of_mem_replicate hv]; exact ⟨h3, h2⟩⟩

/-- Settings for the criterion `(x - 3) ^ 2` in one dimension, with the residual `x - 3`, a least squares solver and a
solver for balls. -/
noncomputable def oneDimSettings (l : Lstsq ℝ) (best : ScalarModel ℝ 1 → Vec ℝ 1) : BuiltinSettings ℝ 1 1 :=
  { nrm := fun v => |v 0|
    root := Real.sqrt
    radial := fun _ => 1
    cubeRadius := id
    dimRoot := Real.sqrt
    lstsq := l
    qr := fun _ _ _ _ => 0
    oracle := fun _ y => .fin ((y 0 - 3) ^ 2)
    data := fun log i _ => match log.xs[i]? with
      | some y => .fin (y 0 - 3)
      | none => .nan
    start := fun _ _ => 0
    filter := .discardAll
    sampler := .randomHull none
    rng := fun _ _ _ => oneRng
    fitter := .ols
    modelType := .linear
    residualize := true
    aggregator := "least_squares_linear"
    sphere := fun model _ => .ok ⟨best model, 0, true⟩
    cube := fun _ x => .ok ⟨x, 0, true⟩
    fallbackSphere := fun _ x => .ok ⟨x, 0, true⟩
    fallbackCube := fun _ x => .ok ⟨x, 0, true⟩
    retry := false
    fvecs := fun log i => (log.fvals i).map fun v _ => v
    noiseDistance := 3
    noiseMinEvals := 3
    covOfOne := fun _ _ _ => .nan
    draws := fun _ _ _ _ k => List.replicate k fun _ _ => 0
    nDraws := 100
    ignoreCorrelation := true }

/-- No bounds in one dimension. -/
def oneFree : Bounds ℝ 1 := ⟨fun _ => none, fun _ => none⟩

theorem oneFree_free (y : Vec ℝ 1) : InBounds oneFree y := fun i => ⟨fun _ h => (by cases h), fun _ h => (by cases h)⟩

theorem oneDim_safe {c : Config ℝ} (hn : c.noisy = false) {mi : ℝ} (hdec : c.decider = .classic mi) (l : Lstsq ℝ)
    (best : ScalarModel ℝ 1 → Vec ℝ 1) : SafeSettings c (oneDimSettings l best) oneFree :=
  { zero := abs_zero
    root := sqrtSpec_realSqrt
    radial := fun _ => ⟨zero_le_one, le_rfl⟩
    cubeRadius := fun _ h => h
    dimRoot := fun a _ => Real.sqrt_nonneg a
    rng := fun _ _ _ => oneRng_spec
    filter := trivial
    sampler := Or.inl rfl
    aggregator := Or.inr (Or.inr (Or.inr rfl))
    sides := fun _ _ _ h => by cases h
    noise := by rw [hn]; intro h; cases h
    values := by rw [hdec]; intro m' rf h; cases h
    sphere := fun _ _ => ⟨_, rfl⟩
    cube := fun _ _ _ _ => ⟨_, rfl⟩
    ball := Or.inl oneFree_free }

theorem oneDim_exact {c : Config ℝ} (hn : c.noisy = false) {mi : ℝ} (hdec : c.decider = .classic mi)
    (he : 1 ≤ c.nEvalsPerPoint) {l : Lstsq ℝ} (hl : LstsqSpec l) (best : ScalarModel ℝ 1 → Vec ℝ 1) :
    ExactSetting c (oneDimSettings l best) (fun _ y => y 0 - 3) (fun r => ∑ k, r k ^ 2) :=
  { lstsq := hl
    fitter := trivial
    criterion := Or.inl ⟨rfl, rfl, fun _ => rfl⟩
    residuals := fun k => ⟨-3, fun _ => 1, none, fun _ => rfl, fun u => by simp [polyVal]; ring⟩
    oracle := fun _ _ => by simp [oneDimSettings]
    data := fun log i y hy _ k => by simp only [oneDimSettings, hy]
    noisy := hn
    decider := by rw [hdec]; intro _ _ _ _ _ h; cases h
    evaluations := he }

/-- C110, example: the criterion `(x - 3) ^ 2`. All hypotheses can be met, also the one about the model points, and every
run from the start `x` with initial radius 2 reduces the excess by the factor `1 - 2 / |x - 3|`. -/
example (c : Config ℝ) (hcfg : SafeConfig c oneFree) (hn : c.noisy = false)
    (hdec : c.decider = .classic 0) (he : 1 ≤ c.nEvalsPerPoint) (ht : c.targetSize = 2) (hb : c.batchSize = 1)
    (hmin : c.stagnation.minRelativeStep = 0) (hr1 : c.radius.rhoDecrease ≤ 1) (hr2 : 1 ≤ c.radius.expansionFactor)
    (hr3 : 2 ≤ c.radius.maxRadius) (x : Vec ℝ 1) (hx : 2 ≤ |x 0 - 3|) :
    ∃ b : BuiltinSettings ℝ 1 1, (∀ k y, b.oracle k y = .fin ((y 0 - 3) ^ 2)) ∧
      ∃ r, tranquiloR c (builtinComponents b) x 2 oneFree = .ok r ∧
        ∀ k s, r.states[k]? = some s → (s.x 0 - 3) ^ 2 ≤ (1 - 2 / |x 0 - 3|) ^ k * (x 0 - 3) ^ 2 := by
  obtain ⟨l, hl⟩ := exists_lstsq
  choose best hbest using exists_ball_minimizer (n := 1)
  have hfree := oneFree_free
  have hsafe := oneDim_safe hn hdec l best
  have hexact := oneDim_exact hn hdec he hl best
  have hdesc : DescentSetting c (oneDimSettings l best) oneFree 1 1 :=
    { improvement := by rw [hdec]; exact le_rfl
      rho := hr1
      expansion := hr2
      ratio := fun r h => by rw [hcfg.ratio] at h; cases h
      largest := by linarith
      kappaPos := one_pos
      kappaLe := le_rfl
      gammaPos := one_pos
      gammaLe := le_rfl
      ball := by
        intro model _ raw hraw u hu
        have : raw.x = best model := by
          cases hraw
          rfl
        rw [this]
        have := (hbest model).2 u hu
        linarith
      box := Or.inl hfree }
  refine ⟨oneDimSettings l best, fun _ _ => rfl, ?_⟩
  obtain ⟨r, hr, hpts⟩ := C110_model_points hsafe hcfg hfree rfl (dist := none) rfl ht hb hmin.le
    (fun v => abs_nonneg _) x 2 two_pos
  obtain ⟨r', hr', hcon⟩ := C110_linear_convergence hsafe hcfg hexact hdesc (by
      intro y z t h0 h1
      simp only [Fin.sum_univ_one, between]
      nlinarith [mul_nonneg (mul_nonneg h0 (sub_nonneg.2 h1)) (sq_nonneg (y 0 - z 0))]) x (hfree x) 2 two_pos
    (fun _ => 3) ⟨hfree _, fun z _ => by simp only [Fin.sum_univ_one]; nlinarith [sq_nonneg (z 0 - 3)]⟩ |x 0 - 3|
    (by linarith) (by
      intro z _ hz
      simp only [Fin.sum_univ_one] at hz
      rw [sq_abs]
      simp only [sumSq, Fin.sum_univ_one]
      nlinarith) (by rw [min_eq_left hr3]; linarith)
  rw [hr] at hr'
  obtain rfl : r = r' := by injection hr'
  refine ⟨r, hr, fun k s hs => ?_⟩
  have := (hcon hpts).1 k s hs
  simp only [Fin.sum_univ_one] at this
  rw [min_eq_left hr3] at this
  simpa using this

end Tranquilo
