import Verif.Spec.Gradient
import Verif.Props.ExactModels
import Verif.Props.MainLoopRaise
import Verif.Props.TranquiloCall
import Mathlib.Data.Rat.Floor

/-!
# C107: the stopping rule for the gradient
-/

namespace Tranquilo

variable {K : Type} [Field K] [LinearOrder K] [IsStrictOrderedRing K] {n m : Nat}

/-- The gradient is unique. -/
theorem gradient_unique {f : Vec K n → K} {c g g' : Vec K n} (h : GradientAt f c g) (h' : GradientAt f c g') :
    g = g' := by
  have key : ∀ g, GradientAt f c g → ∀ i,
      2 * g i = f (fun k => c k + if k = i then 1 else 0) - f fun k => c k - if k = i then 1 else 0 := by
    rintro g ⟨q, hq⟩ i
    have h1 := hq fun k => c k + if k = i then 1 else 0
    have h2 := hq fun k => c k - if k = i then 1 else 0
    simp only [add_sub_cancel_left, sub_sub_cancel_left, mul_ite, mul_one, mul_zero, Finset.sum_ite_eq',
      Finset.mem_univ, if_true, mul_neg, neg_mul, Finset.sum_neg_distrib, ite_mul, zero_mul] at h1 h2
    rw [h1, h2]
    simp only [Finset.sum_ite_eq, Finset.sum_ite_eq', Finset.mem_univ, if_true, apply_ite Neg.neg, neg_zero, neg_neg]
    ring
  funext i
  have h1 := key g h i
  have h2 := key g' h' i
  linarith

/-- The gradient of a model with respect to the parameters: the linear terms divided by the radii of the region. -/
theorem model_gradient {cr : K → K} {region : Region K n} (hr : ∀ i, region.effectiveRadius cr i ≠ 0)
    (s : ScalarModel K n) :
    GradientAt (fun y => s.predict (region.mapToUnit cr y)) (region.effectiveCenter cr)
      (fun i => s.linearTerms i / region.effectiveRadius cr i) := by
  have hu : ∀ y i, region.mapToUnit cr y i =
      (y i - region.effectiveCenter cr i) / region.effectiveRadius cr i := by
    intro y i
    have := unit_roundtrip hr y i
    rw [eq_div_iff (hr i)]
    linarith
  have h0 : region.mapToUnit cr (region.effectiveCenter cr) = fun _ => 0 := by
    funext i; rw [hu]; simp
  refine ⟨fun i j => match s.squareTerms with
    | none => 0
    | some h => h i j / region.effectiveRadius cr i / region.effectiveRadius cr j, fun y => ?_⟩
  dsimp only
  rw [h0]
  unfold ScalarModel.predict
  have e1 : dot (region.mapToUnit cr y) s.linearTerms =
      ∑ i, s.linearTerms i / region.effectiveRadius cr i * (y i - region.effectiveCenter cr i) := by
    unfold dot
    refine Finset.sum_congr rfl fun i _ => ?_
    rw [hu]; ring
  have e2 : dot (fun _ => 0) s.linearTerms = 0 := by simp [dot]
  cases hq : s.squareTerms with
  | none =>
    simp only [e1, e2]
    simp
    ring
  | some h =>
    simp only [e1, e2, halfQuad]
    have e3 : ∑ j, (∑ i, region.mapToUnit cr y i * h i j) * region.mapToUnit cr y j =
        ∑ i, ∑ j, h i j / region.effectiveRadius cr i / region.effectiveRadius cr j *
          (y i - region.effectiveCenter cr i) * (y j - region.effectiveCenter cr j) := by
      rw [Finset.sum_comm' (t' := Finset.univ) (s' := fun _ => Finset.univ) (by simp)]
      refine Finset.sum_congr rfl fun j _ => ?_
      rw [Finset.sum_mul]
      refine Finset.sum_congr rfl fun i _ => ?_
      rw [hu, hu]; ring
    rw [e3]
    simp
    ring

/-- The regions of all iterations of a run. -/
theorem run_regions [FloorRing K] {c : Config K} {b : BuiltinSettings K n m} {bounds : Bounds K n}
    (h : SafeSettings c b bounds) (hcfg : SafeConfig c bounds) (x : Vec K n) (hin : InBounds bounds x)
    (radius : K) (hrad : 0 < radius) :
    ∃ r, tranquiloR c (builtinComponents b) x radius bounds = .ok r ∧
      ∀ s ∈ r.states, FeasibleRegion bounds s.trustregion := by
  have hsafe := C98_builtin_components_are_safe h
  set ce := builtinComponents b with hce
  obtain ⟨hgood, sm, hsm⟩ := hsafe.init (startLogR c ce.oracle x)
    { center := x, radius := radius, bounds := bounds } ⟨rfl, hrad, hin⟩
  have hstart : ∃ r, startRunR c ce x radius bounds = .ok r ∧
      r.state.trustregion.radius = radius ∧ r.log = startLogR c ce.oracle x ∧
      r.state.vectorModel = ce.initModel (startLogR c ce.oracle x)
        { center := x, radius := radius, bounds := bounds } ∧ r.state.index = 0 := by
    unfold startRunR
    dsimp only
    rw [hsm]
    exact ⟨_, rfl, rfl, rfl, rfl, rfl⟩
  obtain ⟨r0, h0, h1, h2, h3, hidx⟩ := hstart
  set cp := ce.total (fallbackComponents ce sm) with hcp
  have hreal : Realizes ce cp := ce.total_realizes _
  have hr0 := startRunR_ok hreal h0
  have hrs : RunSafe c cp bounds StartModel r0 := by
    refine ⟨?_, by rw [h1]; exact hrad, ?_, by rw [h3]; exact hgood, ?_, fun hrep => by
      rw [h2, hidx]; exact startLogR_twice hcfg.batch hrep.1 ce.oracle x⟩
    · rw [← hr0]
      exact startRun_ok c cp x radius bounds
    · intro y hy
      rw [← hr0] at hy
      have : y = x := by simpa [startRun] using hy
      rw [this]; exact hin
    · rw [h2]
      exact startLogR_evals hcfg.batch ce.oracle x
  obtain ⟨r, hr, hPr⟩ := runLoopR_induction (c := c) (ce := ce)
    (fun r => RunSafe c cp bounds StartModel r ∧ ∀ s ∈ r.states, FeasibleRegion bounds s.trustregion) (by
      rintro it r ⟨p1, p2⟩
      obtain ⟨r', hr', hs'⟩ := iterationR_safe hsafe hcfg sm it r p1
      have heq : iteration c cp it r = r' := iterationR_ok hreal hr'
      refine ⟨r', hr', hs', fun s hs => ?_⟩
      have hs'' : s ∈ r.states ∨ s = theState c cp it r := by
        rw [← heq, iteration_eq] at hs
        simpa using hs
      rcases hs'' with hs | rfl
      · exact p2 s hs
      · exact ⟨p1.ok.bounds, p1.radius, by
          rw [show (theState c cp it r).trustregion = r.state.trustregion from rfl, p1.ok.center]
          exact p1.points _ (List.mem_of_getElem? p1.ok.point)⟩)
    c.maxIter 0 r0 ⟨hrs, fun s hs => by
      rw [← hr0] at hs
      obtain rfl := List.mem_singleton.1 hs
      exact ⟨rfl, hrad, hin⟩⟩
  refine ⟨r, ?_, hPr.2⟩
  unfold tranquiloR
  rw [h0]
  exact hr

/-- C107: what the message about the absolute norm of the gradient means. The run ends after an accepted step; `new` is
its last state. Not the gradient `g` of the model with respect to the parameters is below the tolerance, but its
product with the radii of the trust region. In spheres that is `radius * |g|`: only if the radius is at least one does
the claim follow. -/
theorem C107_gradient_message_partial [FloorRing K] {c : Config K} {b : BuiltinSettings K n m} {bounds : Bounds K n}
    (h : SafeSettings c b bounds) (hcfg : SafeConfig c bounds) (x : Vec K n) (hin : InBounds bounds x) (radius : K)
    (hrad : 0 < radius) (hnrm : ∀ t (v : Vec K n), 0 ≤ t → b.nrm (fun i => t * v i) = t * b.nrm v)
    (hpos : ∀ v, 0 ≤ b.nrm v) (r : Run K n (VectorModel K n m) (ScalarModel K n))
    (hr : tranquiloR c (builtinComponents b) x radius bounds = .ok r) (hmsg : r.msg = some .gtolAbs) :
    ∃ pre old new g, r.states = pre ++ [old, new] ∧ new.accepted = true ∧
      GradientAt (fun y => new.model.predict (new.trustregion.mapToUnit b.cubeRadius y))
        (new.trustregion.effectiveCenter b.cubeRadius) g ∧
      b.nrm (fun i => new.trustregion.effectiveRadius b.cubeRadius i * g i) ≤ c.conv.gtolAbs ∧
      (new.trustregion.shape = .sphere → new.trustregion.radius * b.nrm g ≤ c.conv.gtolAbs ∧
        (1 ≤ new.trustregion.radius → b.nrm g ≤ c.conv.gtolAbs)) := by
  obtain ⟨r', hr', hreg⟩ := run_regions h hcfg x hin radius hrad
  rw [hr] at hr'
  obtain rfl : r = r' := by injection hr'
  obtain ⟨-, -, hm⟩ := C65_messages_of_a_run_that_returns
    (C98_builtin_components_are_safe h).selects hr
  obtain ⟨-, pre, old, new, hst, hacc, hold⟩ := hm .gtolAbs (by simp) hmsg
  have hf := hreg new (by rw [hst]; simp)
  have hus : Usable b.cubeRadius new.trustregion := ⟨hf.radius, h.cubeRadius _ hf.radius,
    by rw [hf.box]; exact hf.center, by rw [hf.box]; exact h.sides⟩
  have hr0 := fun i => effectiveRadius_ne_zero hus i
  change b.nrm new.model.linearTerms ≤ c.conv.gtolAbs at hold
  have hscaled : b.nrm (fun i => new.trustregion.effectiveRadius b.cubeRadius i *
      (new.model.linearTerms i / new.trustregion.effectiveRadius b.cubeRadius i)) ≤ c.conv.gtolAbs := by
    have : (fun i => new.trustregion.effectiveRadius b.cubeRadius i *
      (new.model.linearTerms i / new.trustregion.effectiveRadius b.cubeRadius i)) = new.model.linearTerms := by
      funext i
      rw [mul_div_cancel₀ _ (hr0 i)]
    rw [this]; exact hold
  refine ⟨pre, old, new, _, hst, hacc, model_gradient hr0 new.model, hscaled, fun hs => ?_⟩
  have hrad' : ∀ i, new.trustregion.effectiveRadius b.cubeRadius i = new.trustregion.radius := by
    intro i
    simp only [Region.effectiveRadius, hs]
  simp only [hrad'] at hscaled ⊢
  rw [hnrm _ _ hf.radius.le] at hscaled
  refine ⟨hscaled, fun h1 => le_trans ?_ hscaled⟩
  exact le_mul_of_one_le_left (hpos _) h1

/-- C107 for criteria that are modelled exactly (C103): the message appears as soon as `radius * |g|` is below the
tolerance, where `g` is the gradient of the criterion itself at the center of the last trust region. -/
theorem C107_slope_of_the_criterion [FloorRing K] {c : Config K} {b : BuiltinSettings K n m} {bounds : Bounds K n}
    (h : SafeSettings c b bounds) (hcfg : SafeConfig c bounds) {res : Fin m → Vec K n → K} {value : Vec K m → K}
    (hx : ExactSetting c b res value) (x : Vec K n) (hin : InBounds bounds x) (radius : K) (hrad : 0 < radius)
    (hnrm : ∀ t (v : Vec K n), 0 ≤ t → b.nrm (fun i => t * v i) = t * b.nrm v) :
    ∃ r, tranquiloR c (builtinComponents b) x radius bounds = .ok r ∧
      ∀ s ∈ r.states.tail, DeterminedBy b.modelType (r.log.getXs s.modelIndices) →
        s.trustregion.shape = .sphere →
        ∀ g, GradientAt (fun y => value fun j => res j y) s.trustregion.center g →
          b.nrm s.model.linearTerms = s.trustregion.radius * b.nrm g := by
  obtain ⟨r, hr, hex⟩ := C103_exact_models h hcfg hx x hin radius hrad
  obtain ⟨r', hr', hreg⟩ := run_regions h hcfg x hin radius hrad
  rw [hr] at hr'
  obtain rfl : r = r' := by injection hr'
  refine ⟨r, hr, fun s hs hdet hsph g hg => ?_⟩
  have hf := hreg s (List.mem_of_mem_tail hs)
  have hus : Usable b.cubeRadius s.trustregion := ⟨hf.radius, h.cubeRadius _ hf.radius,
    by rw [hf.box]; exact hf.center, by rw [hf.box]; exact h.sides⟩
  have hgr := model_gradient (fun i => effectiveRadius_ne_zero hus i) s.model
  have hmod : (fun y => s.model.predict (s.trustregion.mapToUnit b.cubeRadius y)) =
      fun y => value fun j => res j y := funext (hex s hs hdet).model
  have hcen : s.trustregion.effectiveCenter b.cubeRadius = s.trustregion.center := by
    unfold Region.effectiveCenter
    rw [hsph]
  have hrad' : ∀ i, s.trustregion.effectiveRadius b.cubeRadius i = s.trustregion.radius := by
    intro i
    simp only [Region.effectiveRadius, hsph]
  rw [hmod, hcen] at hgr
  have := gradient_unique hg hgr
  rw [← hnrm _ _ hf.radius.le, this]
  congr 1
  funext i
  beta_reduce
  rw [hrad', mul_div_cancel₀ _ hf.radius.ne']

/-! ## A call that stops on a slope -/

/-- Draws `1, -1, -1, ...` and uniform draws zero. -/
def slopeRng : SampleRng ℚ 1 where
  normal k := (List.range k).map fun j _ => if j = 0 then 1 else -1
  uniform01 k := (List.range k).map fun _ _ => 0
  normalBlocks k l := (List.range k).map fun _ => (List.range l).map fun j _ => if j = 0 then 1 else -1
  uniformBlocks01 k l := (List.range k).map fun _ => (List.range l).map fun _ _ => 0

/-- One parameter, the criterion `x / 100`. The least squares solver returns the exact solution (and zero if it were
not one), the subsolver the minimizer of a linear model on the ball. -/
def slopeExternals : Externals ℚ Unit 1 1 where
  nrm v := |v 0|
  root a := a
  radial _ := 1
  cubeRadius := id
  dimRoot a := a
  lstsq _ _ a y := fun k =>
    let coef : ℕ → ℚ := fun k => if k = 0 then 1 / 10 ^ 7 else if k = 1 then 1 / 10 ^ 8 else 0
    if ∀ s, ∑ j, a s j * coef j = y s then coef k else 0
  qr _ _ _ _ := 0
  oracle _ x := .fin (x 0 / 100)
  data log i _ := match log.xs[i]? with
    | some x => .fin (x 0 / 100)
    | none => .nan
  start _ _ := 1 / 10 ^ 7
  fvecs log i := (log.fvals i).map fun v _ => v
  rng _ _ _ := slopeRng
  draws _ _ _ _ _ := []
  covOfOne _ _ _ := .nan
  quantile := id
  logsumexp _ := 0
  minimize _ _ _ x0 := x0
  scipy crit x0 _ _ := ⟨x0, crit x0, 0⟩
  solver _ _ model _ := .ok ⟨fun i => if 0 < model.linearTerms i then -1 else 1, 1, true⟩

/-- C107 is false: the call with default options for `x / 100`, started at `1e-5`, stops after the first step with the
message that the relative norm of the gradient is below the tolerance `1e-8`, although the slope is `0.01` everywhere. -/
theorem C107_violated_default_call :
    ∃ r, tranquiloCall plainEnv slopeExternals { functype := "scalar", x := [] } (fun _ => 1 / 10 ^ 5)
        ⟨fun _ => none, fun _ => none⟩ = .ok (some r) ∧
      r.msg = some .gtolRel ∧ r.converged = true ∧ r.states.length = 2 ∧ r.state.x 0 = 9 / 10 ^ 6 ∧
      (∀ k y, slopeExternals.oracle k y = .fin (y 0 / 100)) ∧
      GradientAt (fun y : Vec ℚ 1 => y 0 / 100) r.state.x fun _ => 1 / 100 := by
  have key : (match tranquiloCall plainEnv slopeExternals { functype := "scalar", x := [] } (fun _ => 1 / 10 ^ 5)
        ⟨fun _ => none, fun _ => none⟩ with
      | .ok (some r) => decide (r.msg = some .gtolRel) && r.converged && decide (r.states.length = 2) &&
          decide (r.state.x 0 = 9 / 10 ^ 6)
      | _ => false) = true := by
    decide +kernel
  split at key
  · rename_i r hr
    simp only [Bool.and_eq_true, decide_eq_true_eq] at key
    refine ⟨r, hr, key.1.1.1, key.1.1.2, key.1.2, key.2, fun _ _ => rfl, fun _ _ => 0, fun y => ?_⟩
    simp
    ring
  · cases key

end Tranquilo
