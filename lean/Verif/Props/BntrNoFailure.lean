import Verif.Props.Bntr
import Verif.Props.ConjugateGradient

/-!
# C94: the solver for boxes returns a result

With the conjugate gradient method for the free parameters, without the initial gradient descent, and from
a start strictly between the bounds.
-/

namespace Tranquilo

variable {K : Type} [Field K] [LinearOrder K] [IsStrictOrderedRing K] {n : Nat}

/-- C42: unless the gradient is below the tolerance, the step strictly decreases the model. -/
theorem C42_strict_decrease (root : K → K) (hroot : SqrtSpec root) (g : Vec K n) (h : Mat K n n)
    (hs : SymmetricMat h) (radius gtolAbs gtolRel : K) (htol : 0 ≤ gtolAbs) (hrad : 0 < radius)
    (hg : ¬ norm2 root g ≤ max gtolAbs (gtolRel * norm2 root g)) :
    quadModel g h (minimizeCg root g h radius gtolAbs gtolRel) < 0 := by
  have hgg : 0 < dot g g := norm2_pos hroot (le_max_of_le_left htol) hg
  set q := quadForm h g with hq
  set t := min (dot g g / (|q| + 1)) (radius / (dot g g + 1)) with ht
  have hq1 : 0 < |q| + 1 := by positivity
  have hg1 : 0 < dot g g + 1 := by linarith
  have ht0 : 0 < t := lt_min (by positivity) (by positivity)
  have ht1 : t * (|q| + 1) ≤ dot g g := (le_div_iff₀ hq1).1 (min_le_left _ _)
  have ht2 : t * (dot g g + 1) ≤ radius := (le_div_iff₀ hg1).1 (min_le_right _ _)
  have hval : quadModel g h (fun i => -(t * g i)) = -(t * dot g g) + t ^ 2 / 2 * q := by
    have e : (fun i => -(t * g i)) = fun i => (0 : K) + (-t) * g i := by funext i; ring
    have := quadModel_axpy g h hs (fun _ => 0) g (-t)
    rw [e, this]
    have e2 : (fun i => g i + matVec h (fun _ => 0) i) = g := by
      funext i
      simp [matVec]
    have e3 : quadModel g h (fun _ => 0) = 0 := by simp [quadModel]
    rw [e2, e3, ← hq]
    ring
  have hin : NormLe (fun i => -(t * g i)) radius := by
    rw [NormLe, sumSq_eq_dot]
    have : dot (fun i => -(t * g i)) (fun i => -(t * g i)) = t ^ 2 * dot g g := by
      unfold dot
      rw [Finset.mul_sum]
      exact Finset.sum_congr rfl fun i _ => by ring
    rw [this]
    have h1 : (t * (dot g g + 1)) ^ 2 ≤ radius ^ 2 := pow_le_pow_left₀ (by positivity) ht2 2
    nlinarith [sq_nonneg t, sq_nonneg (dot g g), mul_nonneg (sq_nonneg t) hgg.le,
      mul_nonneg (sq_nonneg t) (sq_nonneg (dot g g))]
  refine lt_of_le_of_lt (C42_cauchy_decrease root hroot g h hs radius gtolAbs gtolRel htol hg t ht0.le
    hin) ?_
  rw [hval]
  have h2 : t * q ≤ dot g g := by
    have := mul_le_mul_of_nonneg_left (le_abs_self q) ht0.le
    nlinarith
  nlinarith [mul_pos ht0 hgg, mul_le_mul_of_nonneg_left h2 ht0.le]

variable {root : K → K} (eps : K) (broadcast : Bool) (o : BntrOptions K)
  (g : Vec K n) (h : Mat K n n) (l u : Vec K n)

/-- What holds for the variables of the main loop as long as the solver has not converged. -/
structure BntrGood (g : Vec K n) (h : Mat K n n) (l u : Vec K n) (s : BntrState K n) : Prop where
  inBox : InBox l u s.x
  value : s.f = bntrCriterion s.x g h
  active : s.active = activeBounds s.x s.gradient l u
  radius : 0 < s.radius
  notStationary : ¬ FirstOrder l u s.x s.gradient

/-- Points that are not stationary are those at which convergence is not reported. -/
theorem not_firstOrder_of_not_converged (hroot : SqrtSpec root) (hlu : ∀ i, l i ≤ u i)
    (htol : 0 < o.gtolAbs) (x gr : Vec K n) (f : K) (conv : Bool) (reason : Nat) (niter : Option Nat)
    (hc : (bntrConverged root o x f gr g l u conv reason niter).1 = false) : ¬ FirstOrder l u x gr := by
  intro hfo
  have h0 := (C49_zero_iff_first_order l u hroot hlu x gr).2 hfo
  unfold bntrConverged at hc
  rw [h0] at hc
  dsimp only at hc
  rw [if_pos htol] at hc
  cases hc

theorem maskMat_symmetric (mask : Fin n → Bool) (hs : SymmetricMat h) : SymmetricMat (maskMat mask h) :=
  fun i j => hs _ _

/-- A pass does not fail, and keeps the invariant. -/
theorem bntrTrial_ok (hroot : SqrtSpec root) (hlu : ∀ i, l i ≤ u i) (hs : SymmetricMat h)
    (gtolAbsCg gtolRelCg : K) (htolCg : 0 ≤ gtolAbsCg) (htol : 0 < o.gtolAbs) (niter : Nat)
    (s : BntrState K n) (hgood : BntrGood g h l u s) :
    ∃ r, bntrTrial root eps broadcast (innerCg root gtolAbsCg gtolRelCg) o g h l u niter s = .ok r ∧
      (r.1.converged = true ∨ BntrGood g h l u r.1) := by
  have hfree : maskIndices s.active.inactive ≠ [] := by
    intro he
    refine hgood.notStationary (C50_no_free_parameter l u s.x s.gradient hgood.inBox fun i => ?_)
    rw [← hgood.active]
    by_contra hne
    have : i ∈ maskIndices s.active.inactive := (mem_maskIndices _ _).2 (by simpa using hne)
    rw [he] at this
    cases this
  set step := minimizeCgFast root (maskVec s.active.inactive s.gradient) (maskMat s.active.inactive h)
    s.radius gtolAbsCg gtolRelCg with hstep
  have htr : trialStep root broadcast (innerCg root gtolAbsCg gtolRelCg) s.gradient h l u s.x s.active
      s.radius = .ok (step, norm2 root step) := by
    unfold trialStep
    rw [if_neg hfree]
    unfold freeStep innerCg
    exact if_neg fun hc => absurd hc.1 hgood.radius.ne'
  have hbs : boundedStep s.active l u s.x step = unmask s.active.inactive step := by
    have : ∀ (a : ActiveBounds n), a = activeBounds s.x s.gradient l u →
        ∀ v : Vec K (maskIndices a.inactive).length,
          boundedStep a l u s.x v = unmask a.inactive v := by
      rintro _ rfl v
      exact boundedStep_of_inBox l u s.x s.gradient hgood.inBox v
    exact this _ hgood.active _
  set x' := applyBounds l u fun i => s.x i + boundedStep s.active l u s.x step i with hx'
  set p := predictedReduction s.gradient h s.active.inactive (boundedStep s.active l u s.x step) step
    with hp
  have hpred : p = -(quadModel (maskVec s.active.inactive s.gradient) (maskMat s.active.inactive h)
      step) := by
    rw [hp, hbs, ← bntrCriterion_eq]
    unfold predictedReduction
    rw [maskVec_unmask]
    split <;> rfl
  have hkappa : ∃ k, cgKappa eps (bntrCriterion x' g h) p (s.f - bntrCriterion x' g h) = .ok k := by
    unfold cgKappa
    split
    · exact ⟨1, rfl⟩
    · rename_i hnot
      unfold checkedDiv
      rw [if_neg]
      · exact ⟨_, rfl⟩
      · intro hp0
        apply hnot
        by_cases hsmall : norm2 root (maskVec s.active.inactive s.gradient)
            ≤ max gtolAbsCg (gtolRelCg * norm2 root (maskVec s.active.inactive s.gradient))
        · have hzero : step = fun _ => 0 := by
            rw [hstep]
            unfold minimizeCgFast
            obtain ⟨k, hk⟩ : ∃ k, (maskIndices s.active.inactive).length * 2 = k + 1 := by
              have := List.length_pos_of_ne_nil hfree
              exact ⟨(maskIndices s.active.inactive).length * 2 - 1, by omega⟩
            rw [hk, cgLoop]
            exact if_pos hsmall
          have hxx : x' = s.x := by
            rw [hx', hbs, hzero]
            have : (fun i => s.x i + unmask s.active.inactive (fun _ => (0 : K)) i) = s.x := by
              funext i
              unfold unmask
              split <;> simp
            rw [this]
            exact applyBounds_of_inBox l u _ hgood.inBox
          rw [hxx, ← hgood.value, hp0, sub_self, abs_zero]
          exact ⟨le_max_of_le_left zero_le_one, le_max_of_le_left zero_le_one⟩
        · exfalso
          have := C42_strict_decrease root hroot (maskVec s.active.inactive s.gradient)
            (maskMat s.active.inactive h) (maskMat_symmetric h _ hs) s.radius gtolAbsCg gtolRelCg htolCg
            hgood.radius hsmall
          rw [← C73_conjugate_gradient, ← hstep] at this
          rw [hpred] at hp0
          linarith
  obtain ⟨r, hr⟩ : ∃ r, cgUpdateRadius eps (bntrCriterion x' g h) p (s.f - bntrCriterion x' g h)
      (norm2 root step) s.radius = .ok r := by
    obtain ⟨k, hk⟩ := hkappa
    unfold cgUpdateRadius
    split
    · exact ⟨_, rfl⟩
    · rw [hk]
      change ∃ r, (if k < 1 / 10 ^ 4 then _ else _) = _
      split <;> exact ⟨_, rfl⟩
  have hrpos : 0 < r.1 := by
    have := (cgUpdateRadius_clipped eps _ _ _ _ _ r.1 r.2 hr).1
    refine lt_of_lt_of_le ?_ this
    unfold bntrMinRadius
    norm_num
  unfold bntrTrial
  rw [htr]
  change ∃ r', (cgUpdateRadius eps (bntrCriterion x' g h) p (s.f - bntrCriterion x' g h)
      (norm2 root step) s.radius >>= _) = .ok r' ∧ _
  rw [hr]
  change ∃ r', (if r.2 = true then _ else _) = Except.ok r' ∧ _
  by_cases hacc : r.2 = true
  · rw [if_pos hacc]
    refine ⟨_, rfl, ?_⟩
    dsimp only
    cases hc : (bntrConverged root o x' (bntrCriterion x' g h) (fun i => g i + matVec h x' i) g l u
      s.converged s.reason (some niter)).1 with
    | true => exact Or.inl rfl
    | false =>
      exact Or.inr
        { inBox := applyBounds_inBox l u _ hlu, value := rfl, active := rfl, radius := hrpos
          notStationary := not_firstOrder_of_not_converged o g l u hroot hlu htol _ _ _ _ _ _ hc }
  · rw [if_neg hacc]
    by_cases hsame : r.1 = s.radius
    · rw [if_pos hsame]
      exact ⟨_, rfl, Or.inl rfl⟩
    · rw [if_neg hsame]
      refine ⟨_, rfl, Or.inr ?_⟩
      exact { inBox := hgood.inBox, value := hgood.value, active := hgood.active, radius := hrpos
              notStationary := hgood.notStationary }

/-- The loop `while` does not fail. -/
theorem bntrInner_ok (hroot : SqrtSpec root) (hlu : ∀ i, l i ≤ u i) (hs : SymmetricMat h)
    (gtolAbsCg gtolRelCg : K) (htolCg : 0 ≤ gtolAbsCg) (htol : 0 < o.gtolAbs) (niter : Nat) :
    ∀ (fuel : Nat) (s : BntrState K n), BntrGood g h l u s →
      ∃ r, bntrInner root eps broadcast (innerCg root gtolAbsCg gtolRelCg) o g h l u niter fuel s = .ok r ∧
        ∀ s', r = some s' → s'.converged = true ∨ BntrGood g h l u s'
  | 0, s, _ => ⟨none, rfl, fun _ h => by cases h⟩
  | fuel + 1, s, hgood => by
    obtain ⟨r, hr, hr'⟩ := bntrTrial_ok eps broadcast o g h l u hroot hlu hs gtolAbsCg gtolRelCg htolCg
      htol niter s hgood
    unfold bntrInner
    rw [hr]
    change ∃ r', (if (r.2 || r.1.converged) = true then _ else _) = Except.ok r' ∧ _
    by_cases hc : (r.2 || r.1.converged) = true
    · rw [if_pos hc]
      refine ⟨_, rfl, ?_⟩
      rintro s' h1
      cases h1
      exact hr'
    · rw [if_neg hc]
      rcases hr' with hr' | hr'
      · rw [hr', Bool.or_true] at hc
        exact absurd rfl hc
      · exact bntrInner_ok hroot hlu hs gtolAbsCg gtolRelCg htolCg htol niter fuel r.1 hr'

/-- The main loop does not fail. -/
theorem bntrOuter_ok (hroot : SqrtSpec root) (hlu : ∀ i, l i ≤ u i) (hs : SymmetricMat h)
    (gtolAbsCg gtolRelCg : K) (htolCg : 0 ≤ gtolAbsCg) (htol : 0 < o.gtolAbs) (fuel : Nat) :
    ∀ (k niter : Nat) (s : BntrState K n), (s.converged = true ∨ BntrGood g h l u s) →
      ∃ r, bntrOuter root eps broadcast (innerCg root gtolAbsCg gtolRelCg) o g h l u fuel k niter s = .ok r
  | 0, niter, s, _ => ⟨_, rfl⟩
  | k + 1, niter, s, hgood => by
    unfold bntrOuter
    by_cases hc : s.converged = true
    · rw [if_pos hc]
      exact ⟨_, rfl⟩
    · rw [if_neg hc]
      obtain ⟨r, hr, hr'⟩ := bntrInner_ok eps broadcast o g h l u hroot hlu hs gtolAbsCg gtolRelCg htolCg
        htol niter fuel s (hgood.resolve_left hc)
      rw [hr]
      cases r with
      | none => exact ⟨_, rfl⟩
      | some s' =>
        exact bntrOuter_ok hroot hlu hs gtolAbsCg gtolRelCg htolCg htol fuel k (niter + 1) s' (hr' s' rfl)

/-- C94, in part: the solver returns a result, from every start strictly between the bounds and for every
symmetric Hessian, with the conjugate gradient method for the free parameters, when the initial gradient
descent is switched off. With the gradient descent there are divisions by zero, see
`C94_violated_zero_division`. -/
theorem C94_returns_partial (hroot : SqrtSpec root) (hs : SymmetricMat h) (gtolAbsCg gtolRelCg : K)
    (htolCg : 0 ≤ gtolAbsCg) (htol : 0 < o.gtolAbs) (hgd : o.maxiterGradientDescent = 0) (x : Vec K n)
    (hx : ∀ i, l i < x i ∧ x i < u i) (fuel : Nat) (hfuel : 35 ≤ fuel) :
    ∃ r, bntrFast root eps broadcast (innerCg root gtolAbsCg gtolRelCg) o fuel g h l u x
      = .ok (some r) := by
  have hlu : ∀ i, l i ≤ u i := fun i => ((hx i).1.trans (hx i).2).le
  have hbox : InBox l u x := fun i => ⟨(hx i).1.le, (hx i).2.le⟩
  have hall : ∀ gr, activeBounds x gr l u = activeBounds x g l u := by
    intro gr
    unfold activeBounds
    have h1 : ∀ i, decide (x i ≤ l i) = false := fun i => decide_eq_false (not_le.2 (hx i).1)
    have h2 : ∀ i, decide (u i ≤ x i) = false := fun i => decide_eq_false (not_le.2 (hx i).2)
    simp only [h1, h2, Bool.false_and]
  obtain ⟨s, hp, hgood⟩ : ∃ s, bntrPreliminary root eps o g h l u x = .ok s ∧
      (s.converged = true ∨ BntrGood g h l u s) := by
    unfold bntrPreliminary
    dsimp only
    cases hc : (bntrConverged root o x (bntrCriterion x g h) (fun i => g i + matVec h x i) g l u false 0
      none).1 with
    | true =>
      rw [if_pos rfl]
      exact ⟨_, rfl, Or.inl rfl⟩
    | false =>
      rw [if_neg (by simp), hgd]
      change ∃ s, (if bntrCriterion x g h < bntrCriterion x g h then _ else _) = Except.ok s ∧ _
      rw [if_neg (lt_irrefl _)]
      refine ⟨_, rfl, Or.inr ?_⟩
      exact
        { inBox := hbox, value := rfl, active := (hall _).symm
          radius := by
            refine lt_of_lt_of_le ?_ (clipRadius_bounds _).1
            unfold bntrMinRadius
            norm_num
          notStationary := not_firstOrder_of_not_converged o g l u hroot hlu htol _ _ _ _ _ _ hc }
  obtain ⟨r, hr⟩ := bntrOuter_ok eps broadcast o g h l u hroot hlu hs gtolAbsCg gtolRelCg htolCg htol fuel
    (o.maxiter + 1) 0 s hgood
  have hne := C47_terminates root eps broadcast (innerCg root gtolAbsCg gtolRelCg) o g h l u fuel hfuel x
  unfold bntrFast at hne ⊢
  rw [hp] at hne ⊢
  change (bntrOuter _ _ _ _ _ _ _ _ _ _ _ _ _ >>= _) ≠ _ at hne
  change ∃ r, (bntrOuter _ _ _ _ _ _ _ _ _ _ _ _ _ >>= _) = _
  rw [hr] at hne ⊢
  cases r with
  | none => exact absurd rfl hne
  | some r => exact ⟨_, rfl⟩

/-- The hypotheses of `C94_returns_partial` can be satisfied, for every function with the property of the
square root; and the start is not stationary in this case. -/
example (hroot : SqrtSpec root) :
    (∃ r, bntrFast root eps broadcast (innerCg root (1 / 10 ^ 8) (1 / 10 ^ 6))
      { maxiter := 20, maxiterGradientDescent := 0, gtolAbs := 1 / 10 ^ 8, gtolRel := 1 / 10 ^ 8
        gtolScaled := 0 } 35 (fun _ : Fin 2 => (1 : K)) (fun _ _ => 1) (fun _ => -1) (fun _ => 1)
        (fun _ => 0) = .ok (some r)) ∧
    ¬ FirstOrder (fun _ : Fin 2 => (-1 : K)) (fun _ => 1) (fun _ => 0)
      (quadGradient (fun _ => 1) (fun _ _ => 1) (fun _ => 0)) := by
  refine ⟨C94_returns_partial eps broadcast _ _ _ _ _ hroot (fun _ _ => rfl) _ _ (by norm_num)
    (by norm_num) rfl _ (fun _ => by norm_num) 35 (le_refl _), ?_⟩
  rintro ⟨-, h1⟩
  have := (h1 0).2 (by norm_num)
  simp [quadGradient] at this
  linarith

end Tranquilo
