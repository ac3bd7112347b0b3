import Verif.Lemmas.Steps
import Verif.Lemmas.Regions
import Verif.Props.Convergence

/-!
# C117: as long as the models promise an improvement, a run makes progress
-/

namespace Tranquilo

variable {K : Type} [Field K] [LinearOrder K] [IsStrictOrderedRing K] {n m : Nat} {VM SM : Type}

section step

variable {c : Config K} {eta delta kappa radius : K}

theorem leastRadius_le_trusted (hc : ProgressOptions c) (ht : 0 ≤ trustedRadius c eta delta kappa) :
    leastRadius c eta delta kappa radius ≤ trustedRadius c eta delta kappa :=
  (min_le_right _ _).trans (mul_le_of_le_one_left ht hc.shrinkLt.le)

theorem trustedRadius_pos (hc : ProgressOptions c) (heta : 0 < eta) (hdelta : 0 < delta) (hkappa : 0 < kappa) :
    0 < trustedRadius c eta delta kappa :=
  lt_min hdelta (div_pos (mul_pos (sub_pos.2 hc.rhoLt) heta) hkappa)

theorem leastRadius_pos (hc : ProgressOptions c) (heta : 0 < eta) (hdelta : 0 < delta) (hkappa : 0 < kappa)
    (hrad : 0 < radius) (hmax : 0 < c.radius.maxRadius) : 0 < leastRadius c eta delta kappa radius :=
  lt_min (lt_min hrad hmax) (mul_pos hc.shrinkPos (trustedRadius_pos hc heta hdelta hkappa))

/-- One iteration: either the criterion improves by a fixed amount, and the radius grows by at most the expansion
factor, or the radius was larger than necessary, and is reduced. -/
theorem promising_step (hc : ProgressOptions c) (heta : 0 < eta) (hdelta : 0 < delta) (hkappa : 0 < kappa)
    (hrad : 0 < radius) (hmax : 0 < c.radius.maxRadius)
    (hmin : c.radius.minRadius ≤ leastRadius c eta delta kappa radius)
    (himp : c.decider.minImprovement ≤ c.radius.rhoDecrease * eta * leastRadius c eta delta kappa radius)
    {solve : SM → Region K n → Except Err (SubSolution K n)} {g : Vec K n → K} {s : LoopState K n VM SM}
    (hj : JudgedStep solve c.decider.minImprovement g s) (hp : PromisingStep solve eta delta kappa g s)
    (hr : leastRadius c eta delta kappa radius ≤ s.trustregion.radius) (len : K) :
    leastRadius c eta delta kappa radius ≤ adjustRadius s.trustregion.radius s.rho len c.radius false ∧
    ((g s.x ≤ g s.trustregion.center - c.radius.rhoDecrease * eta * leastRadius c eta delta kappa radius ∧
      adjustRadius s.trustregion.radius s.rho len c.radius false
        ≤ s.trustregion.radius * c.radius.expansionFactor) ∨
     adjustRadius s.trustregion.radius s.rho len c.radius false
        ≤ s.trustregion.radius * c.radius.shrinkingFactor) := by
  set L := leastRadius c eta delta kappa radius with hL
  set T := trustedRadius c eta delta kappa with hT
  set D := s.trustregion.radius with hD
  have hTpos : 0 < T := trustedRadius_pos hc heta hdelta hkappa
  have hLpos : 0 < L := leastRadius_pos hc heta hdelta hkappa hrad hmax
  have hLT : L ≤ T := leastRadius_le_trusted hc hTpos.le
  have hLmax : L ≤ c.radius.maxRadius := (min_le_left _ _).trans (min_le_right _ _)
  have hDpos : 0 < D := hLpos.trans_le hr
  obtain ⟨sub, hsub, hrho, hacc⟩ := hj
  obtain ⟨hE, hdiff⟩ := hp sub hsub
  set E := sub.expectedImprovement with hEdef
  set gain := g s.trustregion.center - g sub.x with hgain
  have hminpos : 0 < min D delta := lt_min hDpos hdelta
  have hEpos : 0 < E := (mul_pos heta hminpos).trans_le hE
  have hrho' : s.rho = .fin (gain / E) := by
    rw [hrho]
    unfold calculateRho
    rw [if_neg (fun h => hEpos.ne' h.1), if_neg hEpos.ne']
    rfl
  -- the clipped radius
  have hclip : ∀ new : K, L ≤ new → L ≤ npClip new c.radius.minRadius c.radius.maxRadius ∧
      npClip new c.radius.minRadius c.radius.maxRadius ≤ new := by
    intro new hn
    unfold npClip
    rw [max_eq_left (hmin.trans hn)]
    exact ⟨le_min hn hLmax, min_le_left _ _⟩
  have hadj : adjustRadius D s.rho len c.radius false = npClip
      (if XVal.fin c.radius.rhoIncrease ≤ s.rho ∧ XVal.fin c.radius.largeStep ≤ XVal.divFin len D then
        D * c.radius.expansionFactor
      else if XVal.fin c.radius.rhoDecrease ≤ s.rho then D else D * c.radius.shrinkingFactor)
      c.radius.minRadius c.radius.maxRadius := by
    unfold adjustRadius
    simp only [Bool.false_eq_true, or_false]
    cases hq : c.radius.maxRadiusToStepRatio with
    | fin q => exact absurd hq (hc.ratio q)
    | _ => rfl
  rw [hadj]
  have hexp : D ≤ D * c.radius.expansionFactor := le_mul_of_one_le_right hDpos.le hc.expansion
  by_cases hgood : XVal.fin c.radius.rhoDecrease ≤ s.rho
  · have hgain' : c.radius.rhoDecrease * E ≤ gain := by
      rw [hrho', XVal.fin_le_fin, le_div_iff₀ hEpos] at hgood
      exact hgood
    have hLmin : L ≤ min D delta := le_min hr (hLT.trans (min_le_left _ _))
    have hEL : eta * L ≤ E := (mul_le_mul_of_nonneg_left hLmin heta.le).trans hE
    have hdec : c.radius.rhoDecrease * eta * L ≤ gain := by
      rw [mul_assoc]
      exact (mul_le_mul_of_nonneg_left hEL hc.rhoPos.le).trans hgain'
    have hx := hacc (himp.trans hdec)
    have hnew : ∀ new : K, (new = D * c.radius.expansionFactor ∨ new = D) →
        L ≤ npClip new c.radius.minRadius c.radius.maxRadius ∧
        npClip new c.radius.minRadius c.radius.maxRadius ≤ D * c.radius.expansionFactor := by
      rintro new (rfl | rfl)
      · exact hclip _ (hr.trans hexp)
      · exact ⟨(hclip _ hr).1, (hclip _ hr).2.trans hexp⟩
    have := hnew (if XVal.fin c.radius.rhoIncrease ≤ s.rho ∧ XVal.fin c.radius.largeStep ≤ XVal.divFin len D then
        D * c.radius.expansionFactor
      else if XVal.fin c.radius.rhoDecrease ≤ s.rho then D else D * c.radius.shrinkingFactor) (by
        by_cases hl : XVal.fin c.radius.rhoIncrease ≤ s.rho ∧ XVal.fin c.radius.largeStep ≤ XVal.divFin len D
        · rw [if_pos hl]; exact Or.inl rfl
        · rw [if_neg hl, if_pos hgood]; exact Or.inr rfl)
    refine ⟨this.1, Or.inl ⟨?_, this.2⟩⟩
    linarith
  · have hninc : ¬ XVal.fin c.radius.rhoIncrease ≤ s.rho := by
      intro h
      apply hgood
      rw [hrho', XVal.fin_le_fin] at h ⊢
      exact hc.rhoLe.trans h
    rw [if_neg (fun h => hninc h.1), if_neg hgood]
    have hlarge : T ≤ D := by
      by_contra hcon
      rw [not_le] at hcon
      apply hgood
      rw [hrho', XVal.fin_le_fin, le_div_iff₀ hEpos]
      have h1 : min D delta = D := min_eq_left (hcon.le.trans (min_le_left _ _))
      rw [h1] at hE
      have h2 : D ≤ (1 - c.radius.rhoDecrease) * eta / kappa := hcon.le.trans (min_le_right _ _)
      rw [le_div_iff₀ hkappa] at h2
      have h3 : kappa * D ^ 2 ≤ (1 - c.radius.rhoDecrease) * (eta * D) := by
        calc kappa * D ^ 2 = D * kappa * D := by ring
          _ ≤ (1 - c.radius.rhoDecrease) * eta * D := mul_le_mul_of_nonneg_right h2 hDpos.le
          _ = _ := by ring
      have h4 := mul_le_mul_of_nonneg_left hE (sub_pos.2 hc.rhoLt).le
      have h5 := (abs_le.1 hdiff).1
      linarith
    have hLs : L ≤ D * c.radius.shrinkingFactor := by
      rw [mul_comm]
      exact (min_le_right _ _).trans (mul_le_mul_of_nonneg_left hlarge hc.shrinkPos.le)
    exact ⟨(hclip _ hLs).1, Or.inr (hclip _ hLs).2⟩

end step

/-- C117. A run on a criterion `g` without noise that is nowhere below `low`. As long as the models promise an
improvement (`PromisingStep`: at least `eta` per unit of the radius, with an error that is quadratic in the radius)
the run makes progress: it cannot have more than `(p + 1) * k + q` states. Here `k` improvements of
`rho_decrease * eta * leastRadius` lead below `low`, `p` reductions of the radius undo an expansion, and `q` reductions
lead from the start radius below `leastRadius`. -/
theorem C117_iterations_with_a_promise [FloorRing K] {c : Config K} (hc : ProgressOptions c)
    {comp : ComponentsR K n VM SM} (hf : FilterSelectsR comp) {g : Vec K n → K}
    (hdet : ∀ k x, comp.oracle k x = .fin (g x)) {low : K} (hlow : ∀ y, low ≤ g y) {x : Vec K n} {radius : K}
    {bounds : Bounds K n} {r : Run K n VM SM} (hr : tranquiloR c comp x radius bounds = .ok r)
    {eta delta kappa : K} (heta : 0 < eta) (hdelta : 0 < delta) (hkappa : 0 < kappa) (hrad : 0 < radius)
    (hmax : 0 < c.radius.maxRadius) (hmin : c.radius.minRadius ≤ leastRadius c eta delta kappa radius)
    (himp : c.decider.minImprovement ≤ c.radius.rhoDecrease * eta * leastRadius c eta delta kappa radius)
    (hpromise : ∀ s ∈ r.states.tail, leastRadius c eta delta kappa radius ≤ s.trustregion.radius →
      PromisingStep comp.solve eta delta kappa g s) {k p q : Nat}
    (hk : g x - low < k * (c.radius.rhoDecrease * eta * leastRadius c eta delta kappa radius))
    (hp : c.radius.expansionFactor * c.radius.shrinkingFactor ^ p ≤ 1)
    (hq : radius * c.radius.shrinkingFactor ^ q < leastRadius c eta delta kappa radius) :
    r.states.length ≤ (p + 1) * k + q := by
  have hsteps := tranquiloR_steps hf hc.batch hc.decider hdet hr
  have hch := tranquiloR_regions hr
  obtain ⟨hmono, -⟩ := C61_run_that_returns_is_never_worse hf hc.batch hc.improvement hdet (by simp) hr
  set L := leastRadius c eta delta kappa radius with hL
  set dec := c.radius.rhoDecrease * eta * L with hdecdef
  set S := c.radius.shrinkingFactor with hS
  set X := c.radius.expansionFactor with hX
  have hLpos : 0 < L := leastRadius_pos hc heta hdelta hkappa hrad hmax
  have hdec : 0 < dec := mul_pos (mul_pos hc.rhoPos heta) hLpos
  have hLrad : L ≤ radius := (min_le_left _ _).trans (min_le_left _ _)
  -- after `j` iterations
  have key : ∀ j s t, r.states[j]? = some s → NextRegion c j s t → ∃ a b, a + b = j ∧ L ≤ t.radius ∧
      t.radius ≤ radius * (X ^ a * S ^ b) ∧ g s.x ≤ g x - a * dec := by
    intro j
    induction j with
    | zero =>
      intro s t hs ht
      obtain ⟨h1, h2⟩ := hch.first s hs
      have : t.radius = radius := by rw [ht.first rfl, h2]
      exact ⟨0, 0, rfl, by rw [this]; exact hLrad, by rw [this]; simp, by rw [h1]; simp⟩
    | succ j ih =>
      intro s t hs ht
      have hj : j < r.states.length := by
        have := (List.getElem?_eq_some_iff.1 hs).1
        omega
      have hs0 := List.getElem?_eq_getElem hj
      have hnext := hch.next j _ s hs0 hs
      obtain ⟨a, b, hab, h1, h2, h3⟩ := ih _ _ hs0 hnext
      obtain ⟨len, inc, -, hinc, hrad'⟩ := ht.later (Nat.succ_pos j)
      rw [hinc hc.noisy] at hrad'
      have hmem : s ∈ r.states.tail := by
        rw [← List.drop_one]
        refine List.mem_of_getElem? (i := j) ?_
        rw [List.getElem?_drop, Nat.add_comm]
        exact hs
      obtain ⟨s1, s2⟩ := promising_step hc heta hdelta hkappa hrad hmax hmin himp (hsteps s hmem)
        (hpromise s hmem h1) h1 len
      rw [← hrad'] at s1 s2
      have hcen : s.trustregion.center = (r.states[j]).x := hnext.center
      have hpw : g s.x ≤ g (r.states[j]).x := by
        rw [List.pairwise_iff_getElem] at hmono
        obtain ⟨hj', hsj⟩ := List.getElem?_eq_some_iff.1 hs
        have := hmono j (j + 1) hj hj' (Nat.lt_succ_self j)
        rw [hsj] at this
        simpa using this
      rcases s2 with ⟨s2, s3⟩ | s2
      · refine ⟨a + 1, b, by omega, s1, ?_, ?_⟩
        · calc t.radius ≤ s.trustregion.radius * X := s3
            _ ≤ radius * (X ^ a * S ^ b) * X :=
              mul_le_mul_of_nonneg_right h2 (zero_le_one.trans hc.expansion)
            _ = radius * (X ^ (a + 1) * S ^ b) := by ring
        · rw [hcen] at s2
          push_cast
          linarith
      · refine ⟨a, b + 1, by omega, s1, ?_, hpw.trans h3⟩
        calc t.radius ≤ s.trustregion.radius * S := s2
          _ ≤ radius * (X ^ a * S ^ b) * S := mul_le_mul_of_nonneg_right h2 hc.shrinkPos.le
          _ = radius * (X ^ a * S ^ (b + 1)) := by ring
  -- at the end
  have hpos : 0 < r.states.length := List.length_pos_iff.2 hch.nonempty
  have hlast := List.getElem?_eq_getElem (l := r.states) (i := r.states.length - 1) (by omega)
  obtain ⟨a, b, hab, h1, h2, h3⟩ := key _ _ _ hlast (hch.last _ _ hlast (by omega)).2
  have ha : a < k := by
    by_contra hcon
    rw [not_lt] at hcon
    have : (k : K) * dec ≤ a * dec := mul_le_mul_of_nonneg_right (by exact_mod_cast hcon) hdec.le
    have := hlow (r.states[r.states.length - 1]).x
    linarith
  have hb : b < p * a + q := by
    by_contra hcon
    rw [not_lt] at hcon
    have hle : X ^ a * S ^ b ≤ S ^ q := by
      calc X ^ a * S ^ b ≤ X ^ a * S ^ (p * a + q) :=
            mul_le_mul_of_nonneg_left (pow_le_pow_of_le_one hc.shrinkPos.le hc.shrinkLt.le hcon)
              (pow_nonneg (zero_le_one.trans hc.expansion) _)
        _ = (X * S ^ p) ^ a * S ^ q := by rw [pow_add, pow_mul, mul_pow]; ring
        _ ≤ 1 * S ^ q := mul_le_mul_of_nonneg_right
            (pow_le_one₀ (mul_nonneg (zero_le_one.trans hc.expansion) (pow_nonneg hc.shrinkPos.le _)) hp)
            (pow_nonneg hc.shrinkPos.le _)
        _ = S ^ q := one_mul _
    have := mul_le_mul_of_nonneg_left hle hrad.le
    linarith
  have hpa : p * a ≤ p * k := Nat.mul_le_mul_left p ha.le
  have : (p + 1) * k = p * k + k := by ring
  omega

end Tranquilo
