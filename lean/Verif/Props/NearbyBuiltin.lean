import Verif.Props.Nearby
import Verif.Props.CallGuarantees
import Verif.Props.CallReturns
import Verif.Props.RunRadius

/-!
# C135 for the built in components and for calls
-/

namespace Tranquilo

variable {K O : Type} [Field K] [LinearOrder K] [IsStrictOrderedRing K] {n m : Nat}

/-! ## The Euclidean norm -/

theorem norm2_le {root : K → K} (hroot : SqrtSpec root) {v : Vec K n} {a : K} (ha : 0 ≤ a) (h : sumSq v ≤ a ^ 2) :
    norm2 root v ≤ a := by
  have hv : dot v v = sumSq v := by
    unfold dot sumSq
    exact Finset.sum_congr rfl fun i _ => by ring
  have h0 : 0 ≤ dot v v := by
    rw [hv]
    exact Finset.sum_nonneg fun i _ => sq_nonneg _
  obtain ⟨h1, h2⟩ := hroot _ h0
  unfold norm2
  refine (sq_le_sq₀ h1 ha).1 ?_
  rw [sq, h2, hv]
  exact h

/-- The Euclidean norm is a norm. -/
theorem norm2_isNorm {root : K → K} (hroot : SqrtSpec root) : IsNorm (norm2 root (n := n)) := by
  have h0 : ∀ v : Vec K n, 0 ≤ dot v v := fun v => Finset.sum_nonneg fun i _ => mul_self_nonneg _
  have hsq : ∀ v : Vec K n, norm2 root v * norm2 root v = dot v v := fun v => (hroot _ (h0 v)).2
  have hnn : ∀ v : Vec K n, 0 ≤ norm2 root v := fun v => (hroot _ (h0 v)).1
  refine ⟨?_, hnn, ?_, ?_⟩
  · have := hsq (fun _ => 0)
    simpa [dot] using this
  · intro v w
    refine (sq_le_sq₀ (hnn _) (add_nonneg (hnn v) (hnn w))).1 ?_
    have hcs : dot v w ≤ norm2 root v * norm2 root w := by
      refine abs_le_of_sq_le_sq' ?_ (mul_nonneg (hnn v) (hnn w)) |>.2
      have := Finset.sum_mul_sq_le_sq_mul_sq Finset.univ v w
      have e1 : ∑ i, v i ^ 2 = dot v v := Finset.sum_congr rfl fun i _ => by ring
      have e2 : ∑ i, w i ^ 2 = dot w w := Finset.sum_congr rfl fun i _ => by ring
      rw [e1, e2, ← hsq v, ← hsq w] at this
      calc dot v w ^ 2 ≤ _ := this
        _ = _ := by ring
    have e : dot (fun i => v i + w i) (fun i => v i + w i) = dot v v + 2 * dot v w + dot w w := by
      unfold dot
      rw [Finset.mul_sum, ← Finset.sum_add_distrib, ← Finset.sum_add_distrib]
      exact Finset.sum_congr rfl fun i _ => by ring
    rw [sq, hsq, e, ← hsq v, ← hsq w]
    nlinarith
  · intro a ha v
    have e : dot (fun i => a * v i) (fun i => a * v i) = a * a * dot v v := by
      unfold dot
      rw [Finset.mul_sum]
      exact Finset.sum_congr rfl fun i _ => by ring
    have h1 := hsq (fun i => a * v i)
    rw [e, ← hsq v] at h1
    have h2 := hnn (fun i => a * v i)
    have h3 := mul_nonneg ha (hnn v)
    rcases mul_self_eq_mul_self_iff.1 (h1.trans (by ring :
      a * a * (norm2 root v * norm2 root v) = a * norm2 root v * (a * norm2 root v))) with h | h
    · exact h
    · linarith

/-! ## The built in components -/

theorem withinRadii_of_ball {b : BuiltinSettings K n m} {bounds : Bounds K n} {q : K} (h : NearSettings b bounds q)
    {region : Region K n} (hr : 0 ≤ region.radius) {y : Vec K n} (hy : InBallSq region.center (q * region.radius) y) :
    WithinRadii b.nrm q region y := by
  unfold WithinRadii
  rw [h.norm]
  exact norm2_le h.root (mul_nonneg (zero_le_one.trans h.one_le) hr) hy

theorem withinRadii_of_cube {b : BuiltinSettings K n m} {bounds : Bounds K n} {q : K} (h : NearSettings b bounds q)
    {region : Region K n} (hr : 0 ≤ region.radius) {y : Vec K n}
    (hy : ∀ i, |y i - region.center i| ≤ b.cubeRadius region.radius) : WithinRadii b.nrm q region y := by
  refine withinRadii_of_ball h hr ?_
  unfold InBallSq
  refine le_trans ?_ (h.cubeRadius _ hr).2
  unfold sumSq
  have : ∀ i ∈ (Finset.univ : Finset (Fin n)), (y i - region.center i) ^ 2 ≤ b.cubeRadius region.radius ^ 2 :=
    fun i _ => sq_le_sq' (neg_le_of_abs_le (hy i)) (le_of_abs_le (hy i))
  have := Finset.sum_le_card_nsmul _ _ _ this
  simpa [nsmul_eq_mul] using this

theorem withinRadii_of_feasible {b : BuiltinSettings K n m} {bounds : Bounds K n} {q : K} (h : NearSettings b bounds q)
    {region : Region K n} (hr : 0 ≤ region.radius) {y : Vec K n} (hy : InFeasibleRegion b.cubeRadius region y) :
    WithinRadii b.nrm q region y := by
  unfold InFeasibleRegion at hy
  cases hs : region.shape with
  | sphere =>
    simp only [hs] at hy
    refine withinRadii_of_ball h hr (le_trans hy ?_)
    have h1 := h.one_le
    exact pow_le_pow_left₀ hr (by nlinarith) 2
  | cube =>
    simp only [hs] at hy
    exact withinRadii_of_cube h hr hy.2

/-- The built in samplers and the template of the subproblem solvers stay near the center. -/
theorem builtin_staysNear [FloorRing K] {b : BuiltinSettings K n m} {bounds : Bounds K n} {q : K}
    (h : NearSettings b bounds q) : StaysNear (builtinComponents b) bounds q := by
  constructor
  · intro it round log region k xs ys hb hc hr hy y hmem
    subst hb
    have hcr := (h.cubeRadius _ hr).1
    have hrows : ∀ (rows : List (Row K n)), (RowsSatisfy rows k fun x => InFeasibleRegion b.cubeRadius region x ∧
        InBounds region.bounds x) → allRows rows = some ys →
        InBounds region.bounds y ∧ WithinRadii b.nrm q region y := by
      rintro rows ⟨-, h2⟩ hall
      obtain ⟨us, rfl, hus⟩ := exists_some_list h2
      rw [allRows_map_some] at hall
      cases hall
      exact ⟨(hus y hmem).2, withinRadii_of_feasible h hr (hus y hmem).1⟩
    have hs := h.sampler
    change builtinSampleR b it round log region k xs = .ok ys at hy
    unfold builtinSampleR at hy
    cases hcase : b.sampler with
    | randomInterior =>
      obtain ⟨rows, h1, h2⟩ := C53_interior b.root b.radial b.cubeRadius h.root h.radial region hc hr hcr
        (b.rng it round log) (h.rng _ _ _) k
      simp only [hcase, h1, bind, Except.bind] at hy
      cases hall : allRows rows with
      | none =>
        rw [hall] at hy
        cases hy
      | some us =>
        rw [hall] at hy
        cases hy
        exact hrows rows h2 hall
    | randomHull d =>
      rw [hcase] at hs
      obtain ⟨rows, h1, h2⟩ := C53_hull b.root b.cubeRadius h.root region hc hr hcr (b.rng it round log)
        (h.rng _ _ _) d hs k
      simp only [hcase, h1, bind, Except.bind] at hy
      cases hall : allRows rows with
      | none =>
        rw [hall] at hy
        cases hy
      | some us =>
        rw [hall] at hy
        cases hy
        exact hrows rows ⟨h2.1, fun p hp => (h2.2 p hp).imp fun x hx => ⟨hx.1, hx.2.1.1, hx.2.2⟩⟩ hall
    | optimalHull o =>
      rw [hcase] at hs
      obtain ⟨rows, info, h1, h2⟩ := C53_optimal_partial b.root b.cubeRadius h.root region hc hr hcr
        (b.rng it round log) (h.rng _ _ _) o hs.1 hs.2.1 hs.2.2 (some xs) k
      simp only [hcase, h1, bind, Except.bind, Except.map] at hy
      cases hall : allRows rows with
      | none =>
        rw [hall] at hy
        cases hy
      | some us =>
        rw [hall] at hy
        cases hy
        exact hrows rows ⟨h2.1, fun p hp => (h2.2 p hp).imp fun x hx => ⟨hx.1, hx.2.1.1, hx.2.2⟩⟩ hall
  · intro model region sub hb hc hr hsub
    subst hb
    have hcr := (h.cubeRadius _ hr).1
    obtain ⟨res, hres, rfl⟩ := except_map_ok.1 (show builtinSolve b model region = .ok sub from hsub)
    cases hs : region.shape with
    | cube =>
      obtain ⟨h1, h2⟩ := C40_box b.cubeRadius b.sphere b.cube b.fallbackSphere b.fallbackCube b.retry model region hs
        hc hcr res hres
      exact ⟨h1, withinRadii_of_cube h hr h2⟩
    | sphere =>
      by_cases hno : ∀ y, InBounds region.bounds y
      · have hq := h.one_le
        have hle : ∀ x raw, (b.sphere model x = .ok raw ∨ b.fallbackSphere model x = .ok raw) →
            sumSq raw.x ≤ (1 + (q - 1)) ^ 2 := by
          intro x raw hx
          rw [add_sub_cancel]
          rcases h.ball model x raw hx with h1 | h1
          · nlinarith
          · exact h1.2
        have := (C40_ball_partial b.cubeRadius b.sphere b.cube b.fallbackSphere b.fallbackCube b.retry model region hs
          hr hc (q - 1) (by linarith) (fun x raw hx => hle x raw (.inl hx)) (fun x raw hx => hle x raw (.inr hx)) res
          hres).1
        rw [add_sub_cancel, mul_comm] at this
        exact ⟨hno _, withinRadii_of_ball h hr this⟩
      · have hle : ∀ x raw, (b.sphere model x = .ok raw ∨ b.fallbackSphere model x = .ok raw) →
            sumSq raw.x ≤ (1 + 0) ^ 2 := by
          intro x raw hx
          rcases h.ball model x raw hx with h1 | h1
          · simpa using h1
          · exact absurd h1.1 hno
        obtain ⟨h1, h2⟩ := C40_ball_partial b.cubeRadius b.sphere b.cube b.fallbackSphere b.fallbackCube b.retry model
          region hs hr hc 0 le_rfl (fun x raw hx => hle x raw (.inl hx)) (fun x raw hx => hle x raw (.inr hx)) res hres
        refine ⟨h2 rfl, withinRadii_of_feasible h hr ?_⟩
        simp only [InFeasibleRegion, hs]
        simpa using h1

/-- C135 for the built in components. -/
theorem C135_builtin_run [FloorRing K] {c : Config K} {b : BuiltinSettings K n m} {bounds : Bounds K n} {q reach : K}
    (h : NearSettings b bounds q) (hreach : Reach c bounds reach) (hlim : RadiusLimitsOk c.radius) {x : Vec K n}
    (hx : InBounds bounds x) {radius : K} (hr0 : 0 ≤ radius) {r : Run K n (VectorModel K n m) (ScalarModel K n)}
    (hr : tranquiloR c (builtinComponents b) x radius bounds = .ok r) :
    ∀ y ∈ r.log.xs, (∃ s ∈ r.states, WithinRadii (norm2 b.root) (reach * q) s.trustregion y) ∧
      norm2 b.root (fun i => y i - x i) ≤ reach * q * sumRadii r.states := by
  have hn : IsNorm (builtinComponents b).nrm := by
    show IsNorm b.nrm
    rw [h.norm]
    exact norm2_isNorm h.root
  have := C135_evaluations_stay_near hn (builtin_filterSelectsR b) (zero_le_one.trans h.one_le) hreach hlim
    (builtin_staysNear h) hx hr0 hr
  intro y hy
  have hy := this y hy
  have e : (builtinComponents b).nrm = norm2 b.root := h.norm
  rw [e] at hy
  exact hy

/-! ## Calls -/

/-- C135 for calls: no evaluation is farther from the start vector than `max_iter` times the largest radius, times the
factors of the line search and of the solver for balls. The conditions on the arguments are those of C119; `q` is
the factor of the solver for balls, which is one unless the solver leaves the ball, and of the corners of the cube
that replaces the ball near the bounds. -/
theorem C135_call [FloorRing K] (env : PyEnv K O) (ext : Externals K O n m) (hext : ext.Spec)
    (hnorm : ext.nrm = norm2 ext.root) {q : K} (hq : 1 ≤ q)
    (hcorners : ∀ a, 0 ≤ a → 0 ≤ ext.cubeRadius a ∧ (n : K) * ext.cubeRadius a ^ 2 ≤ (q * a) ^ 2)
    (a : Arguments K O (Option (Piece K n))) (x : Vec K n) (bounds : Bounds K n) (hs : SaneCall env ext a x bounds)
    (hball : ∀ s, a.sphereSubsolver = .str s → ext.StaysInBall s ∨ ((∀ y, InBounds bounds y) ∧
      ∀ options model z raw, ext.solver s options model z = .ok raw → sumSq raw.x ≤ q ^ 2))
    (hx : InBounds bounds x)
    (hsides : ∀ i l u, bounds.lower i = some l → bounds.upper i = some u → l < u)
    {reach : K} (hreach : (a.acceptanceDecider ≠ some (.str "classic_line_search") ∧ reach = 1) ∨
      ((∀ y, InBounds bounds y) ∧ 8 ≤ reach ∧ ∀ rf, Uses env a.acceptanceDeciderOptions
        "speculative_sampling_radius_factor" (num (3 / 4)) (num rf) → 0 ≤ rf ∧ 1 + rf ≤ reach))
    {top : K}
    (hinitial : ∀ initial p, (∀ i, |x i| / 10 ≤ initial) → (∃ i, initial = |x i| / 10) →
      Uses env a.radiusOptions "initial_radius" (num initial) (num p) → p ≤ top)
    (hlimits : ∀ p p', Uses env a.radiusOptions "min_radius" (num (1 / 10 ^ 6)) (num p) →
      Uses env a.radiusOptions "max_radius" (num (10 ^ 6)) (num p') → p ≤ p' ∧ p' ≤ top)
    (r : Run K n (VectorModel K n m) (ScalarModel K n)) (hr : tranquiloCall env ext a x bounds = .ok (some r)) :
    ∃ i, ReadsInt env a.maxIter i ∧ ∀ y ∈ r.log.xs,
      norm2 ext.root (fun j => y j - x j) ≤ reach * q * ((max i 0 : ℤ) * top) := by
  have hball' : (∀ y, InBounds bounds y) ∨ ∀ s, a.sphereSubsolver = .str s → ext.StaysInBall s := by
    by_cases hno : ∀ y, InBounds bounds y
    · exact .inl hno
    · exact .inr fun s h => (hball s h).resolve_right fun h => hno h.1
  obtain ⟨i, hi, hlen⟩ : ∃ i, ReadsInt env a.maxIter i ∧ (r.states.length : ℤ) ≤ max i 0 + 1 := by
    rcases C119_exceptions_come_early env ext hext a x bounds hs hball' hx hsides with ⟨e, -, h⟩ | h | ⟨r', h, -, -, -, h'⟩
    · rw [h] at hr
      cases hr
    · rw [h] at hr
      cases hr
    · rw [h] at hr
      injection hr with hr
      injection hr with hr
      subst hr
      exact h'
  refine ⟨i, hi, fun y hy => ?_⟩
  obtain ⟨c, b, radius, hrun, hu⟩ := C118_run_uses_the_arguments env ext a x bounds r hr
  obtain ⟨s1, s2, s3⟩ := safe_of_sane env ext hext a x bounds hs hball' hsides c b radius hu hu.factorPositive.le
  obtain ⟨n1, n2, n3, n4, -⟩ := hu.numpy
  have hnear : NearSettings b bounds q := {
    norm := by rw [n1, n2, hnorm]
    root := s1.root
    radial := s1.radial
    one_le := hq
    cubeRadius := by
      rw [n4]
      exact hcorners
    rng := s1.rng
    sampler := s1.sampler
    ball := by
      rintro model z raw (h | h)
      · obtain ⟨s, hss⟩ := hs.sphere
        obtain ⟨d, hd, -⟩ := hu.sphere s hss
        rw [hd] at h
        rcases hball s hss with hb | ⟨hno, hb⟩
        · exact .inl (hb _ _ _ _ h)
        · exact .inr ⟨hno, hb _ _ _ _ h⟩
      · rw [hu.fallbacks.1] at h
        exact .inl (C52_inscribed_cube _ hext.root _ hext.scipy model z raw h) }
  have hreach' : Reach c bounds reach := by
    obtain ⟨s, hD, hsd⟩ : ∃ s, DeciderIs env ext a.acceptanceDeciderOptions s c.decider ∧
        (s = "classic_line_search" → a.acceptanceDecider = some (.str "classic_line_search")) := by
      rcases hs.decider with h | ⟨s, h⟩
      · refine ⟨_, hu.decider _ (by rw [h]; rfl), ?_⟩
        split_ifs <;> intro h <;> exact absurd h (by decide)
      · exact ⟨s, hu.decider s (by rw [h]; rfl), fun e => by rw [h, e]⟩
    rcases hreach with ⟨h1, h2⟩ | ⟨h1, h2, h3⟩
    · refine .inl ⟨.inl fun mi rf hl => ?_, h2⟩
      rw [hl] at hD
      cases hD
      exact h1 (hsd rfl)
    · refine .inr ⟨h1, h2, fun mi rf hl => ?_⟩
      rw [hl] at hD
      cases hD with
      | lineSearch _ _ hu => exact h3 _ (hu.get (by simp))
  have hlim : RadiusLimitsOk c.radius := ⟨s2.minRadius.le, s2.maxRadius.le, fun p hp => by
    rw [s2.ratio] at hp
    cases hp⟩
  have hone := (C135_builtin_run hnear hreach' hlim hx s3.le hrun y hy).2
  rw [n2] at hone
  refine hone.trans (mul_le_mul_of_nonneg_left ?_
    (mul_nonneg (zero_le_one.trans hreach'.one_le) (zero_le_one.trans hq)))
  obtain ⟨initial, hi1, hi2, hrad⟩ := hu.radius
  obtain ⟨l1, l2⟩ := hlimits c.radius.minRadius c.radius.maxRadius
    (hrad.get (by simp [radiusTable])) (hrad.get (by simp [radiusTable]))
  have hr1 : radius ≤ top := hinitial initial radius hi1 hi2 (hrad.get (by simp [radiusTable]))
  have hall : ∀ s ∈ r.states, s.trustregion.radius ≤ top := by
    intro s hmem
    obtain ⟨k, hk⟩ := List.mem_iff_getElem?.1 hmem
    obtain ⟨c1, c2, -⟩ := C20_radius_in_a_run_partial hrun l1 (fun p hp => by
      rw [s2.ratio] at hp
      cases hp)
    by_cases h : k ≤ 1
    · rw [c1 k s hk h]
      exact hr1
    · exact (c2 k s hk (by omega)).2.trans l2
  refine (sumRadii_le hall).trans (mul_le_mul_of_nonneg_right ?_ (s3.le.trans hr1))
  have : ((r.states.length - 1 : ℕ) : ℤ) ≤ max i 0 := by omega
  exact_mod_cast this

end Tranquilo
