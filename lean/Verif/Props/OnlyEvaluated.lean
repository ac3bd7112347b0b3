import Verif.Lemmas.OnlyEvaluated
import Verif.Props.TranquiloCall

/-!
# C122: only the evaluations of the history matter

All that a run knows of the criterion are the evaluations that its history reports. Criteria that agree there lead to
the same run.
-/

namespace Tranquilo

variable {K O : Type} [Field K] [LinearOrder K] {n m : Nat}

omit [LinearOrder K] in
theorem vectors_agree {F F' : Nat → Vec K n → Fin m → XVal K} {L log : Log K n}
    (h : ∀ k y, L.EvaluatedAt k y → F' k y = F k y) (hl : log.Ext L) (i : Nat) :
    log.vectors F' i = log.vectors F i := by
  unfold Log.vectors
  apply List.filterMap_congr
  intro k hk
  cases h1 : log.evals[k]? with
  | none => rfl
  | some p =>
    cases h2 : log.xs[i]? with
    | none => rfl
    | some x =>
      dsimp only
      by_cases hp : p.1 = i
      · rw [if_pos hp, if_pos hp]
        rw [h k x ⟨p.1, p.2, prefix_getElem? hl.2 h1, prefix_getElem? hl.1 (hp ▸ h2)⟩]
      · rw [if_neg hp, if_neg hp]

variable [FloorRing K]

/-- C122. Two calls that differ in the criterion only: if the two criteria return the same at all evaluations that the
first call made, then the second call does the same as the first one, from the first to the last evaluation. -/
theorem C122_same_evaluations_same_run {env : PyEnv K O} {ext : Externals K O n m} {f f' : Criterion K n m}
    {a : Arguments K O (Option (Piece K n))} {x : Vec K n} {bounds : Bounds K n}
    {r : Run K n (VectorModel K n m) (ScalarModel K n)}
    (hr : tranquiloCall env (ext.withCriterion f) a x bounds = .ok (some r)) (hvalue : f'.value = f.value)
    (h : ∀ k y, r.log.EvaluatedAt k y → f'.residuals k y = f.residuals k y) :
    tranquiloCall env (ext.withCriterion f') a x bounds = .ok (some r) := by
  unfold tranquiloCall at hr ⊢
  obtain ⟨p, hp, hr⟩ := bindOk hr
  have hp' : processArguments env (pieces (ext.withCriterion f')) { a with x := List.ofFn x } = .ok p := hp
  rw [hp', except_ok_bind]
  cases hc : callConfig p with
  | none => rw [hc] at hr; cases hr
  | some c =>
  cases hb : callSettings (ext.withCriterion f) p with
  | none => rw [hc, hb] at hr; cases hr
  | some b =>
  cases hq : numOf p.radiusOptions "initial_radius" with
  | none => rw [hc, hb, hq] at hr; cases hr
  | some radius =>
  rw [hc, hb, hq] at hr
  dsimp only at hr
  obtain ⟨r', hr1, hr2⟩ := except_map_ok.1 hr
  cases hr2
  obtain ⟨b', hb', hbb⟩ : ∃ b', callSettings (ext.withCriterion f') p = some b' ∧
      AgreeOn r.log (builtinComponents b) (builtinComponents b') := by
    unfold callSettings at hb ⊢
    simp only [Option.bind_eq_bind, Option.bind_eq_some_iff, Option.pure_def, Option.some.injEq] at hb ⊢
    obtain ⟨v1, e1, v2, e2, v3, e3, v4, e4, v5, e5, v6, e6, v7, e7, v8, e8, v9, e9, rfl⟩ := hb
    refine ⟨_, ⟨v1, e1, v2, e2, v3, e3, v4, e4, v5, e5, v6, e6, v7, e7, v8, e8, v9, e9, rfl⟩, ?_⟩
    have hdata : ∀ log : Log K n, log.Ext r.log → (ext.withCriterion f').data log = (ext.withCriterion f).data log := by
      intro log hl
      funext i j
      show XVal.mean ((log.vectors f'.residuals i).map _) = XVal.mean ((log.vectors f.residuals i).map _)
      rw [vectors_agree h hl]
    have hstart : ∀ log : Log K n, log.Ext r.log →
        (ext.withCriterion f').start log = (ext.withCriterion f).start log := by
      intro log hl
      funext j
      simp only [Externals.withCriterion, vectors_agree h hl]
    have hfvecs : ∀ log : Log K n, log.Ext r.log →
        (ext.withCriterion f').fvecs log = (ext.withCriterion f).fvecs log := by
      intro log hl
      funext i
      exact vectors_agree h hl i
    refine ⟨rfl, rfl, rfl, rfl, rfl, ?_, fun _ _ _ => rfl, fun _ _ _ _ => rfl, ?_, ?_, fun _ _ => rfl, ?_⟩
    · intro k y hy
      show f'.value (f'.residuals k y) = f.value (f.residuals k y)
      rw [hvalue, h k y hy]
    · intro log hl
      funext is region old
      simp only [builtinComponents, builtinFit, hdata log hl]
      rfl
    · intro log hl
      funext region
      simp only [builtinComponents, builtinInit, hstart log hl]
    · intro it log hl
      funext xs vm old region
      simp only [builtinComponents, builtinRhoNoise, hfvecs log hl]
      rfl
  rw [hb']
  dsimp only
  rw [tranquiloR_agree hr1 hbb]
  rfl

/-- C122. What a run reports can not rule out any value at a point that it did not evaluate: for every such point and
every vector there is a criterion with this vector there that leads to the same run. -/
theorem C122_nothing_known_elsewhere {env : PyEnv K O} {ext : Externals K O n m} {f : Criterion K n m}
    {a : Arguments K O (Option (Piece K n))} {x : Vec K n} {bounds : Bounds K n}
    {r : Run K n (VectorModel K n m) (ScalarModel K n)}
    (hr : tranquiloCall env (ext.withCriterion f) a x bounds = .ok (some r)) {y : Vec K n}
    (hy : ∀ k, ¬ r.log.EvaluatedAt k y) (v : Fin m → XVal K) :
    ∃ f' : Criterion K n m, f'.value = f.value ∧ (∀ k, f'.residuals k y = v) ∧
      (∀ k z, z ≠ y → f'.residuals k z = f.residuals k z) ∧
      tranquiloCall env (ext.withCriterion f') a x bounds = .ok (some r) := by
  refine ⟨⟨fun k z => if z = y then v else f.residuals k z, f.value⟩, rfl, fun k => if_pos rfl,
    fun k z hz => if_neg hz, ?_⟩
  refine C122_same_evaluations_same_run hr rfl ?_
  intro k z hz
  have : z ≠ y := by rintro rfl; exact hy k hz
  exact if_neg this

/-- In a box without fixed parameters there is more than a list of points. -/
theorem exists_inBounds_notMem [IsStrictOrderedRing K] (hn : 0 < n) {bounds : Bounds K n} {x : Vec K n}
    (hx : InBounds bounds x)
    (hsides : ∀ i l u, bounds.lower i = some l → bounds.upper i = some u → l < u) (l : List (Vec K n)) :
    ∃ y, InBounds bounds y ∧ y ∉ l := by
  let j : Fin n := ⟨0, hn⟩
  obtain ⟨g, hg, hin⟩ : ∃ g : ℕ → K, Function.Injective g ∧
      ∀ t, (∀ a, bounds.lower j = some a → a ≤ g t) ∧ ∀ b, bounds.upper j = some b → g t ≤ b := by
    cases hl : bounds.lower j with
    | none =>
      cases hu : bounds.upper j with
      | none => exact ⟨fun t => t, Nat.cast_injective, fun t => ⟨fun a h => (by cases h), fun b h => (by cases h)⟩⟩
      | some u =>
        refine ⟨fun t => u - t, fun s t h => ?_, fun t => ⟨fun a h => (by cases h), fun b h => ?_⟩⟩
        · exact Nat.cast_injective (R := K) (by linarith [show u - (s : K) = u - t from h])
        · cases h
          have : (0 : K) ≤ t := Nat.cast_nonneg t
          linarith
    | some a =>
      cases hu : bounds.upper j with
      | none =>
        refine ⟨fun t => a + t, fun s t h => ?_, fun t => ⟨fun b h => ?_, fun b h => by cases h⟩⟩
        · exact Nat.cast_injective (R := K) (by linarith [show a + (s : K) = a + t from h])
        · cases h
          have : (0 : K) ≤ t := Nat.cast_nonneg t
          linarith
      | some u =>
        have hau : 0 < u - a := sub_pos.2 (hsides j a u hl hu)
        refine ⟨fun t => a + (u - a) / (t + 1), fun s t h => ?_, fun t => ⟨fun b h => ?_, fun b h => ?_⟩⟩
        · have h0 : (u - a) / ((s : K) + 1) = (u - a) / (t + 1) := by
            linarith [show a + (u - a) / ((s : K) + 1) = a + (u - a) / (t + 1) from h]
          have hs : (0 : K) < s + 1 := by positivity
          have ht : (0 : K) < t + 1 := by positivity
          rw [div_eq_div_iff hs.ne' ht.ne'] at h0
          have := mul_left_cancel₀ hau.ne' h0
          exact Nat.cast_injective (R := K) (by linarith)
        · cases h
          have : 0 ≤ (u - a) / ((t : K) + 1) := by positivity
          linarith
        · cases h
          have : (u - a) / ((t : K) + 1) ≤ u - a := div_le_self hau.le (by
            have : (0 : K) ≤ t := Nat.cast_nonneg t
            linarith)
          linarith
  have hinj : Function.Injective fun t => Function.update x j (g t) := fun s t h => by
    have := congrFun h j
    simp only [Function.update_self] at this
    exact hg this
  obtain ⟨y, ⟨t, rfl⟩, hy⟩ := (Set.infinite_range_of_injective hinj).exists_notMem_finset
    l.toFinset
  refine ⟨_, fun i => ?_, fun h => hy (List.mem_toFinset.2 h)⟩
  by_cases hi : i = j
  · subst hi
    simp only [Function.update_self]
    exact hin t
  · simp only [Function.update_of_ne hi]
    exact hx i

/-- C122. No result is a certificate: after every call there is a point within the bounds at which the criterion may
have any value, without a trace in the result. -/
theorem C122_no_certificate [IsStrictOrderedRing K] {env : PyEnv K O} {ext : Externals K O n m} {f : Criterion K n m}
    {a : Arguments K O (Option (Piece K n))} {x : Vec K n} {bounds : Bounds K n} (hn : 0 < n) (hx : InBounds bounds x)
    (hsides : ∀ i l u, bounds.lower i = some l → bounds.upper i = some u → l < u)
    {r : Run K n (VectorModel K n m) (ScalarModel K n)}
    (hr : tranquiloCall env (ext.withCriterion f) a x bounds = .ok (some r)) :
    ∃ y, InBounds bounds y ∧ ∀ v : Fin m → XVal K, ∃ f' : Criterion K n m, f'.value = f.value ∧
      (∀ k, f'.residuals k y = v) ∧ (∀ k z, z ≠ y → f'.residuals k z = f.residuals k z) ∧
      tranquiloCall env (ext.withCriterion f') a x bounds = .ok (some r) := by
  obtain ⟨y, hy, hmem⟩ := exists_inBounds_notMem hn hx hsides r.log.xs
  exact ⟨y, hy, C122_nothing_known_elsewhere hr fun k ⟨i, v, _, h⟩ => hmem (List.mem_of_getElem? h)⟩

/-- C122, example: the sum of squares of two parameters, as a sum of squares of residuals, with bounds. -/
example (env : PyEnv ℝ Unit) : ∃ r, tranquiloCall env
    (plainExternals.withCriterion ⟨fun _ x j => .fin (x j), fun v => v 0 * v 0 + v 1 * v 1⟩)
    ({ functype := "least_squares" } : CallOptions ℝ).arguments (fun _ => 1 / 2)
    ⟨fun _ => some (-1), fun _ => some 1⟩ = .ok (some r) := by
  obtain ⟨r, h1, -⟩ := C106_call_returns_partial env
    (plainExternals.withCriterion ⟨fun _ x j => .fin (x j), fun v => v 0 * v 0 + v 1 * v 1⟩)
    ⟨plainExternals_spec.zero, plainExternals_spec.root, plainExternals_spec.radial, plainExternals_spec.cubeRadius,
      plainExternals_spec.dimRoot, plainExternals_spec.rng, plainExternals_spec.minimize, plainExternals_spec.scipy⟩
    { functype := "least_squares" }
    { functype := Or.inr (Or.inr rfl), cores := by norm_num, batch := fun _ h => (by cases h)
      factor := fun _ h => (by cases h)
      perPoint := fun _ h => (by cases h), atStart := fun k h => (by cases h)
      sampler := Or.inr (Or.inr rfl)
      filter := fun _ h => (by cases h)
      fitter := fun _ h => (by cases h)
      cube := Or.inr rfl
      sphere := Or.inr (Or.inl rfl), decider := fun _ h => (by cases h) } (fun h => by simp at h)
    (fun h => by cases h) (fun _ => 1 / 2) ⟨0, by norm_num⟩
    ⟨fun _ => some (-1), fun _ => some 1⟩ (Or.inr fun _ _ _ _ h => by cases h)
    (fun i => ⟨fun l h => (by cases h; norm_num), fun u h => (by cases h; norm_num)⟩)
    (fun i l u hl hu => by cases hl; cases hu; norm_num)
  exact ⟨r, h1⟩

end Tranquilo
