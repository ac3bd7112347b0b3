import Verif.Spec.SaneCall
import Verif.Props.CallUses

/-!
# C119: a call that raises does so before the first evaluation
-/

namespace Tranquilo

variable {K O : Type} [Field K] [LinearOrder K] [FloorRing K] {n m : Nat}

theorem UsesAll.get {env : PyEnv K O} {user : Option (UserOptions K O)}
    {table : List (String × PyVal K O × PyVal K O)} (h : UsesAll env user table) {name : String}
    {default w : PyVal K O} (hm : (name, default, w) ∈ table) : Uses env user name default w := h _ hm

/-- A truth value is read in one way. -/
theorem ReadsBool.unique [IsStrictOrderedRing K] {env : PyEnv K O} {v : PyVal K O} {b : Bool}
    (h : ReadsBool env v b) : b = toBool env v := by
  unfold ReadsBool at h
  cases h with
  | bool => rfl
  | noneToBool => rfl
  | intToBool _ i => rfl
  | fltToBool => rfl
  | nonfiniteToBool _ y hy => cases y <;> simp_all [toBool, XVal.isFinite]
  | strToBool => rfl
  | objToBool => rfl

theorem safe_of_sane [IsStrictOrderedRing K] (env : PyEnv K O) (ext : Externals K O n m) (hext : ext.Spec)
    (a : Arguments K O (Option (Piece K n))) (x : Vec K n) (bounds : Bounds K n) (hs : SaneCall env ext a x bounds)
    (hball : (∀ y, InBounds bounds y) ∨ ∀ s, a.sphereSubsolver = .str s → ext.StaysInBall s)
    (hsides : ∀ i l u, bounds.lower i = some l → bounds.upper i = some u → l < u)
    (c : Config K) (b : BuiltinSettings K n m) (radius : K) (h : CallUses env ext a x c b radius)
    (hfactor : 0 ≤ c.searchRadiusFactor) : SafeSettings c b bounds ∧ SafeConfig c bounds ∧ 0 < radius := by
  obtain ⟨initial, hi1, -, hrad⟩ := h.radius
  obtain ⟨n1, n2, n3, n4, n5, -, -, n6, -⟩ := h.numpy
  obtain ⟨c1, c2, c3, c4⟩ := h.criterion
  obtain ⟨ss, hss⟩ := hs.sampler
  obtain ⟨sph, hsph⟩ := hs.sphere
  obtain ⟨sc, hsc⟩ := hs.cube
  have hretry : b.retry = true := h.retry.unique.trans hs.retry.unique.symm
  obtain ⟨d1, hd1, -⟩ := h.sphere sph hsph
  -- the decider
  have hdec : ∃ s, requestedName a.acceptanceDecider (if c.noisy then "noisy" else "classic") = some s ∧
      (c.noisy = true → s = "noisy" ∨ s = "naive_noisy") ∧ (c.noisy = false → s ≠ "noisy") ∧
      (s = "classic_line_search" → a.acceptanceDecider = some (.str "classic_line_search")) ∧
      DeciderIs env ext a.acceptanceDeciderOptions s c.decider := by
    rcases hs.decider with hd | ⟨s, hd⟩
    · refine ⟨_, by rw [hd]; rfl, ?_, ?_, ?_, h.decider _ (by rw [hd]; rfl)⟩
      · intro hn; rw [if_pos hn]; exact Or.inl rfl
      · intro hn; rw [hn]; decide
      · intro hl; split at hl <;> exact absurd hl (by decide)
    · have hD := h.decider s (by rw [hd]; rfl)
      refine ⟨s, by rw [hd]; rfl, fun hn => ?_, fun hn hsn => ?_, fun hsn => by rw [hd, hsn], hD⟩
      · have hno := (hs.noise (hn ▸ h.noisy)).2.1
        have hnl : a.acceptanceDecider ≠ some (.str "classic_line_search") := fun hl => by
          have h1 := (hs.lineSearch hl).1.unique
          rw [← h.noisy.unique, hn] at h1
          cases h1
        rw [hd] at hno hnl
        generalize c.decider = D at hD
        cases hD with
        | classic => exact absurd rfl hno
        | naiveNoisy => exact Or.inr rfl
        | noisy => exact Or.inl rfl
        | lineSearch => exact absurd rfl hnl
      · exact hs.noNoise (hn ▸ h.noisy) (by rw [hd, hsn])
  obtain ⟨sd, hsd, hdn, hdq, hdl, hD⟩ := hdec
  refine ⟨?_, ?_, hs.initialRadius initial radius hi1 (hrad.get (by simp [radiusTable]))⟩
  · exact
    { zero := n1 ▸ hext.zero
      root := n2 ▸ hext.root
      radial := n3 ▸ hext.radial
      cubeRadius := n4 ▸ hext.cubeRadius
      dimRoot := n5 ▸ hext.dimRoot
      rng := n6 ▸ hext.rng
      filter := by
        obtain ⟨s, hF⟩ : ∃ s, FilterIs env a.sampleFilterOptions s b.filter := by
          rcases hs.filter with hf | ⟨s, hf⟩
          · exact ⟨_, h.filter _ (by rw [hf]; rfl)⟩
          · exact ⟨s, h.filter s (by rw [hf]; rfl)⟩
        generalize b.filter = F at hF
        cases hF with
        | discardAll => exact trivial
        | keepAll => exact trivial
        | clustering q t hq => exact ⟨hs.strictness q (hq.get (by simp)), hs.shape t (hq.get (by simp))⟩
        | dropExcess q hq => exact hs.nMax q hq
      sampler := by
        have hS := h.sampler ss hss
        generalize b.sampler = S at hS
        cases hS with
        | interior => exact trivial
        | hull d hd => exact hs.distribution d hd
        | optimal d q cr k al ao hd => exact ⟨hs.distribution d (hd.get (by simp)),
            hs.randomsearch k (hd.get (by simp)), hext.minimize _ _⟩
      aggregator := by
        have hA := h.aggregator
        have hsc := hs.scalar
        generalize a.functype = ft at hA hsc
        generalize b.modelType = mt at hA
        generalize b.aggregator = g at hA
        cases hA with
        | scalar => exact Or.inl ⟨rfl, hsc rfl⟩
        | leastSquares => exact Or.inr (Or.inr (Or.inr rfl))
        | likelihood => exact Or.inr (Or.inr (Or.inl rfl))
      sides := hsides
      noise := fun hn => by
        obtain ⟨hfin, -, hstart, hmm, ⟨sv, hsv⟩, hdist, hmin, hdraws⟩ := hs.noise (hn ▸ h.noisy)
        have hV := h.variance sv hsv
        exact
        { repeats := by
            refine ⟨?_, ?_⟩
            · rcases h.atStart with ⟨-, h1⟩ | h1
              · rw [h1, if_pos hn]; norm_num
              · exact_mod_cast hstart _ h1
            · generalize c.decider = D at hD
              have hname := hdn hn
              cases hD with
              | classic => exact absurd hname (by decide)
              | lineSearch => exact absurd hname (by decide)
              | noisy mi q1 q2 k l hu =>
                exact Or.inr ⟨_, _, _, _, _, rfl, hmm k l (hu.get (by simp)) (hu.get (by simp))⟩
              | naiveNoisy mi => exact Or.inl ⟨_, rfl⟩
          distance := hdist _ (hV.get (by simp))
          minEvals := hmin _ (hV.get (by simp))
          draws := hdraws _ (h.noise.get (by simp [noiseTable]))
          finite := c1 ▸ hfin.finite
          rows := c4 ▸ hfin.rows
          finiteRows := c4 ▸ hfin.finiteRows }
      values := fun mi rf hl => by
        rw [hl] at hD
        have hline : sd = "classic_line_search" := by cases hD; rfl
        rcases (hs.lineSearch (hdl hline)).2 with h1 | ⟨-, h1, -⟩
        · exact Or.inl (by exact_mod_cast h1 _ h.batchSize)
        · exact Or.inr (c1 ▸ h1)
      sphere := fun model hm => by
        rw [hretry, h.fallbacks.1]
        exact (C98_fallback_solvers_return ext.root ext.scipy _ model hm _).1
      cube := fun model hm x _ => by
        rw [hretry, h.fallbacks.2]
        exact (C98_fallback_solvers_return ext.root ext.scipy _ model hm x).2
      ball := hball.imp id fun hball model hm x raw => by
        rw [hd1, h.fallbacks.1]
        exact ⟨hball _ hsph _ model x raw, C52_inscribed_cube ext.root hext.root ext.scipy hext.scipy model x raw⟩ }
  · exact
    { batch := by exact_mod_cast hs.batch _ h.batchSize
      search := hfactor
      minRadius := hs.minRadius _ (hrad.get (by simp [radiusTable]))
      maxRadius := hs.maxRadius _ (hrad.get (by simp [radiusTable]))
      ratio := hs.ratio _ (hrad.get (by simp [radiusTable]))
      noise := fun mi zc zp k l hd => by
        rw [hd] at hD
        have hsn : sd = "noisy" := by cases hD; rfl
        cases hn : c.noisy with
        | true => rfl
        | false => exact absurd hsn (hdq hn)
      line := fun mi rf hl => by
        rw [hl] at hD
        have hline : sd = "classic_line_search" := by cases hD; rfl
        rcases (hs.lineSearch (hdl hline)).2 with h1 | ⟨h1, -, h2⟩
        · exact Or.inl (by exact_mod_cast h1 _ h.batchSize)
        · refine Or.inr ⟨?_, h1⟩
          cases hD with
          | lineSearch _ _ hu => exact h2 _ (hu.get (by simp)) }

/-- C119: a call of built in components with sane values raises only if the processing of its arguments raises, that is,
before the criterion is evaluated for the first time. Otherwise it returns an evaluated point within the bounds, after
evaluations within the bounds only. The result `none` stands for values that are not modelled (see
`tranquiloCall`). -/
theorem C119_exceptions_come_early [IsStrictOrderedRing K] (env : PyEnv K O) (ext : Externals K O n m)
    (hext : ext.Spec) (a : Arguments K O (Option (Piece K n))) (x : Vec K n) (bounds : Bounds K n)
    (hs : SaneCall env ext a x bounds) (hball : (∀ y, InBounds bounds y) ∨ ∀ s, a.sphereSubsolver = .str s → ext.StaysInBall s) (hx : InBounds bounds x)
    (hsides : ∀ i l u, bounds.lower i = some l → bounds.upper i = some u → l < u) :
    (∃ e, processArguments env (pieces ext) { a with x := List.ofFn x } = .error e ∧
      tranquiloCall env ext a x bounds = .error e) ∨
    tranquiloCall env ext a x bounds = .ok none ∨
    ∃ r, tranquiloCall env ext a x bounds = .ok (some r) ∧ InBounds bounds r.state.x ∧
      (∀ y ∈ r.log.xs, InBounds bounds y) ∧ r.log.xs[r.state.index]? = some r.state.x ∧
      ∃ i, ReadsInt env a.maxIter i ∧ (r.states.length : ℤ) ≤ max i 0 + 1 := by
  cases hp : processArguments env (pieces ext) { a with x := List.ofFn x } with
  | error e => exact Or.inl ⟨e, rfl, by unfold tranquiloCall; rw [hp]; rfl⟩
  | ok p =>
    right
    have hcall : tranquiloCall env ext a x bounds =
        (match callConfig p, callSettings ext p, numOf p.radiusOptions "initial_radius" with
        | some c, some b, some radius => (tranquiloR c (builtinComponents b) x radius bounds).map some
        | _, _, _ => .ok none) := by
      unfold tranquiloCall
      rw [hp]
      rfl
    rw [hcall]
    cases hc : callConfig p with
    | none => exact Or.inl rfl
    | some c =>
      cases hb : callSettings ext p with
      | none => exact Or.inl rfl
      | some b =>
        cases hr : numOf p.radiusOptions "initial_radius" with
        | none => exact Or.inl rfl
        | some radius =>
          right
          have hu := call_uses env ext a x p hp c hc b hb radius hr
          have hfactor : 0 ≤ c.searchRadiusFactor := by
            rcases (C59_accepted_arguments_partial env (pieces ext) _ p hp).2.2.2.1 with ⟨q, hq, hq0⟩ | hq
            · simp only [callConfig, Option.bind_eq_bind, Option.bind_eq_some_iff] at hc
              obtain ⟨conv, -, rad, -, nz, -, st, -, bs, -, ts, -, q', hq', npp, -, nst, -, dec, -, hcc⟩ := hc
              cases hcc
              rw [hq] at hq'
              cases hq'
              exact hq0.le
            · simp only [callConfig, Option.bind_eq_bind, Option.bind_eq_some_iff] at hc
              obtain ⟨conv, -, rad, -, nz, -, st, -, bs, -, ts, -, q', hq', npp, -, nst, -, dec, -, hcc⟩ := hc
              rcases hq with hq | hq <;> rw [hq] at hq' <;> cases hq'
          obtain ⟨h1, h2, h3⟩ := safe_of_sane env ext hext a x bounds hs hball hsides c b radius hu hfactor
          obtain ⟨r, r1, r2, r3, r4, r5, -⟩ := C98_builtin_run_partial h1 h2 x hx radius h3
          obtain ⟨i, hi, him⟩ := hu.maxIter
          refine ⟨r, ?_, r2, r3, r4, i, hi, ?_⟩
          · dsimp only
            rw [r1]
            rfl
          · rw [← him]
            exact_mod_cast r5

end Tranquilo
