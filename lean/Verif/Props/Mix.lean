import Verif.Lemmas.Mix
import Verif.Props.Reorder

/-!
# C128: only lengths and angles of the residual vectors matter in least squares
-/

namespace Tranquilo

variable {K : Type} [Field K] [LinearOrder K] [IsStrictOrderedRing K] {n m p : Nat}

omit [LinearOrder K] [IsStrictOrderedRing K] in
theorem xfin_sum (l : List K) : (l.map XVal.fin).sum = XVal.fin l.sum := by
  induction l with
  | nil => rfl
  | cons a l ih => rw [List.map_cons, List.sum_cons, ih, List.sum_cons]; rfl

omit [IsStrictOrderedRing K] in
/-- C128. The value that is recorded for an evaluation with finite residuals is the same for the new residuals. -/
theorem C128_criterion_value {q : Mat K p m} (hq : OrthonormalColumns q) (r : Vec K m) :
    Functype.leastSquares.aggregateRow (List.ofFn (xCombine q fun j => .fin (r j))) =
      Functype.leastSquares.aggregateRow (List.ofFn fun j => (XVal.fin (r j) : XVal K)) := by
  have h : ∀ {N : Nat} (v : Vec K N), Functype.leastSquares.aggregateRow (List.ofFn fun j => (XVal.fin (v j) : XVal K)) =
      .fin (∑ j, v j * v j) := by
    intro N v
    have : (List.ofFn fun j => (XVal.fin (v j) : XVal K)).map (fun v => v * v) =
        (List.ofFn fun j => v j * v j).map XVal.fin := by
      rw [List.map_ofFn, List.map_ofFn]
      rfl
    change ((List.ofFn fun j => (XVal.fin (v j) : XVal K)).map fun v => v * v).sum = _
    rw [this, xfin_sum, List.sum_ofFn]
  have hx : xCombine q (fun j => .fin (r j)) = fun k => (XVal.fin (combine q r k) : XVal K) := by
    funext k
    simp [xCombine, XVal.number, XVal.isFinite]
  rw [hx, h, h, combine_inner hq]

omit [IsStrictOrderedRing K] in
/-- C128. The same for the contributions to a likelihood, if the sum is kept. -/
theorem C128_likelihood_value {q : Mat K p m} (hq : KeepsSum q) (r : Vec K m) :
    Functype.likelihood.aggregateRow (List.ofFn (xCombine q fun j => .fin (r j))) =
      Functype.likelihood.aggregateRow (List.ofFn fun j => (XVal.fin (r j) : XVal K)) := by
  have h : ∀ {N : Nat} (v : Vec K N), Functype.likelihood.aggregateRow (List.ofFn fun j => (XVal.fin (v j) : XVal K)) =
      .fin (∑ j, v j) := by
    intro N v
    have : (List.ofFn fun j => (XVal.fin (v j) : XVal K)) = (List.ofFn v).map XVal.fin := by
      rw [List.map_ofFn]
      rfl
    change (List.ofFn fun j => (XVal.fin (v j) : XVal K)).sum = _
    rw [this, xfin_sum, List.sum_ofFn]
  have hx : xCombine q (fun j => .fin (r j)) = fun k => (XVal.fin (combine q r k) : XVal K) := by
    funext k
    simp [xCombine, XVal.number, XVal.isFinite]
  rw [hx, h, h, combine_total hq]

/-- The built in components for the new residuals. -/
theorem builtin_mix [FloorRing K] (q : Mat K p m) (hm : 0 < m) (b : BuiltinSettings K n m)
    (hq : AggregatorKeeps b.aggregator q) (hl : LstsqSpec b.lstsq) (hd : ∀ h i k, (b.data h i k).isFinite = true) :
    UnitsRespected 1 0 false (fun v v' => v' = v.mix q) (fun s s' => s' = s)
      (builtinComponents b) (builtinComponents (b.mix q)) := by
  have hlog : ∀ h : Log K n, h.rescale 1 0 = h := by
    intro h
    simp only [Log.rescale, XVal.rescale_one_zero, List.map_id']
  refine
    { nrm := rfl
      cubeRadius := rfl
      oracle := fun k x => (XVal.rescale_one_zero _).symm
      filter := ?_
      sample := ?_
      fit := ?_
      aggregate := ?_
      solve := ?_
      initModel := ?_
      gradNorm := ?_
      noiseSigma := fun h => by cases h
      rhoNoise := fun h => by cases h }
  · intro s s' h t k xs is hss
    simp only [builtinComponents, builtinFilter, hss.x, hss.index, hss.trustregion]
    rfl
  · intro it round h reg k xs
    rw [hlog]
    rfl
  · rintro h is reg vm vm' rfl
    rw [hlog]
    have := fitTemplate_mix q hm (hq.rows_pos hm) b hl reg vm
      (fun s : Fin is.length => (h.xs[is[s]]?).getD reg.center) (fun s => b.data h is[s]) fun s k => hd _ _ _
    change SameOutcome _ (builtinFitTemplate b reg vm _ _)
      (builtinFitTemplate (b.mix q) reg (vm.mix q) _ fun s => xCombine q (b.data h is[s]))
    rw [this]
    cases builtinFitTemplate b reg vm (fun s : Fin is.length => (h.xs[is[s]]?).getD reg.center)
      fun s => b.data h is[s] <;> rfl
  · rintro vm vm' rfl
    change SameOutcome _ (aggregate b.aggregator vm) (aggregate b.aggregator (vm.mix q))
    rw [aggregate_mix q hq]
    cases aggregate b.aggregator vm <;> rfl
  · rintro sm sm' reg rfl
    change SameOutcome _ (builtinSolve b sm' reg) (builtinSolve b sm' reg)
    cases builtinSolve b sm' reg with
    | error e => rfl
    | ok s => exact ⟨rfl, (one_mul _).symm⟩
  · intro h reg
    rw [hlog]
    simp [builtinComponents, builtinInit, VectorModel.mix, BuiltinSettings.mix, combine]
  · rintro sm sm' rfl
    exact (one_mul _).symm

/-- C128 with the components that are built in, for all aggregators that do not see the difference. -/
theorem mix_run [FloorRing K] (q : Mat K p m) (hm : 0 < m) (b : BuiltinSettings K n m)
    (hq : AggregatorKeeps b.aggregator q) (hl : LstsqSpec b.lstsq) (hd : ∀ h i k, (b.data h i k).isFinite = true)
    (g : Config K) (hn : g.noisy = false) (x : Vec K n) (radius : K) (bounds : Bounds K n) :
    tranquiloR g (builtinComponents (b.mix q)) x radius bounds =
      (tranquiloR g (builtinComponents b) x radius bounds).map (Run.mix q) := by
  have hlog : ∀ h : Log K n, h.rescale 1 0 = h := by
    intro h
    simp only [Log.rescale, XVal.rescale_one_zero, List.map_id']
  have hg : g.rescale 1 = g := by
    unfold Config.rescale
    cases g with
    | mk noisy conv _ _ _ _ _ _ _ _ _ _ d => cases conv; cases d <;> simp [DeciderChoice.rescale]
  have h := C113_units_of_the_criterion one_pos (d := 0) (RV := fun v v' => v' = v.mix q)
    (RS := fun s s' => s' = s) g (comp := builtinComponents b) (comp' := builtinComponents (b.mix q))
    ⟨.inl ⟨rfl, rfl⟩, fun h => by rw [hn] at h; cases h⟩ (by rw [hn]; exact builtin_mix q hm b hq hl hd) x radius
      bounds
  rw [hg] at h
  have hstate : ∀ {s : LoopState K n (VectorModel K n m) (ScalarModel K n)}
      {s' : LoopState K n (VectorModel K n p) (ScalarModel K n)},
      SameState 1 0 (fun v v' => v' = v.mix q) (fun s s' => s' = s) s s' → s' = s.mix q := by
    intro s s' hs
    cases s'
    have := hs
    obtain ⟨h1, h2, h3, h4, h5, h6, h7, h8, h9, h10, h11, h12, h13, h14, h15, h16, h17, h18⟩ := this
    simp only [XVal.rescale_one_zero] at h9
    simp only at h1 h2 h3 h4 h5 h6 h7 h8 h10 h11 h12 h13 h14 h15 h16 h17 h18
    subst h1 h2 h3 h4 h5 h6 h7 h8 h9 h10 h11 h12 h13 h14 h15 h16 h17 h18
    rfl
  revert h
  cases tranquiloR g (builtinComponents b) x radius bounds with
  | error e =>
    cases tranquiloR g (builtinComponents (b.mix q)) x radius bounds with
    | error e' => intro h; cases h; rfl
    | ok r' => exact fun h => h.elim
  | ok r =>
    cases tranquiloR g (builtinComponents (b.mix q)) x radius bounds with
    | error e' => exact fun h => h.elim
    | ok r' =>
      intro h
      have hstates : r'.states = r.states.map (LoopState.mix q) := by
        have := h.states
        revert this
        generalize r.states = l
        generalize r'.states = l'
        intro h
        induction h with
        | nil => rfl
        | cons h1 _ ih => rw [List.map_cons, ih, hstate h1]
      have h1 := h.log
      rw [hlog] at h1
      have h2 := hstate h.state
      obtain ⟨-, -, -, h4, h5, h6, h7⟩ := h
      cases r'
      simp only at h1 h2 hstates h4 h5 h6 h7
      subst h1 h2 hstates h4 h5 h6 h7
      rfl

/-- C128. In a least squares problem with finite residuals, if the vector of the residuals is multiplied by a matrix
with orthonormal columns, a run without noise is the same: the same exception or none, the same history, the same states,
decisions and messages. Only the stored models of the single residuals are others. -/
theorem C128_geometry_of_residuals [FloorRing K] {q : Mat K p m} (hq : OrthonormalColumns q) (hm : 0 < m)
    (b : BuiltinSettings K n m) (hagg : b.aggregator = "least_squares_linear") (hl : LstsqSpec b.lstsq)
    (hd : ∀ h i k, (b.data h i k).isFinite = true) (g : Config K) (hn : g.noisy = false) (x : Vec K n) (radius : K)
    (bounds : Bounds K n) :
    tranquiloR g (builtinComponents (b.mix q)) x radius bounds =
      (tranquiloR g (builtinComponents b) x radius bounds).map (Run.mix q) :=
  mix_run q hm b (.inl ⟨hagg, hq⟩) hl hd g hn x radius bounds

/-- C128 for calls of the optimizer without noise, with any other arguments. For the contributions to a likelihood it
holds if the new contributions also have the same sum. -/
theorem C128_call [FloorRing K] {O : Type} {q : Mat K p m} (hq : OrthonormalColumns q) (hm : 0 < m)
    (env : PyEnv K O) (ext : Externals K O n m) (hl : LstsqSpec ext.lstsq)
    (hd : ∀ h i k, (ext.data h i k).isFinite = true) (a : Arguments K O (Option (Piece K n)))
    (hn : toBool env a.noisy = false)
    (hf : a.functype = "least_squares" ∨ (a.functype = "likelihood" ∧ KeepsSum q)) (x : Vec K n)
    (bounds : Bounds K n) :
    tranquiloCall env (ext.mix q) a x bounds =
      (tranquiloCall env ext a x bounds).map (Option.map (Run.mix q)) := by
  unfold tranquiloCall
  have hpieces : pieces (ext.mix q) = pieces ext := rfl
  rw [hpieces]
  cases hp : processArguments env (pieces ext) { a with x := List.ofFn x } with
  | error e => rfl
  | ok p =>
    rw [except_ok_bind, except_ok_bind]
    have hset : callSettings (ext.mix q) p = (callSettings ext p).map (BuiltinSettings.mix q) := by
      unfold callSettings
      simp only [Option.bind_eq_bind, Option.map_bind, Option.pure_def, Function.comp_def, Option.map_some]
      rfl
    have hproc : p.noisy = false ∧ AggregatorKeeps p.aggregator q := by
      rw [← hn]
      simp only [processArguments, except_bind_ok] at hp
      obtain ⟨-, -, f1, hf1, f2, hf2, f3, hf3, f4, hf4, f5, hf5, f6, hf6, -, -, maxIter, hmi, maxEval, hme, -, -,
        nCores, hnc, -, -, nStart, hstart, noise, hnoise, nPer, hper, factor, hfactor, batch, hbatch, radius, -,
        ropts, -, mt, hmt, stag, -, size, hsize, fitter, hfitter, res, hres, ft, -, -, -, sampler, -,
        sphere, -, cube, -, filt, -, raw, -, -, -, agg, hagg, est, -, acc, -, hout⟩ := hp
      cases hout
      refine ⟨rfl, ?_⟩
      unfold defaultAggregator at hagg
      rcases hf with hf | ⟨hf, hk⟩
      · rw [hf] at hagg
        simp only [String.reduceEq, false_and, if_false, true_and] at hagg
        split_ifs at hagg
        · cases hagg; exact .inl ⟨rfl, hq⟩
      · rw [hf] at hagg
        simp only [String.reduceEq, false_and, if_false, true_and] at hagg
        split_ifs at hagg
        · cases hagg; exact .inr (.inr ⟨rfl, hq, hk⟩)
    obtain ⟨hnoisy, hkeep⟩ := hproc
    rw [hset]
    cases hc : callConfig p with
    | none => rfl
    | some c =>
    have hcn : c.noisy = false := by
      rw [← hnoisy]
      unfold callConfig at hc
      simp only [Option.bind_eq_bind, Option.bind_eq_some_iff, Option.pure_def, Option.some.injEq] at hc
      obtain ⟨_, _, _, _, _, _, _, _, _, _, _, _, _, _, _, _, _, _, _, _, rfl⟩ := hc
      rfl
    cases hb : callSettings ext p with
    | none => rfl
    | some b =>
    have hset2 : b.lstsq = ext.lstsq ∧ b.data = ext.data ∧ b.aggregator = p.aggregator := by
      unfold callSettings at hb
      simp only [Option.bind_eq_bind, Option.bind_eq_some_iff, Option.pure_def, Option.some.injEq] at hb
      obtain ⟨_, _, _, _, _, _, _, _, _, _, _, _, _, _, _, _, _, _, rfl⟩ := hb
      exact ⟨rfl, rfl, rfl⟩
    cases numOf p.radiusOptions "initial_radius" with
    | none => rfl
    | some radius =>
      dsimp only [Option.map_some]
      rw [mix_run q hm b (by rw [hset2.2.2]; exact hkeep) (by rw [hset2.1]; exact hl)
        (by rw [hset2.2.1]; exact hd) c hcn]
      cases tranquiloR c (builtinComponents b) x radius bounds <;> rfl

/-! ### Matrices with orthonormal columns -/

omit [LinearOrder K] [IsStrictOrderedRing K] in
/-- C128. Other signs: each residual may be multiplied by `1` or `-1`. -/
theorem C128_signs (s : Vec K m) (hs : ∀ j, s j * s j = 1) :
    OrthonormalColumns (fun k j => if k = j then s j else 0 : Mat K m m) ∧
      ∀ r, combine (fun k j => if k = j then s j else 0 : Mat K m m) r = fun k => s k * r k := by
  refine ⟨fun i j => ?_, fun r => ?_⟩
  · by_cases h : i = j
    · subst h
      simp [hs]
    · rw [if_neg h]
      refine Finset.sum_eq_zero fun k _ => ?_
      dsimp only
      by_cases h1 : k = i
      · rw [if_neg (c := k = j) fun h2 => h (h1.symm.trans h2), mul_zero]
      · rw [if_neg h1, zero_mul]
  · funext k
    simp [combine]

omit [LinearOrder K] [IsStrictOrderedRing K] in
/-- C128. Additional residuals that are always zero. -/
theorem C128_added_zeros (m d : Nat) :
    OrthonormalColumns (fun k j => if k = Fin.castAdd d j then 1 else 0 : Mat K (m + d) m) ∧
      ∀ r : Vec K m, combine (fun k j => if k = Fin.castAdd d j then 1 else 0 : Mat K (m + d) m) r =
        Fin.append r fun _ => 0 := by
  refine ⟨fun i j => ?_, fun r => ?_⟩
  · by_cases h : i = j
    · subst h
      simp
    · have : ∀ k : Fin (m + d), ¬ (k = Fin.castAdd d i ∧ k = Fin.castAdd d j) := by
        rintro k ⟨rfl, h2⟩
        exact h (Fin.castAdd_injective m d h2)
      rw [if_neg h]
      refine Finset.sum_eq_zero fun k _ => ?_
      have := this k
      dsimp only
      by_cases h1 : k = Fin.castAdd d i
      · rw [if_neg (c := k = Fin.castAdd d j) fun h2 => this ⟨h1, h2⟩, mul_zero]
      · rw [if_neg h1, zero_mul]
  · funext k
    refine Fin.addCases (fun k => ?_) (fun k => ?_) k
    · simp [combine, Fin.ext_iff]
      simp [← Fin.ext_iff]
    · have : ∀ j : Fin m, Fin.natAdd m k ≠ Fin.castAdd d j := by
        intro j h
        have := congrArg Fin.val h
        simp at this
        omega
      simp [combine, this]

omit [LinearOrder K] [IsStrictOrderedRing K] in
/-- C128. Each residual may be split into several: the residual `j` is replaced by `w k * r j` for all `k` with
`owner k = j`, if the squares of the weights sum to one. -/
theorem C128_split (owner : Fin p → Fin m) (w : Vec K p)
    (hw : ∀ j, ∑ k, (if owner k = j then w k * w k else 0) = 1) :
    OrthonormalColumns (fun k j => if owner k = j then w k else 0 : Mat K p m) ∧
      ∀ r, combine (fun k j => if owner k = j then w k else 0 : Mat K p m) r = fun k => w k * r (owner k) := by
  refine ⟨fun i j => ?_, fun r => ?_⟩
  · by_cases h : i = j
    · subst h
      rw [if_pos rfl, ← hw i]
      exact Finset.sum_congr rfl fun k _ => by dsimp only; split_ifs <;> simp
    · rw [if_neg h]
      refine Finset.sum_eq_zero fun k _ => ?_
      dsimp only
      by_cases h1 : owner k = i
      · rw [if_neg (c := owner k = j) fun h2 => h (h1.symm.trans h2), mul_zero]
      · rw [if_neg h1, zero_mul]
  · funext k
    simp [combine]

omit [LinearOrder K] [IsStrictOrderedRing K] in
/-- C128. A rotation of two residuals. -/
theorem C128_rotation (c s : K) (h : c * c + s * s = 1) : OrthonormalColumns !![c, -s; s, c] := by
  intro i j
  fin_cases i <;> fin_cases j <;> simp [Fin.sum_univ_two]
  · exact h
  · ring
  · ring
  · linear_combination h

/-- C128 needs finite residuals: undefined values are replaced by a number that depends on the sign of the residual. Among
`2, 4, nan` the last is replaced by `9`, but among `-2, -4, nan` by `3`. -/
theorem C128_violated_undefined :
    clipRelative [.fin 2, .fin 4, (.nan : XVal ℚ)] = [2, 4, 9] ∧
      clipRelative [.fin (-2), .fin (-4), (.nan : XVal ℚ)] = [-2, -4, 3] := by
  decide +kernel

/-- C128, example: the residuals `x 0 - 1` and `x 1 + 2` and their rotation. The call with default options returns with
the same history. -/
example (env : PyEnv ℝ Unit) (lstsq : Lstsq ℝ) (hl : LstsqSpec lstsq) : ∃ r r',
    tranquiloCall env { twoResiduals with lstsq := lstsq } ({ functype := "least_squares" } : CallOptions ℝ).arguments
      (fun _ => 1 / 2) ⟨fun _ => some (-1), fun _ => some 1⟩ = .ok (some r) ∧
    tranquiloCall env (Externals.mix !![3 / 5, -(4 / 5); 4 / 5, 3 / 5] { twoResiduals with lstsq := lstsq })
      ({ functype := "least_squares" } : CallOptions ℝ).arguments (fun _ => 1 / 2)
      ⟨fun _ => some (-1), fun _ => some 1⟩ = .ok (some r') ∧ r'.log = r.log ∧ r'.state.x = r.state.x ∧
    (Externals.mix !![3 / 5, -(4 / 5); 4 / 5, 3 / 5] { twoResiduals with lstsq := lstsq }).start ⟨[], []⟩ 0 ≠
      twoResiduals.start ⟨[], []⟩ 0 := by
  have h := plainExternals_spec
  obtain ⟨r, h1, -⟩ := C106_call_returns_partial env { twoResiduals with lstsq := lstsq }
    ⟨h.1, h.2, h.3, h.4, h.5, h.6, h.7, h.8⟩
    { functype := "least_squares" }
    { functype := Or.inr (Or.inr rfl), cores := by norm_num, batch := fun _ h => (by cases h)
      factor := fun _ h => (by cases h)
      perPoint := fun _ h => (by cases h), atStart := fun k h => (by cases h)
      sampler := Or.inr (Or.inr rfl), filter := fun _ h => (by cases h)
      fitter := fun _ h => (by cases h), cube := Or.inr rfl
      sphere := Or.inr (Or.inl rfl), decider := fun _ h => (by cases h) } (fun h => by simp at h)
    (fun h => by cases h) (fun _ => 1 / 2) ⟨0, by norm_num⟩
    ⟨fun _ => some (-1), fun _ => some 1⟩ (Or.inr fun _ _ _ _ h => by cases h)
    (fun i => ⟨fun l h => (by cases h; norm_num), fun u h => (by cases h; norm_num)⟩)
    (fun i l u hl hu => by cases hl; cases hu; norm_num)
  refine ⟨r, r.mix !![3 / 5, -(4 / 5); 4 / 5, 3 / 5], h1, ?_, rfl, rfl, ?_⟩
  · rw [C128_call (C128_rotation _ _ (by norm_num)) (by norm_num) env { twoResiduals with lstsq := lstsq } hl
      (fun _ _ _ => rfl) _ rfl (.inl rfl), h1]
    rfl
  · simp [Externals.mix, twoResiduals, combine, Fin.sum_univ_two]
    norm_num

/-- There are functions as the one in the example. -/
example : ∃ lstsq : Lstsq ℝ, LstsqSpec lstsq := exists_lstsq

end Tranquilo
