import Verif.Lemmas.Reorder
import Verif.Props.Rescale
import Verif.Props.RunsLonger
import Verif.Props.TranquiloCall
import Mathlib.Algebra.BigOperators.Fin

/-!
# C116: the order of the residuals does not matter
-/

namespace Tranquilo

variable {K : Type} [Field K] [LinearOrder K] [IsStrictOrderedRing K] {n m : Nat}
  (σ : Equiv.Perm (Fin m))

omit [IsStrictOrderedRing K] in
theorem XVal.add_swap (a b c : XVal K) : a + (b + c) = b + (a + c) := by
  cases a <;> cases b <;> cases c <;> first | rfl | exact congrArg XVal.fin (add_left_comm _ _ _)

omit [IsStrictOrderedRing K] in
/-- C116. The value that is recorded for an evaluation does not depend on the order of its contributions or
residuals, also if some of them are infinite or NaN. -/
theorem C116_criterion_value {ft : Functype} (hft : ft ≠ .scalar) {l l' : List (XVal K)} (h : l.Perm l') :
    ft.aggregateRow l' = ft.aggregateRow l := by
  have hsum : ∀ {l l' : List (XVal K)}, l.Perm l' → l'.sum = l.sum := by
    intro l l' h
    induction h with
    | nil => rfl
    | cons x _ ih => rw [List.sum_cons, List.sum_cons, ih]
    | swap x y l => simp only [List.sum_cons]; exact XVal.add_swap x y _
    | trans _ _ h1 h2 => exact h2.trans h1
  cases ft with
  | scalar => exact absurd rfl hft
  | likelihood => exact hsum h
  | leastSquares => exact hsum (h.map _)

/-- The built in components for the residuals in another order. -/
theorem builtin_reorder [FloorRing K] (b : BuiltinSettings K n m) :
    UnitsRespected 1 0 false (fun v v' => v' = v.reorder σ) (fun s s' => s' = s)
      (builtinComponents b) (builtinComponents (b.reorder σ)) := by
  have hlog : ∀ h : Log K n, h.rescale 1 0 = h := by
    intro h
    simp only [Log.rescale, XVal.rescale_one_zero, List.map_id']
  refine
    { nrm := rfl
      cubeRadius := rfl
      oracle := fun k x => (XVal.rescale_one_zero _).symm
      filter := ?_
      sample := ?_
      fit := ?_
      aggregate := ?_
      solve := ?_
      initModel := ?_
      gradNorm := ?_
      noiseSigma := fun h => by cases h
      rhoNoise := fun h => by cases h }
  · intro s s' h t k xs is hss
    simp only [builtinComponents, builtinFilter, hss.x, hss.index, hss.trustregion]
    rfl
  · intro it round h reg k xs
    rw [hlog]
    rfl
  · rintro h is reg vm vm' rfl
    rw [hlog]
    have := fitTemplate_reorder σ b reg vm (fun s : Fin is.length => (h.xs[is[s]]?).getD reg.center)
      fun s => b.data h is[s]
    change SameOutcome _ (builtinFitTemplate b reg vm _ _)
      (builtinFitTemplate b reg (vm.reorder σ) _ fun s k => b.data h is[s] (σ k))
    rw [this]
    cases builtinFitTemplate b reg vm (fun s : Fin is.length => (h.xs[is[s]]?).getD reg.center)
      fun s => b.data h is[s] <;> rfl
  · rintro vm vm' rfl
    change SameOutcome _ (aggregate b.aggregator vm) (aggregate b.aggregator (vm.reorder σ))
    rw [aggregate_reorder]
    cases aggregate b.aggregator vm <;> rfl
  · rintro sm sm' reg rfl
    change SameOutcome _ (builtinSolve b sm' reg) (builtinSolve b sm' reg)
    cases builtinSolve b sm' reg with
    | error e => rfl
    | ok s => exact ⟨rfl, (one_mul _).symm⟩
  · intro h reg
    rw [hlog]
    rfl
  · rintro sm sm' rfl
    exact (one_mul _).symm

/-- C116. With the residuals (or contributions) in another order a run without noise is the same: the same
exception or none, the same history, the same states, decisions and messages. Only the stored models of the single
residuals are in the other order. -/
theorem C116_order_of_residuals [FloorRing K] (b : BuiltinSettings K n m) (g : Config K)
    (hn : g.noisy = false) (x : Vec K n) (radius : K) (bounds : Bounds K n) :
    tranquiloR g (builtinComponents (b.reorder σ)) x radius bounds =
      (tranquiloR g (builtinComponents b) x radius bounds).map (Run.reorder σ) := by
  have hlog : ∀ h : Log K n, h.rescale 1 0 = h := by
    intro h
    simp only [Log.rescale, XVal.rescale_one_zero, List.map_id']
  have hg : g.rescale 1 = g := by
    unfold Config.rescale
    cases g with
    | mk noisy conv _ _ _ _ _ _ _ _ _ _ d => cases conv; cases d <;> simp [DeciderChoice.rescale]
  have h := C113_units_of_the_criterion one_pos (d := 0) (RV := fun v v' => v' = v.reorder σ)
    (RS := fun s s' => s' = s) g (comp := builtinComponents b) (comp' := builtinComponents (b.reorder σ))
    ⟨.inl ⟨rfl, rfl⟩, fun h => by rw [hn] at h; cases h⟩ (by rw [hn]; exact builtin_reorder σ b) x radius bounds
  rw [hg] at h
  have hstate : ∀ {s s' : LoopState K n (VectorModel K n m) (ScalarModel K n)},
      SameState 1 0 (fun v v' => v' = v.reorder σ) (fun s s' => s' = s) s s' → s' = s.reorder σ := by
    intro s s' hs
    cases s'
    have := hs
    obtain ⟨h1, h2, h3, h4, h5, h6, h7, h8, h9, h10, h11, h12, h13, h14, h15, h16, h17, h18⟩ := this
    simp only [XVal.rescale_one_zero] at h9
    simp only at h1 h2 h3 h4 h5 h6 h7 h8 h10 h11 h12 h13 h14 h15 h16 h17 h18
    subst h1 h2 h3 h4 h5 h6 h7 h8 h9 h10 h11 h12 h13 h14 h15 h16 h17 h18
    rfl
  revert h
  cases tranquiloR g (builtinComponents b) x radius bounds with
  | error e =>
    cases tranquiloR g (builtinComponents (b.reorder σ)) x radius bounds with
    | error e' => intro h; cases h; rfl
    | ok r' => exact fun h => h.elim
  | ok r =>
    cases tranquiloR g (builtinComponents (b.reorder σ)) x radius bounds with
    | error e' => exact fun h => h.elim
    | ok r' =>
      intro h
      have hstates : r'.states = r.states.map (LoopState.reorder σ) := by
        have := h.states
        revert this
        generalize r.states = l
        generalize r'.states = l'
        intro h
        induction h with
        | nil => rfl
        | cons h1 _ ih => rw [List.map_cons, ih, hstate h1]
      have h1 := h.log
      rw [hlog] at h1
      have h2 := hstate h.state
      obtain ⟨-, -, -, h4, h5, h6, h7⟩ := h
      cases r'
      simp only at h1 h2 hstates h4 h5 h6 h7
      subst h1 h2 hstates h4 h5 h6 h7
      rfl

/-- The environment of a call with the residuals of the criterion in another order. -/
def Externals.reorder {O : Type} (σ : Equiv.Perm (Fin m)) (ext : Externals K O n m) : Externals K O n m :=
  { ext with
    data := fun h i k => ext.data h i (σ k)
    start := fun h k => ext.start h (σ k)
    fvecs := fun h i => (ext.fvecs h i).map fun v k => v (σ k) }

/-- C116 for calls of the optimizer without noise, with any other arguments. -/
theorem C116_call [FloorRing K] {O : Type} (env : PyEnv K O) (ext : Externals K O n m)
    (a : Arguments K O (Option (Piece K n))) (hn : toBool env a.noisy = false) (x : Vec K n)
    (bounds : Bounds K n) :
    tranquiloCall env (ext.reorder σ) a x bounds =
      (tranquiloCall env ext a x bounds).map (Option.map (Run.reorder σ)) := by
  unfold tranquiloCall
  have hpieces : pieces (ext.reorder σ) = pieces ext := rfl
  rw [hpieces]
  cases hp : processArguments env (pieces ext) { a with x := List.ofFn x } with
  | error e => rfl
  | ok p =>
    rw [except_ok_bind, except_ok_bind]
    have hset : callSettings (ext.reorder σ) p = (callSettings ext p).map (BuiltinSettings.reorder σ) := by
      unfold callSettings
      simp only [Option.bind_eq_bind, Option.map_bind, Option.pure_def, Function.comp_def, Option.map_some]
      rfl
    have hnoisy : p.noisy = false := by
      rw [← hn]
      simp only [processArguments, except_bind_ok] at hp
      obtain ⟨-, -, f1, hf1, f2, hf2, f3, hf3, f4, hf4, f5, hf5, f6, hf6, -, -, maxIter, hmi, maxEval, hme, -, -,
        nCores, hnc, -, -, nStart, hstart, noise, hnoise, nPer, hper, factor, hfactor, batch, hbatch, radius, -,
        ropts, -, mt, hmt, stag, -, size, hsize, fitter, hfitter, res, hres, ft, -, -, -, sampler, -,
        sphere, -, cube, -, filt, -, raw, -, -, -, agg, hagg, est, -, acc, -, hout⟩ := hp
      cases hout
      rfl
    rw [hset]
    cases hc : callConfig p with
    | none => rfl
    | some c =>
    have hcn : c.noisy = false := by
      rw [← hnoisy]
      unfold callConfig at hc
      simp only [Option.bind_eq_bind, Option.bind_eq_some_iff, Option.pure_def, Option.some.injEq] at hc
      obtain ⟨_, _, _, _, _, _, _, _, _, _, _, _, _, _, _, _, _, _, _, _, rfl⟩ := hc
      rfl
    cases callSettings ext p with
    | none => rfl
    | some b =>
    cases numOf p.radiusOptions "initial_radius" with
    | none => rfl
    | some radius =>
      dsimp only [Option.map_some]
      rw [C116_order_of_residuals σ b c hcn]
      cases tranquiloR c (builtinComponents b) x radius bounds <;> rfl

/-- Two parameters and the two residuals `x 0 - 1` and `x 1 + 2`. -/
noncomputable def twoResiduals : Externals ℝ Unit 2 2 :=
  { plainExternals with
    oracle := fun _ x => .fin ((x 0 - 1) ^ 2 + (x 1 + 2) ^ 2)
    data := fun h i k => .fin (((h.xs[i]?).getD fun _ => 0) k + if k = 0 then -1 else 2)
    start := fun h k => ((h.xs[0]?).getD fun _ => 0) k + if k = 0 then -1 else 2 }

/-- C116, example: the two residuals `x 0 - 1` and `x 1 + 2` and the call with default options. With the residuals swapped
the optimizer is told other numbers, but the call returns with the same history. -/
example (env : PyEnv ℝ Unit) : ∃ r r',
    tranquiloCall env twoResiduals ({ functype := "least_squares" } : CallOptions ℝ).arguments (fun _ => 1 / 2)
      ⟨fun _ => some (-1), fun _ => some 1⟩ = .ok (some r) ∧
    tranquiloCall env (twoResiduals.reorder (Equiv.swap 0 1))
      ({ functype := "least_squares" } : CallOptions ℝ).arguments (fun _ => 1 / 2)
      ⟨fun _ => some (-1), fun _ => some 1⟩ = .ok (some r') ∧ r'.log = r.log ∧ r'.state.x = r.state.x ∧
    (twoResiduals.reorder (Equiv.swap 0 1)).start ⟨[], []⟩ 0 ≠ twoResiduals.start ⟨[], []⟩ 0 := by
  have h := plainExternals_spec
  obtain ⟨r, h1, -⟩ := C106_call_returns_partial env twoResiduals
    ⟨h.1, h.2, h.3, h.4, h.5, h.6, h.7, h.8⟩
    { functype := "least_squares" }
    { functype := Or.inr (Or.inr rfl), cores := by norm_num, batch := fun _ h => (by cases h)
      factor := fun _ h => (by cases h)
      perPoint := fun _ h => (by cases h), atStart := fun k h => (by cases h)
      sampler := Or.inr (Or.inr rfl), filter := fun _ h => (by cases h)
      fitter := fun _ h => (by cases h), cube := Or.inr rfl
      sphere := Or.inr (Or.inl rfl), decider := fun _ h => (by cases h) } (fun h => by simp at h)
    (fun h => by cases h) (fun _ => 1 / 2) ⟨0, by norm_num⟩
    ⟨fun _ => some (-1), fun _ => some 1⟩ (Or.inr fun _ _ _ _ h => by cases h)
    (fun i => ⟨fun l h => (by cases h; norm_num), fun u h => (by cases h; norm_num)⟩)
    (fun i l u hl hu => by cases hl; cases hu; norm_num)
  refine ⟨r, r.reorder (Equiv.swap 0 1), h1, ?_, rfl, rfl, ?_⟩
  · rw [C116_call _ env _ _ rfl, h1]
    rfl
  · simp [Externals.reorder, twoResiduals]
    norm_num

end Tranquilo
