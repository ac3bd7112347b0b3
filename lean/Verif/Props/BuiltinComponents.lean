import Verif.Props.Components
import Verif.Model.BuiltinComponents

/-!
# C85, C86: options of the built-in components, and their calls by the optimizer
-/

namespace Tranquilo

section Numeric

variable {K O : Type} [Field K] [LinearOrder K] [IsStrictOrderedRing K] [FloorRing K]

/-- The number that a Python value stands for. -/
def numericValue : PyVal K O → Option (XVal K)
  | .bool b => some (.fin (if b then 1 else 0))
  | .int i => some (.fin (i : K))
  | .flt x => some x
  | _ => none

/-- C85 for options with a float as default: each number that a user sets arrives with this value.
For options with an integer as default: each integer does. Missing: the other numbers, see
`C85_violated_hardness`. -/
theorem C85_numeric_options_keep_value_partial (env : PyEnv K O)
    (defaults out d : Dict (PyVal K O)) (u : UserOptions K O)
    (hu : u = .dict d ∨ u = .namedTuple d)
    (h : updateOptionBundle env defaults (some u) = .ok out) (k : String) (v : PyVal K O)
    (hv : d.lookup k = some v) (x : XVal K) (hx : numericValue v = some x) :
    (∀ y, defaults.lookup k = some (.flt y) → out.lookup k = some (.flt x)) ∧
    (∀ i j : ℤ, defaults.lookup k = some (.int i) → x = .fin (j : K) →
      ∃ w, out.lookup k = some w ∧ numericValue w = some (.fin (j : K))) := by
  obtain ⟨-, -, h3⟩ := C58_update_changes_named_fields env defaults out d u hu h
  constructor
  · intro y hy
    obtain ⟨w, hw, hs⟩ := (h3 k _ hy).2 v hv
    rw [hw]
    cases hs <;> simp_all [numericValue]
  · intro i j hi hj
    obtain ⟨w, hw, hs⟩ := (h3 k _ hi).2 v hv
    refine ⟨w, hw, ?_⟩
    subst hj
    cases hs with
    | int i j' => exact hx
    | boolIsInt i b => exact hx
    | fltToInt i y j' h1 h2 h3 =>
      simp only [numericValue, Option.some.injEq, XVal.fin.injEq] at hx ⊢
      subst hx
      -- both are integers of the same sign, the absolute values differ by less than one
      have h1' : |j'| ≤ |j| := by exact_mod_cast h1
      have h2' : |j| < |j'| + 1 := by exact_mod_cast h2
      have h3' : 0 ≤ j * j' := by exact_mod_cast h3
      have habs : |j| = |j'| := by omega
      rcases abs_eq_abs.1 habs with h | h
      · rw [h]
      · have : j' * j' ≤ 0 := by rw [h] at h3'; nlinarith
        have : j' = 0 := by nlinarith
        subst this
        simp at h
        subst h
        rfl
    | strToInt i s j' hp => simp [numericValue] at hx

/-- C85 is violated by the option `hardness` of the samplers. It is a number with no restriction to
integers, but the update rounds it towards zero because its default is the integer `1`: all
values strictly between `-1` and `1` become `0`. -/
theorem C85_violated_hardness (env : PyEnv K O) (x : K) (hx : |x| < 1) :
    ∃ out, updateOptionBundle env samplerDefaults
        (some (.dict [("hardness", PyVal.flt (.fin x))])) = .ok out ∧
      out.lookup "hardness" = some (.int 0) := by
  have ht : truncate x = 0 := by
    obtain ⟨h1, -, -⟩ := truncate_spec x
    have : |((truncate x : ℤ) : K)| < 1 := lt_of_le_of_lt h1 hx
    have : |truncate x| < 1 := by exact_mod_cast this
    exact Int.abs_lt_one_iff.1 this
  have hu : updateOptionBundle env samplerDefaults
      (some (.dict [("hardness", PyVal.flt (.fin x))])) =
      .ok (replaceFields samplerDefaults [("hardness", .int 0)]) := by
    have hk : ¬ ((Dict.keys [("hardness", (PyVal.flt (.fin x) : PyVal K O))]).any fun k =>
        decide (k ∉ (samplerDefaults : Dict (PyVal K O)).keys)) = true := by
      simp [Dict.keys, samplerDefaults, intOption]
    have ht' : typedOptions env samplerDefaults [("hardness", (PyVal.flt (.fin x) : PyVal K O))]
        = .ok [("hardness", .int 0)] := by
      simp [typedOptions, samplerDefaults, intOption, typedValue, keepsValue, convertTo, toInt, ht,
        Except.map, List.lookup_cons]
    simp only [updateOptionBundle, UserOptions.asDict, if_neg hk, ht']
  exact ⟨_, hu, rfl⟩

end Numeric

section Builtin

variable {K O R : Type} [Field K] [LinearOrder K] [FloorRing K]

omit [Field K] [LinearOrder K] [FloorRing K] in
theorem keys_replaceFields (defaults typed : Dict (PyVal K O)) :
    (replaceFields defaults typed).keys = defaults.keys := by
  simp [replaceFields, Dict.keys, Function.comp_def]

theorem keys_of_update (env : PyEnv K O) (defaults out : Dict (PyVal K O))
    (user : Option (UserOptions K O)) (h : updateOptionBundle env defaults user = .ok out) :
    out.keys = defaults.keys := by
  unfold updateOptionBundle at h
  split at h
  · cases h; rfl
  · split at h
    · cases h
    · split at h
      · cases h
      · split at h
        · cases h
        · cases h
          exact keys_replaceFields _ _

/-- A function can be used as a component: its parameters have different names, it declares the
mandatory arguments, and each of its parameters is passed by the optimizer, an option, or has a
default. -/
def UsableByName (f : PyFun (PyVal K O) R) (mandatory optionKeys callKeys : List String) : Prop :=
  f.signature.Nodup ∧ (∀ a ∈ mandatory, a ∈ f.signature) ∧
  ∀ p ∈ f.params, p.name ∈ callKeys ∨ p.name ∈ optionKeys ∨ p.default.isSome

/-- A usable function works with each call of the optimizer. -/
theorem component_of_usable (env : PyEnv K O) (s : String) (funcs : Dict (PyFun (PyVal K O) R))
    (f : PyFun (PyVal K O) R) (hs : funcs.lookup s = some f) (defaults opts : Dict (PyVal K O))
    (user : Option (UserOptions K O)) (hopts : updateOptionBundle env defaults user = .ok opts)
    (mandatory callKeys : List String) (hf : UsableByName f mandatory defaults.keys callKeys) :
    ∃ comp, getComponent env (.str s) funcs defaults user mandatory = .ok comp ∧
      ∀ kw : Dict (PyVal K O), (∀ k ∈ callKeys, k ∈ kw.keys) →
        ∃ b, Receives f opts [] kw b ∧ comp.call [] kw = f.body b := by
  have hsel : Selects (.str s) funcs f := Or.inl ⟨s, rfl, hs⟩
  obtain ⟨comp, hcomp⟩ := (C57_built_iff env (.str s) funcs f hsel defaults user mandatory).2
    ⟨⟨opts, hopts⟩, hf.2.1⟩
  refine ⟨comp, hcomp, fun kw hkw => ?_⟩
  have hr := C57_call_receives env (.str s) funcs f hsel hf.1 defaults opts user hopts mandatory comp
    hcomp [] kw
  have hval : ∀ p ∈ f.params, ∃ v, ∀ i, receivedValue opts [] kw i p = some v := by
    intro p hp
    have : (kw.lookup p.name <|> (opts.lookup p.name <|> p.default)).isSome := by
      rcases hf.2.2 p hp with h | h | h
      · have := (mem_keys_iff _ _).1 (hkw _ h)
        cases hk : kw.lookup p.name with
        | none => rw [hk] at this; cases this
        | some v => rfl
      · rw [← keys_of_update env defaults opts user hopts] at h
        have := (mem_keys_iff _ _).1 h
        cases hk : opts.lookup p.name with
        | none => rw [hk] at this; cases this
        | some v => cases kw.lookup p.name <;> rfl
      · cases hk : p.default with
        | none => rw [hk] at h; cases h
        | some v => cases kw.lookup p.name <;> cases opts.lookup p.name <;> rfl
    obtain ⟨v, hv⟩ := Option.isSome_iff_exists.1 this
    exact ⟨v, fun i => by
      unfold receivedValue
      rw [List.getElem?_nil, ← hv]
      cases kw.lookup p.name <;> rfl⟩
  have hex : ∃ b, Receives f opts [] kw b := by
    classical
    refine ⟨f.params.map fun p => (p.name, (receivedValue opts [] kw 0 p).getD .none),
      by simp, fun i p hp => ?_⟩
    obtain ⟨v, hv⟩ := hval p (List.mem_of_getElem? hp)
    refine ⟨v, hv i, ?_⟩
    rw [List.getElem?_map, hp, Option.map_some, hv 0]
    rfl
  obtain ⟨b, hb⟩ := hex
  exact ⟨b, hb, hr.1 b hb⟩

/-- `WorksInOptimizer build funcs defaults beh callKeys s`: for all valid user options, the
component named `s` is built, and calls with (at least) the keywords `callKeys` reach the registered
function, with a value for each of its parameters. -/
def WorksInOptimizer (env : PyEnv K O)
    (build : NameOrFunc (PyVal K O) R → Option (UserOptions K O) →
      Except Err (Component (PyVal K O) R))
    (funcs : Dict (PyFun (PyVal K O) R)) (defaults : Dict (PyVal K O))
    (beh : String → Dict (PyVal K O) → Except Err R) (callKeys : List String) (s : String) : Prop :=
  ∀ user opts, updateOptionBundle env defaults user = .ok opts →
    ∃ comp, build (.str s) user = .ok comp ∧
      ∀ kw : Dict (PyVal K O), (∀ k ∈ callKeys, k ∈ kw.keys) →
        ∃ f b, funcs.lookup s = some f ∧ Receives f opts [] kw b ∧ comp.call [] kw = beh s b

omit [Field K] [LinearOrder K] [FloorRing K] in
theorem mem_of_lookup_eq_some {V : Type} : ∀ (l : Dict V) (s : String) (f : V),
    l.lookup s = some f → (s, f) ∈ l
  | [], s, f, h => by simp at h
  | (a, g) :: l, s, f, h => by
      by_cases hk : s = a
      · subst hk
        simp at h
        simp [h]
      · have hk' : (s == a) = false := by simp [hk]
        simp only [List.lookup_cons, hk'] at h
        exact List.mem_cons_of_mem _ (mem_of_lookup_eq_some l s f h)

theorem works_of_usable (env : PyEnv K O) (funcs : Dict (PyFun (PyVal K O) R))
    (defaults : Dict (PyVal K O)) (beh : String → Dict (PyVal K O) → Except Err R)
    (mandatory callKeys : List String)
    (hbeh : ∀ e ∈ funcs, e.2.body = beh e.1)
    (s : String) (hs : s ∈ funcs.keys)
    (husable : ∀ e ∈ funcs, e.1 = s → UsableByName e.2 mandatory defaults.keys callKeys) :
    WorksInOptimizer env (fun nf user => getComponent env nf funcs defaults user mandatory)
      funcs defaults beh callKeys s := by
  intro user opts hopts
  obtain ⟨f, hf⟩ := Option.isSome_iff_exists.1 ((mem_keys_iff _ _).1 hs)
  have hmem := mem_of_lookup_eq_some _ _ _ hf
  obtain ⟨comp, h1, h2⟩ := component_of_usable env s funcs f hf defaults opts user hopts mandatory
    callKeys (husable (s, f) hmem rfl)
  refine ⟨comp, h1, fun kw hkw => ?_⟩
  obtain ⟨b, hb, hc⟩ := h2 kw hkw
  refine ⟨f, b, hf, hb, ?_⟩
  rw [hc, hbeh _ hmem]

/-- C86: all built-in samplers can be selected by name and work with the calls of the optimizer. -/
theorem C86_samplers_partial (env : PyEnv K O) (beh : String → Dict (PyVal K O) → Except Err R) :
    ∀ s ∈ (builtinSamplers beh).keys, WorksInOptimizer env (getSampler env beh)
      (builtinSamplers beh) samplerDefaults beh samplerCallKeys s := by
  intro s hs
  refine works_of_usable env _ _ beh _ _ ?_ s hs ?_
  · simp [builtinSamplers, builtin]
  · intro e he _
    revert e
    simp [builtinSamplers, builtin, UsableByName, PyFun.signature, param, paramWith, samplerCallKeys,
      samplerDefaults, intOption, Dict.keys]

/-- C86: all built-in sample filters can be selected by name and work with the calls of the
optimizer. -/
theorem C86_filters_partial (env : PyEnv K O) (beh : String → Dict (PyVal K O) → Except Err R) :
    ∀ s ∈ (builtinFilters beh).keys, WorksInOptimizer env (getSampleFilter env beh)
      (builtinFilters beh) filterDefaults beh filterCallKeys s := by
  intro s hs
  refine works_of_usable env _ _ beh _ _ ?_ s hs ?_
  · simp [builtinFilters, builtin]
  · intro e he _
    revert e
    simp [builtinFilters, builtin, UsableByName, PyFun.signature, param, paramWith, filterCallKeys,
      filterDefaults, intOption, fltOption, Dict.keys]

/-- C86: all built-in fitters can be selected by name and work with the calls of the optimizer. -/
theorem C86_fitters_partial (env : PyEnv K O) (beh : String → Dict (PyVal K O) → Except Err R) :
    ∀ s ∈ (builtinFitters beh).keys, WorksInOptimizer env (getRawFitter env beh)
      (builtinFitters beh) fitterDefaults beh fitterCallKeys s := by
  intro s hs
  refine works_of_usable env _ _ beh _ _ ?_ s hs ?_
  · simp [builtinFitters, builtin]
  · intro e he _
    revert e
    simp [builtinFitters, builtin, UsableByName, PyFun.signature, param, fitterCallKeys,
      fitterDefaults, fltOption, Dict.keys]

/-- C86: all built-in sphere solvers can be selected by name and work with the calls of the
optimizer. -/
theorem C86_sphere_solvers_partial (env : PyEnv K O)
    (beh : String → Dict (PyVal K O) → Except Err R) :
    ∀ s ∈ (builtinSphereSolvers beh).keys, WorksInOptimizer env (getSphereSolver env beh)
      (builtinSphereSolvers beh) subsolverDefaults beh subsolverCallKeys s := by
  intro s hs
  refine works_of_usable env _ _ beh _ _ ?_ s hs ?_
  · simp [builtinSphereSolvers, builtin]
  · intro e he _
    revert e
    simp [builtinSphereSolvers, builtin, UsableByName, PyFun.signature, param, kwParam,
      subsolverCallKeys, subsolverDefaults, intOption, fltOption, Dict.keys]

/-- C86: the cube solvers `bntr` and `bntr_fast` can be selected by name and work with the calls of
the optimizer. -/
theorem C86_cube_solvers_partial (env : PyEnv K O)
    (beh : String → Dict (PyVal K O) → Except Err R) :
    ∀ s ∈ ["bntr", "bntr_fast"], WorksInOptimizer env (getCubeSolver env beh)
      (builtinCubeSolvers beh) subsolverDefaults beh subsolverCallKeys s := by
  intro s hs
  refine works_of_usable env _ _ beh _ _ ?_ s ?_ ?_
  · simp [builtinCubeSolvers, builtin]
  · revert s
    simp [builtinCubeSolvers, builtin, Dict.keys]
  · simp only [List.mem_cons, List.not_mem_nil, or_false] at hs
    rcases hs with rfl | rfl <;>
    simp [builtinCubeSolvers, builtin, UsableByName, PyFun.signature, param, kwParam, bntrParams,
      subsolverCallKeys, subsolverDefaults, intOption, fltOption, Dict.keys]

/-- C86 is violated by the two other registered cube solvers: they cannot be selected by name,
whatever the options, because they do not declare the bounds. -/
theorem C86_violated_cube_fallbacks (env : PyEnv K O)
    (beh : String → Dict (PyVal K O) → Except Err R) (s : String)
    (hs : s ∈ ["fallback_cube", "fallback_multistart"]) (user : Option (UserOptions K O))
    (opts : Dict (PyVal K O))
    (hopts : updateOptionBundle env subsolverDefaults user = .ok opts) :
    s ∈ (builtinCubeSolvers beh).keys ∧ getCubeSolver env beh (.str s) user = .error .valueError := by
  constructor
  · revert s
    simp [builtinCubeSolvers, builtin, Dict.keys]
  · simp only [List.mem_cons, List.not_mem_nil, or_false] at hs
    rcases hs with rfl | rfl
    · exact C57_missing_mandatory_argument env _ _ _ (Or.inl ⟨_, rfl, rfl⟩) _ _ _ hopts _
        "lower_bounds" (by simp) (by simp [PyFun.signature, param, paramWith])
    · exact C57_missing_mandatory_argument env _ _ _ (Or.inl ⟨_, rfl, rfl⟩) _ _ _ hopts _
        "lower_bounds" (by simp) (by simp [PyFun.signature, param])

/-- C86: the fallback solvers are always built and work with the calls of the optimizer. -/
theorem C86_fallback_solvers_partial (env : PyEnv K O)
    (beh : String → Dict (PyVal K O) → Except Err R) :
    (∃ comp, getFallbackSphereSolver env beh = .ok comp ∧
      ∀ kw : Dict (PyVal K O), (∀ k ∈ fallbackCallKeys, k ∈ kw.keys) →
        ∃ f b, (builtinSphereSolvers beh).lookup "fallback_inscribed_cube" = some f ∧
          Receives f subsolverDefaults [] kw b ∧
          comp.call [] kw = beh "fallback_inscribed_cube" b) ∧
    (∃ comp, getFallbackCubeSolver env beh = .ok comp ∧
      ∀ kw : Dict (PyVal K O), (∀ k ∈ fallbackCallKeys, k ∈ kw.keys) →
        ∃ f b, (builtinCubeSolvers beh).lookup "fallback_cube" = some f ∧
          Receives f subsolverDefaults [] kw b ∧ comp.call [] kw = beh "fallback_cube" b) := by
  constructor
  · refine works_of_usable env (builtinSphereSolvers beh) subsolverDefaults beh
      ["model", "x_candidate"] fallbackCallKeys ?_ "fallback_inscribed_cube" ?_ ?_ none _ rfl
    · simp [builtinSphereSolvers, builtin]
    · simp [builtinSphereSolvers, builtin, Dict.keys]
    · simp [builtinSphereSolvers, builtin, UsableByName, PyFun.signature, param, fallbackCallKeys]
  · refine works_of_usable env (builtinCubeSolvers beh) subsolverDefaults beh
      ["model", "x_candidate"] fallbackCallKeys ?_ "fallback_cube" ?_ ?_ none _ rfl
    · simp [builtinCubeSolvers, builtin]
    · simp [builtinCubeSolvers, builtin, Dict.keys]
    · simp [builtinCubeSolvers, builtin, UsableByName, PyFun.signature, param, paramWith,
        fallbackCallKeys]

/-- C86: what the fallback solvers receive when the optimizer calls them: the model and the candidate, and the fallback for
cubes also the radius one of the unit cube. -/
theorem C86_fallback_solvers_receive (env : PyEnv K O) (beh : String → Dict (PyVal K O) → Except Err R)
    (model x : PyVal K O) :
    (∃ comp, getFallbackSphereSolver env beh = .ok comp ∧
      comp.call [] [("model", model), ("x_candidate", x)]
        = beh "fallback_inscribed_cube" [("model", model), ("x_candidate", x)]) ∧
    (∃ comp, getFallbackCubeSolver env beh = .ok comp ∧
      comp.call [] [("model", model), ("x_candidate", x)]
        = beh "fallback_cube" [("model", model), ("x_candidate", x), ("radius", .flt (.fin 1))]) := by
  obtain ⟨⟨c1, h1, k1⟩, c2, h2, k2⟩ := C86_fallback_solvers_partial env beh
  have hkeys : ∀ k ∈ fallbackCallKeys, k ∈ Dict.keys [("model", model), ("x_candidate", x)] := by
    simp [fallbackCallKeys, Dict.keys]
  constructor
  · refine ⟨c1, h1, ?_⟩
    obtain ⟨f, b, hf, ⟨hlen, hb⟩, hcall⟩ := k1 _ hkeys
    rw [hcall]
    cases hf
    obtain ⟨v0, e0, b0⟩ := hb 0 _ rfl
    obtain ⟨v1, e1, b1⟩ := hb 1 _ rfl
    cases e0
    cases e1
    congr 1
    refine List.ext_getElem? fun i => ?_
    match i with
    | 0 => exact b0
    | 1 => exact b1
    | i + 2 => rw [List.getElem?_eq_none, List.getElem?_eq_none]
               · simp
               · rw [hlen]; simp [param]
  · refine ⟨c2, h2, ?_⟩
    obtain ⟨f, b, hf, ⟨hlen, hb⟩, hcall⟩ := k2 _ hkeys
    rw [hcall]
    cases hf
    obtain ⟨v0, e0, b0⟩ := hb 0 _ rfl
    obtain ⟨v1, e1, b1⟩ := hb 1 _ rfl
    obtain ⟨v2, e2, b2⟩ := hb 2 _ rfl
    cases e0
    cases e1
    cases e2
    congr 1
    refine List.ext_getElem? fun i => ?_
    match i with
    | 0 => exact b0
    | 1 => exact b1
    | 2 => exact b2
    | i + 3 => rw [List.getElem?_eq_none, List.getElem?_eq_none]
               · simp
               · rw [hlen]; simp

/-- C86: the built-in variance estimator works with the calls of the optimizer. -/
theorem C86_variance_estimators_partial (env : PyEnv K O)
    (beh : String → Dict (PyVal K O) → Except Err R) :
    ∀ s ∈ (builtinVarianceEstimators beh).keys, WorksInOptimizer env
      (getVarianceEstimator env beh) (builtinVarianceEstimators beh) varianceDefaults beh
      varianceCallKeys s := by
  intro s hs
  refine works_of_usable env _ _ beh _ _ ?_ s hs ?_
  · simp [builtinVarianceEstimators, builtin]
  · intro e he _
    revert e
    simp [builtinVarianceEstimators, builtin, UsableByName, PyFun.signature, param, varianceCallKeys,
      varianceDefaults, intOption, fltOption, Dict.keys]

/-- C86: all built-in acceptance deciders can be selected by name and work with the calls of the
optimizer. -/
theorem C86_acceptance_deciders_partial (env : PyEnv K O)
    (beh : String → Dict (PyVal K O) → Except Err R) :
    ∀ s ∈ (builtinAcceptanceDeciders beh).keys, WorksInOptimizer env
      (getAcceptanceDecider env beh) (builtinAcceptanceDeciders beh) acceptanceDefaults beh
      acceptanceCallKeys s := by
  intro s hs
  refine works_of_usable env _ _ beh _ _ ?_ s hs ?_
  · simp [builtinAcceptanceDeciders, builtin]
  · intro e he _
    revert e
    simp [builtinAcceptanceDeciders, builtin, UsableByName, PyFun.signature, param, kwParam,
      acceptanceCallKeys, acceptanceDefaults, intOption, fltOption, Dict.keys]

/-! ## C87: the order of the parameters of a user defined sampler -/

/-- Keyword arguments of the call of the sampler by the speculative sampling, which passes the
region as the first positional argument, acceptance_decision.py:472-477. -/
def speculativeCallKeys : List String := ["n_points", "existing_xs", "rng"]

/-- C87, for samplers whose first parameter is `trustregion`: the call of the main loop and the call
of the speculative sampling (which passes the region by position) have the same result. Missing:
samplers that declare the mandatory arguments in a different order, see
`C87_violated_parameter_order`. -/
theorem C87_parameter_order_partial (env : PyEnv K O)
    (beh : String → Dict (PyVal K O) → Except Err R) (nf : NameOrFunc (PyVal K O) R)
    (f : PyFun (PyVal K O) R) (hf : Selects nf (builtinSamplers beh) f)
    (hsig : f.signature.Nodup) (hfirst : f.signature.head? = some "trustregion")
    (user : Option (UserOptions K O)) (comp : Component (PyVal K O) R)
    (hcomp : getSampler env beh nf user = .ok comp) (region : PyVal K O) (kw : Dict (PyVal K O))
    (hkw : "trustregion" ∉ kw.keys) :
    comp.call [region] kw = comp.call [] (("trustregion", region) :: kw) := by
  obtain ⟨⟨opts, hopts⟩, -⟩ := (C57_built_iff env nf (builtinSamplers beh) f hf samplerDefaults user
    ["trustregion", "n_points", "existing_xs", "rng"]).1 ⟨comp, hcomp⟩
  have h := C57_call_receives env nf (builtinSamplers beh) f hf hsig samplerDefaults opts user hopts
    _ comp hcomp
  have hr : ∀ b, Receives f opts [region] kw b ↔
      Receives f opts [] (("trustregion", region) :: kw) b := by
    intro b
    refine and_congr_right fun _ => forall_congr' fun i => forall_congr' fun p =>
      forall_congr' fun hp => ?_
    have hname : f.signature[i]? = some p.name := by
      unfold PyFun.signature
      rw [List.getElem?_map, hp]; rfl
    have hrec : receivedValue opts [region] kw i p
        = receivedValue opts [] (("trustregion", region) :: kw) i p := by
      unfold receivedValue
      rw [List.head?_eq_getElem?] at hfirst
      cases i with
      | zero =>
        have hn : p.name = "trustregion" := by
          rw [hname] at hfirst; exact Option.some.inj hfirst
        rw [hn, (not_mem_keys_iff _ _).1 hkw]
        simp
      | succ i =>
        have hn : p.name ≠ "trustregion" := by
          intro hn
          rw [hn, ← hfirst] at hname
          have h0 : 0 < f.signature.length := by
            rw [List.getElem?_eq_some_iff] at hfirst
            exact hfirst.1
          have hlt : i + 1 < f.signature.length := by
            rw [hfirst, List.getElem?_eq_some_iff] at hname
            exact hname.1
          have := (List.getElem?_inj hlt hsig).1 hname
          omega
        have hn' : (p.name == "trustregion") = false := by simp [hn]
        simp [List.lookup_cons, hn']
    rw [hrec]
  by_cases hb : ∃ b, Receives f opts [region] kw b
  · obtain ⟨b, hb⟩ := hb
    rw [(h _ kw).1 b hb, (h _ _).1 b ((hr b).1 hb)]
  · rw [(h _ kw).2 hb, (h _ _).2 fun ⟨b, hb'⟩ => hb ⟨b, (hr b).2 hb'⟩]

/-- A user defined sampler that declares the mandatory arguments in another order. -/
def reorderedSampler (body : Dict (PyVal K O) → Except Err R) : PyFun (PyVal K O) R :=
  { name := some "my_sampler",
    params := [param "n_points", param "trustregion", param "existing_xs", param "rng"],
    body := body }

/-- C87 is violated: a sampler that declares the mandatory arguments in another order is accepted,
and works with the calls of the main loop, but each call of the speculative sampling fails with a
`TypeError`. -/
theorem C87_violated_parameter_order (env : PyEnv K O)
    (beh : String → Dict (PyVal K O) → Except Err R) (body : Dict (PyVal K O) → Except Err R) :
    ∃ comp, getSampler env beh (.callable (reorderedSampler body)) none = .ok comp ∧
      (∀ region n xs rng : PyVal K O,
        comp.call [] [("trustregion", region), ("n_points", n), ("existing_xs", xs), ("rng", rng)] =
          body [("n_points", n), ("trustregion", region), ("existing_xs", xs), ("rng", rng)]) ∧
      (∀ region n xs rng : PyVal K O,
        comp.call [region] [("n_points", n), ("existing_xs", xs), ("rng", rng)] =
          .error .typeError) := by
  have hsel : Selects (.callable (reorderedSampler body)) (builtinSamplers beh)
      (reorderedSampler body) := Or.inr ⟨rfl, "my_sampler", rfl⟩
  have hsig : (reorderedSampler body).signature.Nodup := by
    simp [reorderedSampler, PyFun.signature, param]
  obtain ⟨comp, hcomp⟩ := (C57_built_iff env _ (builtinSamplers beh) _ hsel samplerDefaults none
    ["trustregion", "n_points", "existing_xs", "rng"]).2 ⟨⟨_, rfl⟩, by
      simp [reorderedSampler, PyFun.signature, param]⟩
  have h := C57_call_receives env _ (builtinSamplers beh) _ hsel hsig samplerDefaults _ none rfl _
    comp hcomp
  refine ⟨comp, hcomp, fun region n xs rng => ?_, fun region n xs rng => ?_⟩
  · refine (h _ _).1 _ ⟨rfl, fun i p hp => ?_⟩
    simp only [reorderedSampler, param] at hp
    match i, hp with
    | 0, hp => cases hp; exact ⟨n, rfl, rfl⟩
    | 1, hp => cases hp; exact ⟨region, rfl, rfl⟩
    | 2, hp => cases hp; exact ⟨xs, rfl, rfl⟩
    | 3, hp => cases hp; exact ⟨rng, rfl, rfl⟩
    | i + 4, hp => simp at hp
  · refine (h _ _).2 ?_
    rintro ⟨b, hb⟩
    obtain ⟨v, hv, -⟩ := hb.2 1 (param "trustregion") rfl
    simp [receivedValue, param, samplerDefaults, intOption, List.lookup_cons] at hv

end Builtin

/-! ## Concrete cases -/

/-- No strings are numbers, `str` is constant, and conversions to classes fail. -/
def plainEnv : PyEnv ℚ Unit where
  parseInt := fun _ => none
  parseFloat := fun s => if s = "0.5" then some (.fin (1 / 2)) else none
  toStr := fun _ => "object"
  truthy := fun _ => true
  isInstanceOfClass := fun _ _ => false
  construct := fun _ _ => .error .typeError

/-- C58: an integer for a float option, a string for a float option; the others keep defaults. -/
example : updateOptionBundle plainEnv varianceDefaults
    (some (.dict [("max_distance_factor", .int 2)])) =
    .ok [("max_distance_factor", .flt (.fin 2)), ("min_n_evals", .int 3)] := by
  decide +kernel

example : updateOptionBundle plainEnv varianceDefaults
    (some (.dict [("max_distance_factor", .str "0.5"), ("min_n_evals", .flt (.fin (5 / 2)))])) =
    .ok [("max_distance_factor", .flt (.fin (1 / 2))), ("min_n_evals", .int 2)] := by
  decide +kernel

example : updateOptionBundle plainEnv varianceDefaults
    (some (.dict [("max_distance", .int 2)])) = .error .valueError := by
  decide +kernel

/-- A behaviour that returns the names of the parameters it received values for. -/
def namesBehaviour : String → Dict (PyVal ℚ Unit) → Except Err (List String) :=
  fun s b => .ok (s :: b.keys)

/-- The result of a call of a component, or the error when it was built. -/
def callOf {V R : Type} (c : Except Err (Component V R)) (args : List V) (kw : Dict V) :
    Except Err R :=
  match c with
  | .error e => .error e
  | .ok comp => comp.call args kw

/-- C57, C86: the filter `drop_excess` gets four arguments of the call and one option. -/
example : callOf (getSampleFilter plainEnv namesBehaviour (.str "drop_excess") none) []
    [("xs", .none), ("indices", .none), ("state", .none), ("target_size", .int 5),
      ("history", .none), ("n_evals_per_point", .int 1)] =
    .ok ["drop_excess", "xs", "indices", "state", "target_size", "n_max_factor"] := by
  decide +kernel

/-- C57: a missing argument. -/
example : callOf (getSampleFilter plainEnv namesBehaviour (.str "drop_excess") none) []
    [("xs", .none), ("indices", .none), ("state", .none)] = .error .typeError := by
  decide +kernel

/-- C86: a registered name that cannot be selected. -/
example : callOf (getCubeSolver plainEnv namesBehaviour (.str "fallback_cube") none) []
    [("model", .none), ("x_candidate", .none), ("lower_bounds", .none), ("upper_bounds", .none)] =
    .error .valueError := by
  decide +kernel

/-- C57 in the strict mode: a call by keywords works, the factor is taken from the options. -/
example : callOf (getComponent plainEnv (.str "drop_excess") (builtinFilters namesBehaviour)
      [("n_max_factor", .int 3)] none [] "ignore" "raise") []
    [("xs", .none), ("indices", .none), ("state", .none), ("target_size", .int 5)] =
    .ok ["drop_excess", "xs", "indices", "state", "target_size", "n_max_factor"] := by
  decide +kernel

/-- C57 in the strict mode: the factor cannot be given by position. -/
example : callOf (getComponent plainEnv (.str "drop_excess") (builtinFilters namesBehaviour)
      [("n_max_factor", .int 3)] none [] "ignore" "raise")
    [.none, .none, .none, .int 5, .int 2] [] = .error .typeError := by
  decide +kernel

/-- C57: undeclared options are an error in the mode "raise". -/
example : callOf (getComponent plainEnv (.str "keep_all") (builtinFilters namesBehaviour)
      [("n_max_factor", .int 3)] none [] "raise" "ignore") [.none, .none] [] =
    .error .valueError := by
  decide +kernel

end Tranquilo
