import Verif.Lemmas.Components

/-!
# C56, C57, C58, C85: components and option bundles
-/

namespace Tranquilo

variable {K O R : Type} [Field K] [LinearOrder K] [FloorRing K]

/-! ## C58: option bundles -/

/-- C58: when an update of an option bundle succeeds, the bundle has the same fields as before, the
user named only fields that exist, the fields that the user did not name keep their defaults, and
the others hold the user's value in the type of the default (`StoredAs`). -/
theorem C58_update_changes_named_fields [IsStrictOrderedRing K] (env : PyEnv K O)
    (defaults out d : Dict (PyVal K O)) (u : UserOptions K O) (hu : u = .dict d ∨ u = .namedTuple d)
    (h : updateOptionBundle env defaults (some u) = .ok out) :
    out.keys = defaults.keys ∧ (∀ k ∈ d.keys, k ∈ defaults.keys) ∧
    ∀ k default, defaults.lookup k = some default →
      (d.lookup k = none → out.lookup k = some default) ∧
      (∀ v, d.lookup k = some v → ∃ w, out.lookup k = some w ∧ StoredAs env default v w) := by
  have hd : u.asDict = .ok d := by rcases hu with rfl | rfl <;> rfl
  simp only [updateOptionBundle, hd] at h
  split at h
  · cases h
  · rename_i hk
    split at h
    · cases h
    · rename_i typed ht
      cases h
      have hlook : ∀ k, (replaceFields defaults typed).lookup k
          = (defaults.lookup k).map fun v => (typed.lookup k).getD v := fun k =>
        lookup_map_entries (fun k v => (typed.lookup k).getD v) k defaults
      refine ⟨?_, ?_, ?_⟩
      · simp [replaceFields, Dict.keys, Function.comp_def]
      · intro k hkd
        by_contra hn
        exact hk (List.any_eq_true.2 ⟨k, hkd, by simp [hn]⟩)
      · intro k default hdef
        obtain ⟨h1, h2⟩ := typedOptions_lookup env defaults d typed ht k
        rw [hlook, hdef]
        refine ⟨fun hn => by rw [h1 hn]; rfl, fun v hv => ?_⟩
        obtain ⟨w, hw, hw'⟩ := h2 v hv
        rw [hdef] at hw'
        refine ⟨w, by rw [hw]; rfl, typedValue_storedAs env _ _ _ hw'⟩

omit [FloorRing K] in
/-- Without user options the defaults are used. -/
theorem C58_no_user_options [FloorRing K] (env : PyEnv K O) (defaults : Dict (PyVal K O)) :
    updateOptionBundle env defaults none = .ok defaults := rfl

/-- C58: a field that does not exist is refused with a `ValueError`, whatever the other fields. -/
theorem C58_unknown_field (env : PyEnv K O) (defaults d : Dict (PyVal K O)) (u : UserOptions K O)
    (hu : u = .dict d ∨ u = .namedTuple d) (k : String) (hk : k ∈ d.keys)
    (hk' : k ∉ defaults.keys) :
    updateOptionBundle env defaults (some u) = .error .valueError := by
  have hd : u.asDict = .ok d := by rcases hu with rfl | rfl <;> rfl
  simp only [updateOptionBundle, hd]
  rw [if_pos (List.any_eq_true.2 ⟨k, hk, by simp [hk']⟩)]

/-- Whether a value can be converted to the type of the default. -/
def Convertible (env : PyEnv K O) (default v : PyVal K O) : Prop := ∃ w, StoredAs env default v w

/-- `StoredAs` is possible only when the conversion succeeds. -/
theorem typedValue_of_storedAs [IsStrictOrderedRing K] (env : PyEnv K O) (d v w : PyVal K O)
    (h : StoredAs env d v w) : ∃ w', typedValue env d v = .ok w' := by
  cases h <;> try exact ⟨_, rfl⟩
  · rename_i o ho
    exact ⟨v, by simp [typedValue, keepsValue, ho]⟩
  · rename_i s hp
    exact ⟨.flt _, by simp only [typedValue, keepsValue, convertTo, toFloat, hp]; rfl⟩
  · rename_i s hp
    exact ⟨.int _, by simp only [typedValue, keepsValue, convertTo, toInt, hp]; rfl⟩
  · rename_i s hv
    cases v <;> first
      | exact ⟨_, rfl⟩
  · rename_i o h1 h2
    exact ⟨w, by simp [typedValue, keepsValue, h1, convertTo, h2]⟩

/-- C58: the update succeeds exactly when all named fields exist and all values can be converted to
the type of their default. -/
theorem C58_update_succeeds_iff [IsStrictOrderedRing K] (env : PyEnv K O)
    (defaults d : Dict (PyVal K O)) (u : UserOptions K O) (hu : u = .dict d ∨ u = .namedTuple d) :
    (∃ out, updateOptionBundle env defaults (some u) = .ok out) ↔
      ∀ kv ∈ d, ∃ default, defaults.lookup kv.1 = some default ∧ Convertible env default kv.2 := by
  have hd : u.asDict = .ok d := by rcases hu with rfl | rfl <;> rfl
  constructor
  · rintro ⟨out, h⟩ kv hkv
    simp only [updateOptionBundle, hd] at h
    split at h
    · cases h
    · rename_i hk
      split at h
      · cases h
      · rename_i typed ht
        have hmem : kv.1 ∈ defaults.keys := by
          by_contra hn
          exact hk (List.any_eq_true.2 ⟨kv.1, List.mem_map.2 ⟨kv, hkv, rfl⟩, by simp [hn]⟩)
        obtain ⟨default, hdef⟩ := Option.isSome_iff_exists.1 ((mem_keys_iff _ _).1 hmem)
        obtain ⟨w, hw⟩ := typedOptions_error env defaults d typed ht kv hkv
        rw [hdef] at hw
        exact ⟨default, hdef, w, typedValue_storedAs env _ _ _ hw⟩
  · intro h
    have hk : ¬ (d.keys.any fun k => decide (k ∉ defaults.keys)) = true := by
      rw [List.any_eq_true]
      rintro ⟨k, hk, hk'⟩
      obtain ⟨kv, hkv, rfl⟩ := List.mem_map.1 hk
      obtain ⟨default, hdef, -⟩ := h kv hkv
      have : kv.1 ∈ defaults.keys := (mem_keys_iff _ _).2 (by rw [hdef]; rfl)
      simp [this] at hk'
    obtain ⟨typed, ht⟩ := typedOptions_ok env defaults d fun kv hkv => by
      obtain ⟨default, hdef, w, hw⟩ := h kv hkv
      rw [hdef]
      exact typedValue_of_storedAs env _ _ _ hw
    exact ⟨replaceFields defaults typed, by simp only [updateOptionBundle, hd, if_neg hk, ht]⟩

/-! ## C56: which function a component uses -/

/-- C56: naming a registered function and passing this function are the same: the same component is
built, with the same errors, the same warnings and the same results of all calls. -/
theorem C56_name_selects_registered_function_partial (env : PyEnv K O) (s n : String)
    (f : PyFun (PyVal K O) R) (funcs : Dict (PyFun (PyVal K O) R)) (hs : funcs.lookup s = some f)
    (hn : f.name = some n) (defaults : Dict (PyVal K O)) (user : Option (UserOptions K O))
    (mandatory : List String) (oh ah : String) :
    getComponent env (.str s) funcs defaults user mandatory oh ah =
      getComponent env (.callable f) funcs defaults user mandatory oh ah := by
  simp only [getComponent, getFunctionAndName, hs, hn]

/-- C56: a name that is not registered is refused with a `ValueError`. -/
theorem C56_unknown_name (env : PyEnv K O) (s : String) (funcs : Dict (PyFun (PyVal K O) R))
    (hs : s ∉ funcs.keys) (defaults : Dict (PyVal K O)) (user : Option (UserOptions K O))
    (mandatory : List String) (oh ah : String) :
    getComponent env (.str s) funcs defaults user mandatory oh ah = .error .valueError := by
  simp only [getComponent, getFunctionAndName, (not_mem_keys_iff s funcs).1 hs]

/-- C56: anything but a string or a callable is refused with a `TypeError`. -/
theorem C56_neither_name_nor_callable (env : PyEnv K O) (funcs : Dict (PyFun (PyVal K O) R))
    (defaults : Dict (PyVal K O)) (user : Option (UserOptions K O))
    (mandatory : List String) (oh ah : String) :
    getComponent env .other funcs defaults user mandatory oh ah = .error .typeError := rfl

/-- C56 is violated by callables without a `__name__`, such as the result of `functools.partial`:
they are refused with an `AttributeError`, whatever their signature. -/
theorem C56_violated_by_callables_without_name (env : PyEnv K O) (f : PyFun (PyVal K O) R)
    (hf : f.name = none) (funcs : Dict (PyFun (PyVal K O) R)) (defaults : Dict (PyVal K O))
    (user : Option (UserOptions K O)) (mandatory : List String) (oh ah : String) :
    getComponent env (.callable f) funcs defaults user mandatory oh ah = .error .attributeError := by
  simp only [getComponent, getFunctionAndName, hf]

/-! ## C57: what the selected function is called with -/

/-- The function that `nf` selects. -/
def Selects (nf : NameOrFunc (PyVal K O) R) (funcs : Dict (PyFun (PyVal K O) R))
    (f : PyFun (PyVal K O) R) : Prop :=
  (∃ s, nf = .str s ∧ funcs.lookup s = some f) ∨ (nf = .callable f ∧ ∃ n, f.name = some n)

omit [Field K] [LinearOrder K] [FloorRing K] in
theorem getFunctionAndName_of_selects {nf : NameOrFunc (PyVal K O) R}
    {funcs : Dict (PyFun (PyVal K O) R)} {f : PyFun (PyVal K O) R} (h : Selects nf funcs f) :
    ∃ n, getFunctionAndName nf funcs = .ok (f, n) := by
  rcases h with ⟨s, rfl, hs⟩ | ⟨rfl, n, hn⟩
  · exact ⟨s, by simp only [getFunctionAndName, hs]⟩
  · exact ⟨n, by simp only [getFunctionAndName, hn]⟩

/-- C57: a component is built exactly when its options are valid and the function declares all
mandatory arguments. -/
theorem C57_built_iff (env : PyEnv K O) (nf : NameOrFunc (PyVal K O) R)
    (funcs : Dict (PyFun (PyVal K O) R)) (f : PyFun (PyVal K O) R) (hf : Selects nf funcs f)
    (defaults : Dict (PyVal K O)) (user : Option (UserOptions K O)) (mandatory : List String) :
    (∃ comp, getComponent env nf funcs defaults user mandatory = .ok comp) ↔
      (∃ opts, updateOptionBundle env defaults user = .ok opts) ∧
        ∀ a ∈ mandatory, a ∈ f.signature := by
  obtain ⟨n, hn⟩ := getFunctionAndName_of_selects hf
  simp only [getComponent, hn, getValidOptions]
  cases hu : updateOptionBundle env defaults user with
  | error e => simp
  | ok opts =>
    have h1 : ¬ ("ignore" = "warn") := by decide
    have h2 : ¬ ("ignore" = "raise") := by decide
    simp only [h1, h2, if_false, false_and]
    by_cases hm : (mandatory.any fun a => decide (a ∉ f.signature)) = true
    · rw [if_pos hm]
      obtain ⟨a, ha, ha'⟩ := List.any_eq_true.1 hm
      constructor
      · rintro ⟨comp, h⟩; cases h
      · rintro ⟨-, h⟩
        simp [h a ha] at ha'
    · rw [if_neg hm]
      refine ⟨fun _ => ⟨⟨opts, rfl⟩, fun a ha => ?_⟩, fun _ => ⟨_, rfl⟩⟩
      by_contra hn
      exact hm (List.any_eq_true.2 ⟨a, ha, by simp [hn]⟩)

/-- C57: a missing mandatory argument is reported, with a `ValueError`, when the component is
built. -/
theorem C57_missing_mandatory_argument (env : PyEnv K O) (nf : NameOrFunc (PyVal K O) R)
    (funcs : Dict (PyFun (PyVal K O) R)) (f : PyFun (PyVal K O) R) (hf : Selects nf funcs f)
    (defaults opts : Dict (PyVal K O)) (user : Option (UserOptions K O))
    (hopts : updateOptionBundle env defaults user = .ok opts) (mandatory : List String)
    (a : String) (ha : a ∈ mandatory) (ha' : a ∉ f.signature) :
    getComponent env nf funcs defaults user mandatory = .error .valueError := by
  obtain ⟨n, hn⟩ := getFunctionAndName_of_selects hf
  have h1 : ¬ ("ignore" = "warn") := by decide
  have h2 : ¬ ("ignore" = "raise") := by decide
  simp only [getComponent, hn, getValidOptions, hopts, h1, h2, if_false, false_and]
  rw [if_pos (List.any_eq_true.2 ⟨a, ha, by simp [ha']⟩)]

/-- C57: when a component is called, each parameter of the selected function receives the argument
of the call (by keyword or by position), or the option of this name, or the default of the
signature. If this leaves no parameter without a value then the result is that of the function on
these values, otherwise a `TypeError`. Arguments and options that the function does not declare do
not occur in the result. -/
theorem C57_call_receives (env : PyEnv K O) (nf : NameOrFunc (PyVal K O) R)
    (funcs : Dict (PyFun (PyVal K O) R)) (f : PyFun (PyVal K O) R) (hf : Selects nf funcs f)
    (hsig : f.signature.Nodup) (defaults opts : Dict (PyVal K O))
    (user : Option (UserOptions K O)) (hopts : updateOptionBundle env defaults user = .ok opts)
    (mandatory : List String) (comp : Component (PyVal K O) R)
    (hcomp : getComponent env nf funcs defaults user mandatory = .ok comp)
    (args : List (PyVal K O)) (kw : Dict (PyVal K O)) :
    (∀ b, Receives f opts args kw b → comp.call args kw = f.body b) ∧
    ((¬ ∃ b, Receives f opts args kw b) → comp.call args kw = .error .typeError) := by
  obtain ⟨n, hn⟩ := getFunctionAndName_of_selects hf
  have h1 : ¬ ("ignore" = "warn") := by decide
  have h2 : ¬ ("ignore" = "raise") := by decide
  simp only [getComponent, hn, getValidOptions, hopts, h1, h2, if_false, false_and,
    decide_false] at hcomp
  split at hcomp
  · cases hcomp
  · cases hcomp
    have hw := wrapperCall_eq f opts args kw
    dsimp only
    rw [hw]
    constructor
    · intro b hb
      rw [(wrapper_bindings f hsig opts args kw b).2 hb]
    · intro hno
      cases hb : f.bindings [] (dictMerge (opts.filter fun kv => kv.1 ∈ f.signature)
        ((dictMerge (f.signature.zip args) kw).filter fun kv => kv.1 ∈ f.signature)) with
      | none => rfl
      | some b => exact absurd ⟨b, (wrapper_bindings f hsig opts args kw b).1 hb⟩ hno

omit [Field K] [LinearOrder K] [FloorRing K] in
theorem Receives.congr_kw {f : PyFun (PyVal K O) R} {opts : Dict (PyVal K O)}
    {args : List (PyVal K O)} {kw kw' : Dict (PyVal K O)}
    (h : ∀ k ∈ f.signature, kw.lookup k = kw'.lookup k) (b : Dict (PyVal K O)) :
    Receives f opts args kw b ↔ Receives f opts args kw' b := by
  refine and_congr_right fun _ => forall_congr' fun i => forall_congr' fun p =>
    forall_congr' fun hp => ?_
  have : p.name ∈ f.signature := List.mem_map.2 ⟨p, List.mem_of_getElem? hp, rfl⟩
  simp only [receivedValue, h p.name this]

/-- C57: two calls that agree on the declared keyword arguments have the same result. In particular
undeclared keyword arguments are ignored. -/
theorem C57_undeclared_arguments_ignored (env : PyEnv K O) (nf : NameOrFunc (PyVal K O) R)
    (funcs : Dict (PyFun (PyVal K O) R)) (f : PyFun (PyVal K O) R) (hf : Selects nf funcs f)
    (hsig : f.signature.Nodup) (defaults opts : Dict (PyVal K O))
    (user : Option (UserOptions K O)) (hopts : updateOptionBundle env defaults user = .ok opts)
    (mandatory : List String) (comp : Component (PyVal K O) R)
    (hcomp : getComponent env nf funcs defaults user mandatory = .ok comp)
    (args : List (PyVal K O)) (kw kw' : Dict (PyVal K O))
    (hkw : ∀ k ∈ f.signature, kw.lookup k = kw'.lookup k) :
    comp.call args kw = comp.call args kw' := by
  have h := C57_call_receives env nf funcs f hf hsig defaults opts user hopts mandatory comp hcomp
    args
  by_cases hb : ∃ b, Receives f opts args kw b
  · obtain ⟨b, hb⟩ := hb
    rw [(h kw).1 b hb, (h kw').1 b ((Receives.congr_kw hkw b).1 hb)]
  · rw [(h kw).2 hb, (h kw').2 fun ⟨b, hb'⟩ => hb ⟨b, (Receives.congr_kw hkw b).2 hb'⟩]

/-- C57: positional arguments beyond the signature are ignored without notice. -/
theorem C57_surplus_positional_arguments_ignored (env : PyEnv K O)
    (nf : NameOrFunc (PyVal K O) R)
    (funcs : Dict (PyFun (PyVal K O) R)) (f : PyFun (PyVal K O) R) (hf : Selects nf funcs f)
    (hsig : f.signature.Nodup) (defaults opts : Dict (PyVal K O))
    (user : Option (UserOptions K O)) (hopts : updateOptionBundle env defaults user = .ok opts)
    (mandatory : List String) (comp : Component (PyVal K O) R)
    (hcomp : getComponent env nf funcs defaults user mandatory = .ok comp)
    (args extra : List (PyVal K O)) (hargs : args.length = f.params.length)
    (kw : Dict (PyVal K O)) :
    comp.call (args ++ extra) kw = comp.call args kw := by
  have h := C57_call_receives env nf funcs f hf hsig defaults opts user hopts mandatory comp hcomp
  have hr : ∀ b, Receives f opts (args ++ extra) kw b ↔ Receives f opts args kw b := by
    intro b
    refine and_congr_right fun _ => forall_congr' fun i => forall_congr' fun p =>
      forall_congr' fun hp => ?_
    have hi : i < args.length := by
      rw [hargs]
      exact (List.getElem?_eq_some_iff.1 hp).1
    simp only [receivedValue, List.getElem?_append_left hi]
  by_cases hb : ∃ b, Receives f opts args kw b
  · obtain ⟨b, hb⟩ := hb
    rw [(h _ kw).1 b ((hr b).2 hb), (h _ kw).1 b hb]
  · rw [(h _ kw).2 fun ⟨b, hb'⟩ => hb ⟨b, (hr b).1 hb'⟩, (h _ kw).2 hb]

/-- C57 is violated when redundant arguments are to be warned about: instead of a warning, each call
with an undeclared keyword argument raises an `AttributeError`. -/
theorem C57_violated_warnings (env : PyEnv K O) (nf : NameOrFunc (PyVal K O) R)
    (funcs : Dict (PyFun (PyVal K O) R)) (f : PyFun (PyVal K O) R) (hf : Selects nf funcs f)
    (defaults : Dict (PyVal K O)) (user : Option (UserOptions K O)) (mandatory : List String)
    (comp : Component (PyVal K O) R)
    (hcomp : getComponent env nf funcs defaults user mandatory "ignore" "warn" = .ok comp)
    (args : List (PyVal K O)) (kw : Dict (PyVal K O)) (k : String) (hk : k ∈ kw.keys)
    (hk' : k ∉ f.signature) :
    comp.call args kw = .error .attributeError := by
  obtain ⟨n, hn⟩ := getFunctionAndName_of_selects hf
  simp only [getComponent, hn] at hcomp
  split at hcomp
  · cases hcomp
  · split at hcomp
    · cases hcomp
    · have h2 : ¬ ("warn" = "raise") := by decide
      rw [if_neg h2] at hcomp
      cases hcomp
      simp only [wrapperCall, decide_true, Bool.true_and]
      rw [if_pos]
      have hmem : k ∈ (dictMerge (f.signature.zip args) kw).keys :=
        (keys_dictMerge _ _ _).2 (Or.inr hk)
      obtain ⟨kv, hkv, rfl⟩ := List.mem_map.1 hmem
      exact List.any_eq_true.2 ⟨kv, hkv, by simp [hk']⟩

/-- C57, `redundant_option_handling`: options that the function does not declare are an error in the
mode "raise", are listed by a warning in the mode "warn", and are silently dropped otherwise. -/
theorem C57_redundant_options (env : PyEnv K O) (nf : NameOrFunc (PyVal K O) R)
    (funcs : Dict (PyFun (PyVal K O) R)) (f : PyFun (PyVal K O) R) (hf : Selects nf funcs f)
    (defaults opts : Dict (PyVal K O)) (user : Option (UserOptions K O))
    (hopts : updateOptionBundle env defaults user = .ok opts) (mandatory : List String)
    (hm : ∀ a ∈ mandatory, a ∈ f.signature) (ah : String) :
    ((∃ k ∈ opts.keys, k ∉ f.signature) →
      getComponent env nf funcs defaults user mandatory "raise" ah = .error .valueError) ∧
    ((∀ k ∈ opts.keys, k ∈ f.signature) →
      ∃ comp, getComponent env nf funcs defaults user mandatory "raise" ah = .ok comp) ∧
    (∃ comp, getComponent env nf funcs defaults user mandatory "warn" ah = .ok comp ∧
      ∀ k, k ∈ comp.warned ↔ k ∈ opts.keys ∧ k ∉ f.signature) ∧
    (∃ comp, getComponent env nf funcs defaults user mandatory "ignore" ah = .ok comp ∧
      comp.warned = []) := by
  obtain ⟨n, hn⟩ := getFunctionAndName_of_selects hf
  have h1 : ¬ ("raise" = "warn") := by decide
  have h2 : ¬ ("ignore" = "warn") := by decide
  have h3 : ¬ ("ignore" = "raise") := by decide
  have hmm : ¬ (mandatory.any fun a => decide (a ∉ f.signature)) = true := by
    rw [List.any_eq_true]
    rintro ⟨a, ha, ha'⟩
    simp [hm a ha] at ha'
  have hkeys : ∀ k, k ∈ Dict.keys (opts.filter fun kv => decide (kv.1 ∉ f.signature))
      ↔ k ∈ opts.keys ∧ k ∉ f.signature := fun k => by
    rw [keys_filter (fun k => decide (k ∉ f.signature)) opts k]
    simp
  simp only [getComponent, hn, getValidOptions, hopts]
  simp only [h1, h2, h3, if_false, if_true, false_and, true_and]
  refine ⟨?_, ?_, ?_, ?_⟩
  · rintro ⟨k, hk⟩
    rw [if_pos]
    intro hnil
    have := (hkeys k).2 hk
    rw [hnil] at this
    cases this
  · intro hall
    rw [if_neg]
    · dsimp only
      rw [if_neg hmm]
      split <;> exact ⟨_, rfl⟩
    · rw [not_not, List.filter_eq_nil_iff]
      intro kv hkv
      simp [hall kv.1 (List.mem_map.2 ⟨kv, hkv, rfl⟩)]
  · rw [if_neg hmm]
    split <;> exact ⟨_, rfl, hkeys⟩
  · rw [if_neg hmm]
    split <;> exact ⟨_, rfl, rfl⟩

/-- C57, `redundant_argument_handling="raise"`: arguments the function does not declare are refused
with a `TypeError`. -/
theorem C57_strict_call_refuses (env : PyEnv K O) (nf : NameOrFunc (PyVal K O) R)
    (funcs : Dict (PyFun (PyVal K O) R)) (f : PyFun (PyVal K O) R) (hf : Selects nf funcs f)
    (defaults : Dict (PyVal K O)) (user : Option (UserOptions K O)) (mandatory : List String)
    (oh : String) (comp : Component (PyVal K O) R)
    (hcomp : getComponent env nf funcs defaults user mandatory oh "raise" = .ok comp)
    (args : List (PyVal K O)) (kw : Dict (PyVal K O))
    (h : f.params.length < args.length ∨ ∃ k ∈ kw.keys, k ∉ f.signature) :
    comp.call args kw = .error .typeError := by
  obtain ⟨n, hn⟩ := getFunctionAndName_of_selects hf
  simp only [getComponent, hn] at hcomp
  split at hcomp
  · cases hcomp
  · split at hcomp
    · cases hcomp
    · rw [if_pos trivial] at hcomp
      cases hcomp
      dsimp only
      unfold PyFun.partialCall PyFun.call
      rcases h with h | ⟨k, hk, hk'⟩
      · rw [if_pos]
        refine lt_of_le_of_lt ?_ h
        unfold PyFun.positional
        rw [List.length_map]
        exact List.length_filter_le _ _
      · split
        · rfl
        · rw [if_pos]
          exact List.any_eq_true.2 ⟨k, (keys_dictMerge _ _ _).2 (Or.inr hk), by simp [hk']⟩

/-- C57, `redundant_argument_handling="raise"`: a call by keywords that are all declared behaves as in
the other modes. -/
theorem C57_strict_keyword_call (env : PyEnv K O) (nf : NameOrFunc (PyVal K O) R)
    (funcs : Dict (PyFun (PyVal K O) R)) (f : PyFun (PyVal K O) R) (hf : Selects nf funcs f)
    (hsig : f.signature.Nodup) (defaults opts : Dict (PyVal K O))
    (user : Option (UserOptions K O)) (hopts : updateOptionBundle env defaults user = .ok opts)
    (mandatory : List String) (comp : Component (PyVal K O) R)
    (hcomp : getComponent env nf funcs defaults user mandatory "ignore" "raise" = .ok comp)
    (kw : Dict (PyVal K O)) (hkw : ∀ k ∈ kw.keys, k ∈ f.signature) :
    (∀ b, Receives f opts [] kw b → comp.call [] kw = f.body b) ∧
    ((¬ ∃ b, Receives f opts [] kw b) → comp.call [] kw = .error .typeError) := by
  have hkw' : kw.filter (fun kv => decide (kv.1 ∈ f.signature)) = kw :=
    List.filter_eq_self.2 fun kv hkv => by simp [hkw kv.1 (List.mem_map.2 ⟨kv, hkv, rfl⟩)]
  have hsame : f.partialCall (opts.filter fun kv => decide (kv.1 ∈ f.signature)) [] kw
      = wrapperCall f (opts.filter fun kv => decide (kv.1 ∈ f.signature)) false [] kw := by
    unfold wrapperCall
    simp only [List.zip_nil_right, Bool.false_and, Bool.false_eq_true, if_false]
    have : dictMerge ([] : Dict (PyVal K O)) kw = kw := by
      simp [dictMerge, Dict.keys]
    rw [this, hkw']
  obtain ⟨n, hn⟩ := getFunctionAndName_of_selects hf
  have h1 : ¬ ("ignore" = "warn") := by decide
  have h2 : ¬ ("ignore" = "raise") := by decide
  simp only [getComponent, hn, getValidOptions, hopts, h1, h2, if_false, false_and, if_true] at hcomp
  split at hcomp
  · cases hcomp
  · cases hcomp
    dsimp only
    rw [hsame, wrapperCall_eq]
    constructor
    · intro b hb
      rw [(wrapper_bindings f hsig opts [] kw b).2 hb]
    · intro hb
      split
      · rfl
      · rename_i b hbb
        exact absurd ⟨b, (wrapper_bindings f hsig opts [] kw b).1 hbb⟩ hb

/-- C57 is violated in the mode "raise": the value of an option cannot be given by position at call
time, the call is refused though the function declares the argument. -/
theorem C57_violated_option_by_position (env : PyEnv K O) (nf : NameOrFunc (PyVal K O) R)
    (funcs : Dict (PyFun (PyVal K O) R)) (f : PyFun (PyVal K O) R) (hf : Selects nf funcs f)
    (hpos : ∀ p ∈ f.params, p.kwOnly = false)
    (defaults opts : Dict (PyVal K O))
    (user : Option (UserOptions K O)) (hopts : updateOptionBundle env defaults user = .ok opts)
    (mandatory : List String) (comp : Component (PyVal K O) R)
    (hcomp : getComponent env nf funcs defaults user mandatory "ignore" "raise" = .ok comp)
    (args : List (PyVal K O)) (kw : Dict (PyVal K O)) (i : ℕ) (k : String)
    (hk : f.signature[i]? = some k) (hi : i < args.length) (hopt : k ∈ opts.keys) :
    comp.call args kw = .error .typeError := by
  obtain ⟨n, hn⟩ := getFunctionAndName_of_selects hf
  have h1 : ¬ ("ignore" = "warn") := by decide
  have h2 : ¬ ("ignore" = "raise") := by decide
  simp only [getComponent, hn, getValidOptions, hopts, h1, h2, if_false, false_and, if_true] at hcomp
  split at hcomp
  · cases hcomp
  · cases hcomp
    dsimp only
    unfold PyFun.partialCall PyFun.call
    split
    · rfl
    · split
      · rfl
      · rw [if_pos]
        refine List.any_eq_true.2 ⟨k, (keys_dictMerge _ _ _).2 (Or.inl ?_), ?_⟩
        · exact (keys_filter (fun k => decide (k ∈ f.signature)) opts k).2
            ⟨hopt, by simp [List.mem_of_getElem? hk]⟩
        · have hall : f.positional = f.signature := by
            unfold PyFun.positional PyFun.signature
            rw [List.filter_eq_self.2 fun p hp => by simp [hpos p hp]]
          rw [hall, decide_eq_true_eq]
          refine List.mem_of_getElem? (i := i) ?_
          rw [List.getElem?_take_of_lt hi, hk]

end Tranquilo
