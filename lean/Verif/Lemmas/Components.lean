import Verif.Spec.Components
import Mathlib.Tactic.Linarith
import Mathlib.Tactic.Ring
import Mathlib.Algebra.Order.Floor.Semiring

/-!
# Lemmas on dicts, option bundles and component calls
-/

namespace Tranquilo

section Dicts

variable {V W : Type}

theorem lookup_map_entries (g : String → V → W) (k : String) (l : Dict V) :
    (l.map fun kv => (kv.1, g kv.1 kv.2)).lookup k = (l.lookup k).map (g k) := by
  induction l with
  | nil => rfl
  | cons kv l ih =>
    obtain ⟨a, v⟩ := kv
    by_cases h : k = a
    · subst h; simp
    · have : (k == a) = false := by simp [h]
      simp only [List.map_cons, List.lookup_cons, this]
      exact ih

theorem lookup_filter_keys (p : String → Bool) (k : String) (l : Dict V) :
    (l.filter fun kv => p kv.1).lookup k = if p k then l.lookup k else none := by
  induction l with
  | nil => simp
  | cons kv l ih =>
    obtain ⟨a, v⟩ := kv
    by_cases ha : p a
    · rw [List.filter_cons_of_pos (by simpa using ha)]
      by_cases h : k = a
      · subst h; simp [ha]
      · have : (k == a) = false := by simp [h]
        simp only [List.lookup_cons, this]
        exact ih
    · rw [List.filter_cons_of_neg (by simpa using ha), ih]
      by_cases h : k = a
      · subst h; simp [ha]
      · have : (k == a) = false := by simp [h]
        simp [List.lookup_cons, this]

theorem mem_keys_iff (k : String) (l : Dict V) : k ∈ l.keys ↔ (l.lookup k).isSome := by
  induction l with
  | nil => simp [Dict.keys]
  | cons kv l ih =>
    obtain ⟨a, v⟩ := kv
    by_cases h : k = a
    · subst h; simp [Dict.keys]
    · have h' : (k == a) = false := by simp [h]
      simp only [List.lookup_cons, h']
      rw [← ih]
      simp [Dict.keys, h]

theorem not_mem_keys_iff (k : String) (l : Dict V) : k ∉ l.keys ↔ l.lookup k = none := by
  rw [mem_keys_iff]
  cases l.lookup k <;> simp

theorem lookup_dictMerge (a b : Dict V) (k : String) :
    (dictMerge a b).lookup k = (b.lookup k <|> a.lookup k) := by
  unfold dictMerge
  rw [List.lookup_append]
  rw [lookup_map_entries (fun k v => (b.lookup k).getD v) k a]
  rw [lookup_filter_keys (fun k => decide (k ∉ a.keys)) k b]
  cases ha : a.lookup k with
  | none =>
    have : k ∉ a.keys := (not_mem_keys_iff k a).2 ha
    simp only [this, not_false_eq_true, decide_true, if_true]
    cases b.lookup k <;> rfl
  | some v =>
    cases b.lookup k <;> simp

theorem keys_dictMerge (a b : Dict V) (k : String) :
    k ∈ (dictMerge a b).keys ↔ k ∈ a.keys ∨ k ∈ b.keys := by
  rw [mem_keys_iff, mem_keys_iff, mem_keys_iff, lookup_dictMerge]
  cases a.lookup k <;> cases b.lookup k <;> simp

theorem keys_filter (p : String → Bool) (l : Dict V) (k : String) :
    k ∈ Dict.keys (l.filter fun kv => p kv.1) ↔ k ∈ l.keys ∧ p k := by
  rw [mem_keys_iff, mem_keys_iff, lookup_filter_keys]
  by_cases h : p k <;> simp [h]

theorem lookup_zip_of_nodup : ∀ (names : List String) (args : List V) (i : ℕ) (k : String),
    names.Nodup → names[i]? = some k → (names.zip args).lookup k = args[i]?
  | [], _, i, k, _, h => by simp at h
  | a :: names, [], i, k, _, _ => by simp
  | a :: names, v :: args, 0, k, _, h => by
      simp only [List.getElem?_cons_zero, Option.some.injEq] at h
      subst h; simp
  | a :: names, v :: args, i + 1, k, hn, h => by
      have hn' := List.nodup_cons.1 hn
      simp only [List.getElem?_cons_succ] at h
      have hk : k ≠ a := by
        rintro rfl
        exact hn'.1 (List.mem_of_getElem? h)
      have hk' : (k == a) = false := by simp [hk]
      simp only [List.zip_cons_cons, List.lookup_cons, hk', List.getElem?_cons_succ]
      exact lookup_zip_of_nodup names args i k hn'.2 h

end Dicts

section Options

variable {K O R : Type} [Field K] [LinearOrder K] [IsStrictOrderedRing K] [FloorRing K]

omit [IsStrictOrderedRing K] in
theorem typedOptions_lookup (env : PyEnv K O) (defaults : Dict (PyVal K O)) :
    ∀ (d typed : Dict (PyVal K O)), typedOptions env defaults d = .ok typed → ∀ k,
      (d.lookup k = none → typed.lookup k = none) ∧
      (∀ v, d.lookup k = some v → ∃ w, typed.lookup k = some w ∧
        typedValue env ((defaults.lookup k).getD .none) v = .ok w)
  | [], typed, h, k => by
      simp only [typedOptions, Except.ok.injEq] at h
      subst h
      exact ⟨fun _ => rfl, fun v hv => by simp at hv⟩
  | (a, u) :: rest, typed, h, k => by
      unfold typedOptions at h
      split at h
      · cases h
      · rename_i w hw
        split at h
        · cases h
        · rename_i ws hws
          cases h
          have ih := typedOptions_lookup env defaults rest ws hws k
          by_cases hk : k = a
          · subst hk
            refine ⟨fun hn => by simp at hn, fun v hv => ?_⟩
            simp only [List.lookup_cons_self, Option.some.injEq] at hv
            subst hv
            exact ⟨w, by simp, hw⟩
          · have hk' : (k == a) = false := by simp [hk]
            simp only [List.lookup_cons, hk']
            exact ih

omit [IsStrictOrderedRing K] in
theorem typedOptions_ok (env : PyEnv K O) (defaults : Dict (PyVal K O)) :
    ∀ d : Dict (PyVal K O),
      (∀ kv ∈ d, ∃ w, typedValue env ((defaults.lookup kv.1).getD .none) kv.2 = .ok w) →
      ∃ typed, typedOptions env defaults d = .ok typed
  | [], _ => ⟨[], rfl⟩
  | (a, u) :: rest, h => by
      obtain ⟨w, hw⟩ := h (a, u) (by simp)
      obtain ⟨ws, hws⟩ := typedOptions_ok env defaults rest fun kv hkv => h kv (by simp [hkv])
      exact ⟨(a, w) :: ws, by simp only [typedOptions, hw, hws]⟩

omit [IsStrictOrderedRing K] in
theorem typedOptions_error (env : PyEnv K O) (defaults : Dict (PyVal K O)) :
    ∀ (d typed : Dict (PyVal K O)), typedOptions env defaults d = .ok typed →
      ∀ kv ∈ d, ∃ w, typedValue env ((defaults.lookup kv.1).getD .none) kv.2 = .ok w
  | [], _, _, kv, hkv => by simp at hkv
  | (a, u) :: rest, typed, h, kv, hkv => by
      unfold typedOptions at h
      split at h
      · cases h
      · rename_i w hw
        split at h
        · cases h
        · rename_i ws hws
          rcases List.mem_cons.1 hkv with rfl | hkv
          · exact ⟨w, hw⟩
          · exact typedOptions_error env defaults rest ws hws kv hkv

theorem truncate_spec (x : K) :
    |((truncate x : ℤ) : K)| ≤ |x| ∧ |x| < |((truncate x : ℤ) : K)| + 1 ∧
      0 ≤ x * (truncate x : ℤ) := by
  unfold truncate
  split
  · rename_i h
    have hf : (0 : K) ≤ (⌊x⌋ : ℤ) := by exact_mod_cast Int.floor_nonneg.2 h
    rw [abs_of_nonneg hf, abs_of_nonneg h]
    exact ⟨Int.floor_le x, Int.lt_floor_add_one x, mul_nonneg h hf⟩
  · rename_i h
    have hx : x ≤ 0 := le_of_lt (not_le.1 h)
    have hf : ((⌈x⌉ : ℤ) : K) ≤ 0 := by
      have : ⌈x⌉ ≤ 0 := Int.ceil_le.2 (by simpa using hx)
      exact_mod_cast this
    rw [abs_of_nonpos hf, abs_of_nonpos hx]
    have h1 := Int.le_ceil x
    have h2 := Int.ceil_lt_add_one x
    exact ⟨by linarith, by linarith, mul_nonneg_of_nonpos_of_nonpos hx hf⟩

/-- The stored value is described by the specification. -/
theorem typedValue_storedAs (env : PyEnv K O) (d v w : PyVal K O)
    (h : typedValue env d v = .ok w) : StoredAs env d v w := by
  unfold typedValue at h
  split at h
  · rename_i hk
    cases h
    cases d <;> cases v <;> first
      | exact StoredAs.noDefault _
      | exact StoredAs.bool _ _
      | exact StoredAs.int _ _
      | exact StoredAs.boolIsInt _ _
      | exact StoredAs.flt _ _
      | exact StoredAs.str _ _
      | exact StoredAs.instanceOfClass _ _ hk
      | cases hk
  · rename_i hk
    cases d with
    | none => cases h
    | bool b =>
      cases h
      cases v with
      | none => exact .noneToBool b
      | bool c => exact absurd rfl hk
      | int i => exact .intToBool b i
      | flt x => cases x with
        | fin x => exact .fltToBool b x
        | pinf => exact .nonfiniteToBool b _ rfl
        | ninf => exact .nonfiniteToBool b _ rfl
        | nan => exact .nonfiniteToBool b _ rfl
      | str s => exact .strToBool b s
      | obj o => exact .objToBool b o
    | int i =>
      cases v with
      | none => cases h
      | bool c => exact absurd rfl hk
      | int i => exact absurd rfl hk
      | flt x => cases x with
        | fin x =>
          cases h
          obtain ⟨h1, h2, h3⟩ := truncate_spec x
          exact .fltToInt i x _ h1 h2 h3
        | pinf => cases h
        | ninf => cases h
        | nan => cases h
      | str s =>
        simp only [convertTo, toInt] at h
        cases hp : env.parseInt s with
        | none => rw [hp] at h; cases h
        | some j => rw [hp] at h; cases h; exact .strToInt i s j hp
      | obj o => cases h
    | flt x =>
      cases v with
      | none => cases h
      | bool c => cases h; exact .boolToFlt x c
      | int i => cases h; exact .intToFlt x i
      | flt y => exact absurd rfl hk
      | str s =>
        simp only [convertTo, toFloat] at h
        cases hp : env.parseFloat s with
        | none => rw [hp] at h; cases h
        | some j => rw [hp] at h; cases h; exact .strToFlt x s j hp
      | obj o => cases h
    | str s =>
      cases h
      refine .toStr s v ?_
      rintro t rfl
      exact hk rfl
    | obj o =>
      refine .toClass o v w ?_ h
      simpa [keepsValue] using hk

end Options

section Calls

variable {K O R : Type}

theorem mapM_some_iff {α β : Type} (g : α → Option β) : ∀ (l : List α) (b : List β),
    l.mapM g = some b ↔ b.length = l.length ∧ ∀ (i : ℕ) (a : α), l[i]? = some a → ∃ y, g a = some y ∧
      b[i]? = some y
  | [], b => by
      constructor
      · intro h; simp at h; subst h; simp
      · rintro ⟨h, -⟩; simp at h; subst h; rfl
  | a :: l, b => by
      rw [List.mapM_cons]
      constructor
      · intro h
        cases hg : g a with
        | none => rw [hg] at h; simp at h
        | some y =>
          rw [hg] at h
          cases hl : l.mapM g with
          | none => rw [hl] at h; simp at h
          | some ys =>
            rw [hl] at h
            simp only [Option.bind_eq_bind, Option.bind_some, Option.pure_def,
              Option.some.injEq] at h
            subst h
            obtain ⟨h1, h2⟩ := (mapM_some_iff g l ys).1 hl
            refine ⟨by simp [h1], fun i c hc => ?_⟩
            cases i with
            | zero => simp at hc; subst hc; exact ⟨y, hg, by simp⟩
            | succ i =>
              simp only [List.getElem?_cons_succ] at hc ⊢
              exact h2 i c hc
      · rintro ⟨h1, h2⟩
        cases b with
        | nil => simp at h1
        | cons y ys =>
          obtain ⟨y', hy, hy'⟩ := h2 0 a (by simp)
          simp at hy'
          subst hy'
          have := (mapM_some_iff g l ys).2 ⟨by simpa using h1, fun i c hc =>
            by simpa using h2 (i + 1) c (by simpa using hc)⟩
          simp [hy, this]

theorem Receives.unique {f : PyFun (PyVal K O) R} {opts : Dict (PyVal K O)}
    {args : List (PyVal K O)} {kw b b' : Dict (PyVal K O)}
    (h : Receives f opts args kw b) (h' : Receives f opts args kw b') : b = b' := by
  apply List.ext_getElem?
  intro i
  cases hp : f.params[i]? with
  | none =>
    have hlen := List.getElem?_eq_none_iff.1 hp
    rw [List.getElem?_eq_none (by rw [h.1]; exact hlen),
      List.getElem?_eq_none (by rw [h'.1]; exact hlen)]
  | some p =>
    obtain ⟨v, hv, hb⟩ := h.2 i p hp
    obtain ⟨v', hv', hb'⟩ := h'.2 i p hp
    rw [hv] at hv'
    cases hv'
    rw [hb, hb']

/-- The bindings of a wrapped call are the received values. -/
theorem wrapper_bindings (f : PyFun (PyVal K O) R) (hsig : f.signature.Nodup)
    (opts : Dict (PyVal K O)) (args : List (PyVal K O)) (kw b : Dict (PyVal K O)) :
    f.bindings [] (dictMerge (opts.filter fun kv => kv.1 ∈ f.signature)
      ((dictMerge (f.signature.zip args) kw).filter fun kv => kv.1 ∈ f.signature)) = some b ↔
    Receives f opts args kw b := by
  unfold PyFun.bindings Receives
  rw [mapM_some_iff]
  refine and_congr_right fun _ => forall_congr' fun i => forall_congr' fun p =>
    forall_congr' fun hp => ?_
  have hname : f.signature[i]? = some p.name := by
    unfold PyFun.signature
    rw [List.getElem?_map, hp]; rfl
  have hmem : p.name ∈ f.signature := List.mem_of_getElem? hname
  have hb : f.bound [] (dictMerge (opts.filter fun kv => kv.1 ∈ f.signature)
      ((dictMerge (f.signature.zip args) kw).filter fun kv => kv.1 ∈ f.signature)) p
      = receivedValue opts args kw i p := by
    unfold PyFun.bound receivedValue
    rw [lookup_dictMerge]
    rw [lookup_filter_keys (fun k => decide (k ∈ f.signature)) p.name opts,
      lookup_filter_keys (fun k => decide (k ∈ f.signature)) p.name
        (dictMerge (f.signature.zip args) kw)]
    rw [lookup_dictMerge, lookup_zip_of_nodup f.signature args i p.name hsig hname]
    simp only [hmem, decide_true, if_true, List.zip_nil_right]
    cases kw.lookup p.name <;> cases args[i]? <;> cases opts.lookup p.name <;> rfl
  rw [hb]
  constructor
  · rintro ⟨y, hy, hby⟩
    cases hr : receivedValue opts args kw i p with
    | none => rw [hr] at hy; cases hy
    | some v => rw [hr] at hy; cases hy; exact ⟨v, rfl, hby⟩
  · rintro ⟨v, hv, hbv⟩
    exact ⟨(p.name, v), by rw [hv]; rfl, hbv⟩

/-- The behaviour of the wrapper without warnings. -/
theorem wrapperCall_eq (f : PyFun (PyVal K O) R) (opts : Dict (PyVal K O))
    (args : List (PyVal K O)) (kw : Dict (PyVal K O)) :
    wrapperCall f (opts.filter fun kv => kv.1 ∈ f.signature) false args kw =
      match f.bindings [] (dictMerge (opts.filter fun kv => kv.1 ∈ f.signature)
        ((dictMerge (f.signature.zip args) kw).filter fun kv => kv.1 ∈ f.signature)) with
      | none => .error .typeError
      | some b => f.body b := by
  unfold wrapperCall PyFun.partialCall PyFun.call
  simp only [Bool.false_and, Bool.false_eq_true, if_false, List.length_nil, Nat.not_lt_zero,
    List.take_zero, List.not_mem_nil, decide_false]
  rw [if_neg, if_neg (by simp)]
  · generalize f.bindings [] _ = b
    cases b <;> rfl
  · rw [List.any_eq_true]
    rintro ⟨k, hk, hk'⟩
    revert hk'
    rw [keys_dictMerge] at hk
    have : k ∈ f.signature := by
      rcases hk with hk | hk
      · have := (keys_filter (fun k => decide (k ∈ f.signature)) opts k).1 hk
        simpa using this.2
      · have := (keys_filter (fun k => decide (k ∈ f.signature)) _ k).1 hk
        simpa using this.2
    simp [this]

end Calls

end Tranquilo
