import Verif.Spec.OptionBundles
import Verif.Lemmas.CallUses

/-!
# Lemmas on option bundles with plain values
-/

namespace Tranquilo

variable {K O : Type} [Field K] [LinearOrder K] [FloorRing K] {n m : Nat}

theorem mem_of_lookup_some {V : Type} : ∀ (l : List (String × V)) {k : String} {v : V}, l.lookup k = some v → (k, v) ∈ l
  | [], _, _, h => by cases h
  | (a, b) :: l, k, v, h => by
    by_cases hka : k = a
    · subst hka
      simp at h
      simp [h]
    · have : (k == a) = false := by simp [hka]
      simp only [List.lookup_cons, this] at h
      exact List.mem_cons_of_mem _ (mem_of_lookup_some l h)

/-- Values as they are stored. -/
def OptionKind.Stored : OptionKind → PyVal K O → Prop
  | .number, v => ∃ q : K, v = .flt (.fin q)
  | .ratio, v => v = .flt .pinf ∨ ∃ q : K, v = .flt (.fin q)
  | .size, v => ∃ i, v = .int i ∧ 0 ≤ i
  | .flag, v => ∃ b, v = .bool b
  | .text, v => ∃ s, v = .str s
  | .any, _ => True

/-- Defaults of options of a kind. -/
def OptionKind.DefaultOf : OptionKind → PyVal K O → Prop
  | .any, v => v = .none
  | kind, v => kind.Stored v

theorem OptionKind.DefaultOf.stored {kind : OptionKind} {v : PyVal K O} (h : kind.DefaultOf v) : kind.Stored v := by
  cases kind <;> first | exact h | exact trivial

theorem typed_plain (env : PyEnv K O) {kind : OptionKind} {default v : PyVal K O} (hd : kind.DefaultOf default)
    (hv : kind.Accepts v) : ∃ w, typedValue env default v = .ok w ∧ kind.Stored w := by
  cases kind with
  | number =>
    obtain ⟨q, rfl⟩ := hd
    rcases hv with ⟨r, rfl⟩ | ⟨i, rfl⟩
    · exact ⟨_, rfl, _, rfl⟩
    · exact ⟨_, rfl, _, rfl⟩
  | ratio =>
    rcases hd with rfl | ⟨q, rfl⟩ <;> rcases hv with rfl | ⟨r, rfl⟩
    · exact ⟨_, rfl, Or.inl rfl⟩
    · exact ⟨_, rfl, Or.inr ⟨_, rfl⟩⟩
    · exact ⟨_, rfl, Or.inl rfl⟩
    · exact ⟨_, rfl, Or.inr ⟨_, rfl⟩⟩
  | size =>
    obtain ⟨i, rfl, -⟩ := hd
    obtain ⟨j, rfl, hj⟩ := hv
    exact ⟨_, rfl, _, rfl, hj⟩
  | flag =>
    obtain ⟨i, rfl⟩ := hd
    obtain ⟨j, rfl⟩ := hv
    exact ⟨_, rfl, _, rfl⟩
  | text =>
    obtain ⟨i, rfl⟩ := hd
    obtain ⟨j, rfl⟩ := hv
    exact ⟨_, rfl, _, rfl⟩
  | any =>
    cases hd
    exact ⟨v, rfl, trivial⟩

/-- The defaults have the kinds of the table. -/
def Kinds (kinds : List (String × OptionKind)) (defaults : Dict (PyVal K O)) : Prop :=
  ∀ k kind, kinds.lookup k = some kind → ∃ default, defaults.lookup k = some default ∧ kind.DefaultOf default

theorem Kinds.of_mem {kinds : List (String × OptionKind)} {defaults : Dict (PyVal K O)}
    (h : ∀ e ∈ kinds, ∃ default, defaults.lookup e.1 = some default ∧ e.2.DefaultOf default) : Kinds kinds defaults := by
  intro k kind hk
  exact h (k, kind) (mem_of_lookup_some _ hk)

/-- What is stored for a plain value has its kind. -/
theorem storedAs_plain {env : PyEnv K O} {kind : OptionKind} {default v w : PyVal K O} (hd : kind.DefaultOf default)
    (hv : kind.Accepts v) (h : StoredAs env default v w) : kind.Stored w := by
  cases kind with
  | number =>
    obtain ⟨q, rfl⟩ := hd
    rcases hv with ⟨r, rfl⟩ | ⟨i, rfl⟩
    · cases h; exact ⟨_, rfl⟩
    · cases h; exact ⟨_, rfl⟩
  | ratio =>
    rcases hd with rfl | ⟨q, rfl⟩ <;> rcases hv with rfl | ⟨r, rfl⟩ <;> cases h
    · exact Or.inl rfl
    · exact Or.inr ⟨_, rfl⟩
    · exact Or.inl rfl
    · exact Or.inr ⟨_, rfl⟩
  | size =>
    obtain ⟨i, rfl, -⟩ := hd
    obtain ⟨j, rfl, hj⟩ := hv
    cases h; exact ⟨_, rfl, hj⟩
  | flag =>
    obtain ⟨i, rfl⟩ := hd
    obtain ⟨j, rfl⟩ := hv
    cases h; exact ⟨_, rfl⟩
  | text =>
    obtain ⟨i, rfl⟩ := hd
    obtain ⟨j, rfl⟩ := hv
    cases h
    · exact ⟨_, rfl⟩
    · exact ⟨_, rfl⟩
  | any => exact trivial

/-- A value in force has its kind. -/
theorem inForce_plain {env : PyEnv K O} {kinds : List (String × OptionKind)} {user : Option (UserOptions K O)}
    (hu : PlainOptions kinds user) {k : String} {kind : OptionKind} (hk : kinds.lookup k = some kind)
    {default w : PyVal K O} (hd : kind.DefaultOf default) (h : InForce env user k default w) : kind.Stored w := by
  rcases h with ⟨rfl, -⟩ | ⟨d, v, hg, hl, hst⟩
  · exact hd.stored
  · rcases hu with rfl | ⟨d', hg', hall⟩
    · rcases hg with hg | hg <;> cases hg
    · have hdd : d = d' := by
        rcases hg with rfl | rfl <;> rcases hg' with hg' | hg' <;> cases hg' <;> rfl
      subst hdd
      obtain ⟨kind', hk', hacc⟩ := hall (k, v) (mem_of_lookup_some _ hl)
      have : kind' = kind := Option.some.inj (hk'.symm.trans hk)
      subst this
      exact storedAs_plain hd hacc hst

/-- What is known about a stored option. -/
def Known (env : PyEnv K O) (user : Option (UserOptions K O)) (d : Dict (PyVal K O)) (k : String)
    (kind : OptionKind) (default : PyVal K O) : Prop :=
  ∃ w, d.lookup k = some w ∧ kind.Stored w ∧ InForce env user k default w

/-- Plain options are accepted and stored. -/
theorem plain_ok [IsStrictOrderedRing K] (env : PyEnv K O) {kinds : List (String × OptionKind)}
    {defaults : Dict (PyVal K O)} (hk : Kinds kinds defaults) {user : Option (UserOptions K O)}
    (hu : PlainOptions kinds user) : ∃ out, updateOptionBundle env defaults user = .ok out ∧
      ∀ k kind default, kinds.lookup k = some kind → defaults.lookup k = some default →
        Known env user out k kind default := by
  have key : ∃ out, updateOptionBundle env defaults user = .ok out := by
    rcases hu with rfl | ⟨d, hg, hd⟩
    · exact ⟨defaults, rfl⟩
    · obtain ⟨u, rfl, hu⟩ : ∃ u, user = some u ∧ (u = .dict d ∨ u = .namedTuple d) := by
        rcases hg with rfl | rfl
        · exact ⟨_, rfl, Or.inl rfl⟩
        · exact ⟨_, rfl, Or.inr rfl⟩
      refine (C58_update_succeeds_iff env defaults d u hu).2 fun kv hkv => ?_
      obtain ⟨kind, hkind, hacc⟩ := hd kv hkv
      obtain ⟨default, hl, hdef⟩ := hk _ _ hkind
      obtain ⟨w, hw, -⟩ := typed_plain env hdef hacc
      exact ⟨default, hl, w, typedValue_storedAs env _ _ _ hw⟩
  obtain ⟨out, hout⟩ := key
  refine ⟨out, hout, fun k kind default hkind hdef => ?_⟩
  obtain ⟨w, hw, hf⟩ := holds_bundle env defaults out user hout k default hdef
  obtain ⟨default', hl, hd⟩ := hk _ _ hkind
  rw [hdef] at hl
  cases hl
  exact ⟨w, hw, inForce_plain hu hkind hd hf, hf⟩

/-- A built in function with plain options is called with the stored values. -/
theorem piece_plain [IsStrictOrderedRing K] {R : Type} (env : PyEnv K O) (s : String)
    (funcs : Dict (PyFun (PyVal K O) R)) (f : PyFun (PyVal K O) R)
    (hs : funcs.lookup s = some f) (sig : List String) (hsigeq : f.signature = sig) (hnodup : sig.Nodup)
    (defaults : Dict (PyVal K O)) (user : Option (UserOptions K O)) (mandatory keys : List String)
    (hman : ∀ a ∈ mandatory, a ∈ sig)
    (hpar : ∀ p ∈ f.params, p.name ∈ keys ∨ (defaults.lookup p.name).isSome = true ∨ p.default.isSome = true)
    (kinds : List (String × OptionKind)) (hk : Kinds kinds defaults) (hu : PlainOptions kinds user) :
    ∃ comp d, getComponent env (.str s) funcs defaults user mandatory = .ok comp ∧
      comp.call [] (keys.map fun k => (k, .none)) = f.body d ∧
      ∀ k ∈ sig, k ∉ keys → ∀ kind default, kinds.lookup k = some kind → defaults.lookup k = some default →
        Known env user d k kind default := by
  subst hsigeq
  have hsel : Selects (.str s) funcs f := Or.inl ⟨s, rfl, hs⟩
  obtain ⟨opts, hopts, hknown⟩ := plain_ok env hk hu
  obtain ⟨comp, hcomp⟩ := (C57_built_iff env (.str s) funcs f hsel defaults user mandatory).2 ⟨⟨opts, hopts⟩, hman⟩
  obtain ⟨h1, -⟩ := C57_call_receives env (.str s) funcs f hsel hnodup defaults opts user hopts mandatory comp hcomp []
    (keys.map fun k => (k, .none))
  have hkw : ∀ k, k ∉ keys → (keys.map fun k => (k, (PyVal.none : PyVal K O))).lookup k = none := by
    intro k hnk
    apply (not_mem_keys_iff k _).1
    simpa [Dict.keys, Function.comp_def] using hnk
  have hrec : ∀ p ∈ f.params, ∀ i, (receivedValue opts [] (keys.map fun k => (k, .none)) i p).isSome = true := by
    intro p hp i
    unfold receivedValue
    by_cases hin : p.name ∈ keys
    · have : ((keys.map fun k => (k, (PyVal.none : PyVal K O))).lookup p.name).isSome = true := by
        rw [← Option.ne_none_iff_isSome, Ne, ← not_mem_keys_iff]
        simpa [Dict.keys, Function.comp_def] using hin
      obtain ⟨v, hv⟩ := Option.isSome_iff_exists.1 this
      rw [hv]; rfl
    · rw [hkw _ hin]
      rcases hpar p hp with h | h | h
      · exact absurd h hin
      · obtain ⟨default, hd⟩ := Option.isSome_iff_exists.1 h
        obtain ⟨w, hw, -⟩ := holds_bundle env defaults opts user hopts _ _ hd
        rw [hw]; rfl
      · obtain ⟨v, hv⟩ := Option.isSome_iff_exists.1 h
        rw [hv]
        cases opts.lookup p.name <;> rfl
  have hpos : ∀ p i, receivedValue opts [] (keys.map fun k => (k, (PyVal.none : PyVal K O))) i p =
      receivedValue opts [] (keys.map fun k => (k, .none)) 0 p := by
    intro p i
    simp [receivedValue]
  have hb : Receives f opts [] (keys.map fun k => (k, .none)) (f.params.map fun p =>
      (p.name, (receivedValue opts [] (keys.map fun k => (k, .none)) 0 p).getD .none)) := by
    refine ⟨by simp, fun i p hp => ?_⟩
    obtain ⟨v, hv⟩ := Option.isSome_iff_exists.1 (hrec p (List.mem_of_getElem? hp) 0)
    refine ⟨v, (hpos p i).trans hv, ?_⟩
    rw [List.getElem?_map, hp, Option.map_some, hv]
    rfl
  refine ⟨comp, _, hcomp, h1 _ hb, fun k hk hnk kind default hkind hdef => ?_⟩
  obtain ⟨w, hw, hst, hf⟩ := hknown k kind default hkind hdef
  refine ⟨w, ?_, hst, hf⟩
  obtain ⟨i, hi⟩ := List.mem_iff_getElem?.1 hk
  have hi' : ∃ q, f.params[i]? = some q ∧ q.name = k := by
    simpa [PyFun.signature] using hi
  obtain ⟨q, hq, hqk⟩ := hi'
  refine lookup_of_getElem f.signature _ hnodup (by simp [PyFun.signature]) ?_ i k w hi ?_
  · intro j k' hj
    have hj' : ∃ q, f.params[j]? = some q ∧ q.name = k' := by
      simpa [PyFun.signature] using hj
    obtain ⟨q', hq', hqk'⟩ := hj'
    exact ⟨_, by rw [List.getElem?_map, hq', Option.map_some, hqk']⟩
  · rw [List.getElem?_map, hq, Option.map_some, hqk]
    simp only [receivedValue, hqk, hkw k hnk, hw]
    rfl

section Read

variable {env : PyEnv K O} {user : Option (UserOptions K O)} {d : Dict (PyVal K O)} {k : String} {default : PyVal K O}

theorem Known.num (h : Known env user d k .number default) : ∃ q, numOf d k = some q := by
  obtain ⟨w, hw, ⟨q, rfl⟩, -⟩ := h
  exact ⟨q, by simp only [numOf, hw]⟩

theorem Known.ratio (h : Known env user d k .ratio default) : ∃ q, ratioOf d k = some q := by
  obtain ⟨w, hw, h, -⟩ := h
  rcases h with rfl | ⟨q, rfl⟩
  · exact ⟨.pinf, by simp only [ratioOf, hw]⟩
  · exact ⟨.fin q, by simp only [ratioOf, hw]⟩

theorem Known.int (h : Known env user d k .size default) : ∃ i, intOf d k = some i := by
  obtain ⟨w, hw, ⟨i, rfl, hi⟩, -⟩ := h
  exact ⟨i, by simp only [intOf, hw]⟩

theorem Known.nat (h : Known env user d k .size default) : ∃ i, natOf d k = some i := by
  obtain ⟨w, hw, ⟨i, rfl, hi⟩, -⟩ := h
  exact ⟨i.toNat, by simp only [natOf, intOf, hw, Option.bind_some, sizeOf?, if_pos hi]⟩

theorem Known.sizeNum (h : Known env user d k .size default) : ∃ q, numOf d k = some q := by
  obtain ⟨w, hw, ⟨i, rfl, hi⟩, -⟩ := h
  exact ⟨i, by simp only [numOf, hw]⟩

theorem Known.bool (h : Known env user d k .flag default) : ∃ q, boolOf d k = some q := by
  obtain ⟨w, hw, ⟨q, rfl⟩, -⟩ := h
  exact ⟨q, by simp only [boolOf, hw]⟩

theorem Known.str (h : Known env user d k .text default) : ∃ q, strOf d k = some q := by
  obtain ⟨w, hw, ⟨q, rfl⟩, -⟩ := h
  exact ⟨q, by simp only [strOf, hw]⟩

theorem Known.any {kind : OptionKind} (h : Known env user d k kind default) : ∃ q, d.lookup k = some q := by
  obtain ⟨w, hw, -⟩ := h
  exact ⟨w, hw⟩

end Read

end Tranquilo
