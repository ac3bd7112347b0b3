import Verif.Spec.CallUses
import Verif.Props.ProcessArgs

/-!
# Lemmas on options in force and the components that run
-/

namespace Tranquilo

variable {K O : Type} [Field K] [LinearOrder K] [FloorRing K] {n m : Nat}

theorem readsBool_toBool [IsStrictOrderedRing K] (env : PyEnv K O) (v : PyVal K O) :
    ReadsBool env v (toBool env v) := by
  refine typedValue_storedAs env _ _ _ ?_
  cases v <;> rfl

theorem readsFloat_of [IsStrictOrderedRing K] (env : PyEnv K O) (v : PyVal K O) (q : K)
    (h : toFloat env v = .ok (.fin q)) : ReadsFloat env v q := by
  refine typedValue_storedAs env _ _ _ ?_
  cases v <;> simp_all [typedValue, keepsValue, convertTo, toFloat, Except.map]

theorem readsInt_of [IsStrictOrderedRing K] (env : PyEnv K O) (v : PyVal K O) (i : ℤ)
    (h : toInt env v = .ok i) : ReadsInt env v i := by
  cases v with
  | bool b =>
    cases h
    cases b
    · exact Or.inr (Or.inr ⟨rfl, rfl⟩)
    · exact Or.inr (Or.inl ⟨rfl, rfl⟩)
  | none => cases h
  | obj o => cases h
  | int j => cases h; exact Or.inl (.int _ _)
  | flt y =>
    refine Or.inl (typedValue_storedAs env _ _ _ ?_)
    simp [typedValue, keepsValue, convertTo, h, Except.map]
  | str s =>
    refine Or.inl (typedValue_storedAs env _ _ _ ?_)
    simp [typedValue, keepsValue, convertTo, h, Except.map]

/-- The dict has the value in force for the option. -/
def Holds (env : PyEnv K O) (user : Option (UserOptions K O)) (d : Dict (PyVal K O)) (k : String)
    (default : PyVal K O) : Prop :=
  ∃ w, d.lookup k = some w ∧ InForce env user k default w

theorem holds_bundle [IsStrictOrderedRing K] (env : PyEnv K O) (defaults out : Dict (PyVal K O))
    (user : Option (UserOptions K O)) (h : updateOptionBundle env defaults user = .ok out) (k : String)
    (default : PyVal K O) (hk : defaults.lookup k = some default) : Holds env user out k default := by
  cases user with
  | none => cases h; exact ⟨default, hk, Or.inl ⟨rfl, Or.inl rfl⟩⟩
  | some u =>
    have key : ∀ d, (u = .dict d ∨ u = .namedTuple d) → Holds env (some u) out k default := by
      intro d hu
      have hg : Gives (some u) d := by rcases hu with rfl | rfl; exacts [Or.inl rfl, Or.inr rfl]
      obtain ⟨h1, h2⟩ := (C58_update_changes_named_fields env defaults out d u hu h).2.2 k default hk
      cases hv : d.lookup k with
      | none => exact ⟨default, h1 hv, Or.inl ⟨rfl, Or.inr ⟨d, hg, hv⟩⟩⟩
      | some v =>
        obtain ⟨w, hw, hs⟩ := h2 v hv
        exact ⟨w, hw, Or.inr ⟨d, v, hg, hv, hs⟩⟩
    cases u with
    | dict d => exact key d (Or.inl rfl)
    | namedTuple d => exact key d (Or.inr rfl)
    | other => cases h

theorem Holds.uses_num {env : PyEnv K O} {user : Option (UserOptions K O)} {d : Dict (PyVal K O)} {k : String}
    {default : PyVal K O} (h : Holds env user d k default) {q : K} (hq : numOf d k = some q) :
    Uses env user k default (num q) := by
  obtain ⟨w, hw, hf⟩ := h
  simp only [numOf, hw] at hq
  split at hq
  · rename_i heq; cases heq; cases hq; exact Or.inl hf
  · rename_i i heq; cases heq; cases hq; exact Or.inr ⟨i, hf, rfl⟩
  · cases hq

theorem Holds.uses_int {env : PyEnv K O} {user : Option (UserOptions K O)} {d : Dict (PyVal K O)} {k : String}
    {default : PyVal K O} (h : Holds env user d k default) {i : ℤ} (hq : intOf d k = some i) :
    Uses env user k default (.int i) := by
  obtain ⟨w, hw, hf⟩ := h
  simp only [intOf, hw] at hq
  split at hq
  · rename_i heq; cases heq; cases hq; exact Or.inl hf
  · cases hq

theorem sizeOf?_eq {i : ℤ} {k : ℕ} (h : sizeOf? i = some k) : i = k := by
  unfold sizeOf? at h
  split at h
  · cases h; omega
  · cases h

theorem Holds.uses_nat {env : PyEnv K O} {user : Option (UserOptions K O)} {d : Dict (PyVal K O)} {k : String}
    {default : PyVal K O} (h : Holds env user d k default) {i : ℕ} (hq : natOf d k = some i) :
    Uses env user k default (.int i) := by
  simp only [natOf, Option.bind_eq_some_iff] at hq
  obtain ⟨j, hj, hi⟩ := hq
  rw [← sizeOf?_eq hi]
  exact h.uses_int hj

theorem Holds.uses_bool {env : PyEnv K O} {user : Option (UserOptions K O)} {d : Dict (PyVal K O)} {k : String}
    {default : PyVal K O} (h : Holds env user d k default) {b : Bool} (hq : boolOf d k = some b) :
    Uses env user k default (.bool b) := by
  obtain ⟨w, hw, hf⟩ := h
  simp only [boolOf, hw] at hq
  split at hq
  · rename_i heq; cases heq; cases hq; exact Or.inl hf
  · cases hq

theorem Holds.uses_ratio {env : PyEnv K O} {user : Option (UserOptions K O)} {d : Dict (PyVal K O)} {k : String}
    {default : PyVal K O} (h : Holds env user d k default) {q : XVal K} (hq : ratioOf d k = some q) :
    Uses env user k default (.flt q) := by
  obtain ⟨w, hw, hf⟩ := h
  simp only [ratioOf, hw] at hq
  split at hq
  · cases hq
  · rename_i heq; cases heq; cases hq; exact Or.inl hf
  · cases hq

theorem Holds.uses_str {env : PyEnv K O} {user : Option (UserOptions K O)} {d : Dict (PyVal K O)} {k : String}
    {default : PyVal K O} (h : Holds env user d k default) {s : String} (hq : strOf d k = some s) :
    Uses env user k default (.str s) := by
  obtain ⟨w, hw, hf⟩ := h
  simp only [strOf, hw] at hq
  split at hq
  · rename_i heq; cases heq; cases hq; exact Or.inl hf
  · cases hq

theorem Holds.uses_name {env : PyEnv K O} {user : Option (UserOptions K O)} {d : Dict (PyVal K O)} {k : String}
    {default : PyVal K O} (h : Holds env user d k default) {s : Option String} (hq : nameOf d k = some s) :
    Uses env user k default (pyName s) := by
  obtain ⟨w, hw, hf⟩ := h
  simp only [nameOf, hw] at hq
  split at hq
  · rename_i heq; cases heq; cases hq; exact Or.inl hf
  · rename_i heq; cases heq; cases hq; exact Or.inl hf
  · cases hq

theorem Holds.uses_any {env : PyEnv K O} {user : Option (UserOptions K O)} {d : Dict (PyVal K O)} {k : String}
    {default : PyVal K O} (h : Holds env user d k default) {v : PyVal K O} (hq : d.lookup k = some v) :
    Uses env user k default v := by
  obtain ⟨w, hw, hf⟩ := h
  rw [hw] at hq
  cases hq
  exact Or.inl hf

/-- Names occur once, so looking up a name finds the entry at its position. -/
theorem lookup_of_getElem {V : Type} : ∀ (names : List String) (b : Dict V), names.Nodup → b.length = names.length →
    (∀ (i : ℕ) (k : String), names[i]? = some k → ∃ v : V, b[i]? = some (k, v)) → ∀ (i : ℕ) (k : String) (v : V), names[i]? = some k → b[i]? = some (k, v) →
    b.lookup k = some v
  | [], _, _, _, _, i, k, v, h, _ => by simp at h
  | a :: names, [], _, hl, _, _, _, _, _, _ => by simp at hl
  | a :: names, kv :: b, hn, hl, h, i, k, v, hi, hb => by
    obtain ⟨u, hu⟩ := h 0 a rfl
    simp only [List.getElem?_cons_zero, Option.some.injEq] at hu
    subst hu
    cases i with
    | zero =>
      simp only [List.getElem?_cons_zero, Option.some.injEq] at hi hb
      subst hi
      cases hb
      simp
    | succ i =>
      simp only [List.getElem?_cons_succ] at hi hb
      have hne : k ≠ a := by
        rintro rfl
        exact (List.nodup_cons.1 hn).1 (List.mem_of_getElem? hi)
      have : (k == a) = false := by simp [hne]
      simp only [List.lookup_cons, this]
      exact lookup_of_getElem names b (List.nodup_cons.1 hn).2 (by simpa using hl)
        (fun i k hk => h (i + 1) k (by simpa using hk)) i k v hi hb

/-- What a built in function receives when the loop calls it: for each option that is not an argument of the loop, the
value in force. -/
theorem called_builtin [IsStrictOrderedRing K] (env : PyEnv K O) (s : String)
    (funcs : Dict (PyFun (PyVal K O) (Option (Piece K n)))) (f : PyFun (PyVal K O) (Option (Piece K n)))
    (hs : funcs.lookup s = some f) (sig : List String) (hsigeq : f.signature = sig) (hnodup : sig.Nodup)
    (defaults : Dict (PyVal K O)) (user : Option (UserOptions K O)) (mandatory keys : List String)
    (comp : Component (PyVal K O) (Option (Piece K n)))
    (hcomp : getComponent env (.str s) funcs defaults user mandatory = .ok comp) (p : Piece K n)
    (hp : calledPiece comp keys = some p) :
    ∃ d, f.body d = .ok (some p) ∧ ∀ k ∈ sig, k ∉ keys → ∀ default, defaults.lookup k = some default →
      Holds env user d k default := by
  subst hsigeq
  have hsig := hnodup
  have hsel : Selects (.str s) funcs f := Or.inl ⟨s, rfl, hs⟩
  obtain ⟨⟨opts, hopts⟩, -⟩ := (C57_built_iff env (.str s) funcs f hsel defaults user mandatory).1 ⟨comp, hcomp⟩
  obtain ⟨h1, h2⟩ := C57_call_receives env (.str s) funcs f hsel hsig defaults opts user hopts mandatory comp hcomp []
    (keys.map fun k => (k, .none))
  have hrec : ∃ b, Receives f opts [] (keys.map fun k => (k, .none)) b := by
    by_contra hno
    simp only [calledPiece, h2 hno] at hp
    cases hp
  obtain ⟨b, hb⟩ := hrec
  refine ⟨b, ?_, ?_⟩
  · have hcall := h1 b hb
    simp only [calledPiece] at hp
    split at hp
    · rename_i p' hp'
      cases hp
      rw [← hcall, hp']
    · cases hp
  · intro k hk hnk default hdef
    obtain ⟨w, hw, hf⟩ := holds_bundle env defaults opts user hopts k default hdef
    obtain ⟨i, hi⟩ := List.mem_iff_getElem?.1 hk
    have hi' : ∃ q, f.params[i]? = some q ∧ q.name = k := by
      simpa [PyFun.signature] using hi
    obtain ⟨q, hq, hqk⟩ := hi'
    obtain ⟨v, hv, hbv⟩ := hb.2 i q hq
    rw [hqk] at hbv
    have hkw : (keys.map fun k => (k, (PyVal.none : PyVal K O))).lookup k = none := by
      apply (not_mem_keys_iff k _).1
      simpa [Dict.keys, Function.comp_def] using hnk
    have hvw : v = w := by
      simp only [receivedValue, hqk, hkw, hw] at hv
      simpa using hv.symm
    subst hvw
    refine ⟨v, ?_, hf⟩
    refine lookup_of_getElem f.signature b hsig (by simp [hb.1, PyFun.signature]) ?_ i k v hi hbv
    intro j k' hj
    have hj' : ∃ q, f.params[j]? = some q ∧ q.name = k' := by
      simpa [PyFun.signature] using hj
    obtain ⟨q', hq', hqk'⟩ := hj'
    obtain ⟨v', -, hb'⟩ := hb.2 j q' hq'
    exact ⟨v', by rw [hb', hqk']⟩

end Tranquilo
