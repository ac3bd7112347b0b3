import Verif.Props.History

/-!
# Property C76: negative indices

The documentation of `get_xs`, `get_fvecs` and `get_fvals` allows "anything that can be used to index into
a 1d numpy array". For numpy, -k is the k-th last entry.
-/

namespace Tranquilo

variable {V : Type} [FloatLike V]

/-- The position that a numpy index refers to in an array with `n` entries: specification. -/
def IndexOf (n : Nat) (i : Int) (p : Nat) : Prop :=
  p < n ∧ ((p : Int) = i ∨ (p : Int) = n + i ∧ i < 0)

theorem normIndex_of {n : Nat} {i : Int} {p : Nat} (h : IndexOf n i p) : normIndex n i = .ok p := by
  obtain ⟨hp, h | ⟨h, hneg⟩⟩ := h
  · subst h; exact normIndex_nat n p hp
  · unfold normIndex
    rw [if_neg (by omega), if_pos (by omega)]
    congr 1; omega

theorem normIndex_out {n : Nat} {i : Int} (h : ∀ p, ¬ IndexOf n i p) : normIndex n i = .error .indexError := by
  unfold normIndex
  rw [if_neg, if_neg]
  · rintro ⟨h1, h2⟩
    exact h (n + i).toNat ⟨by omega, Or.inr ⟨by omega, h1⟩⟩
  · rintro ⟨h1, h2⟩
    exact h i.toNat ⟨by omega, Or.inl (by omega)⟩

theorem npGet_of {α : Type} {arr : List α} {i : Int} {p : Nat} (h : IndexOf arr.length i p) :
    npGet arr i = .ok (arr[p]'h.1) := by
  simp only [npGet, normIndex_of h, List.getElem?_eq_getElem h.1]

/-- C76: `get_xs(i)` reads the vector that numpy's rule for (negative) indices refers to. -/
theorem C76_read_vector {ft : Functype} {d w : Nat} (hd : 0 < d) (hw : 0 < w) {h : History V}
    {xs : List (List V)} {evs : List (Nat × List V)} (ht : Trace ft d w h xs evs) {i : Int} {p : Nat}
    (hp : IndexOf xs.length i p) : h.getX i = .ok (xs[p]'hp.1) := by
  have hr := trace_rep hd hw ht
  obtain ⟨m, hm, htk⟩ := rep_xs_some hr (List.ne_nil_of_length_pos (by have := hp.1; omega))
  simp only [History.getX, hm, htk]
  exact npGet_of hp

/-- C76: in particular -k is the k-th last vector. -/
theorem C76_read_vector_from_end {ft : Functype} {d w : Nat} (hd : 0 < d) (hw : 0 < w) {h : History V}
    {xs : List (List V)} {evs : List (Nat × List V)} (ht : Trace ft d w h xs evs) (k : Nat)
    (hk : k < xs.length) : h.getX (-((k : Int) + 1)) = .ok (xs.reverse[k]'(by simpa)) := by
  have hp : IndexOf xs.length (-((k : Int) + 1)) (xs.length - 1 - k) := ⟨by omega, Or.inr ⟨by omega, by omega⟩⟩
  rw [C76_read_vector hd hw ht hp, List.getElem_reverse]

/-- C76: all other indices raise IndexError. -/
theorem C76_read_vector_out_of_range {ft : Functype} {d w : Nat} (hd : 0 < d) (hw : 0 < w)
    {h : History V} {xs : List (List V)} {evs : List (Nat × List V)} (ht : Trace ft d w h xs evs)
    (hne : xs ≠ []) {i : Int} (hi : (xs.length : Int) ≤ i ∨ i < -(xs.length : Int)) :
    h.getX i = .error .indexError := by
  have hr := trace_rep hd hw ht
  obtain ⟨m, hm, htk⟩ := rep_xs_some hr hne
  simp only [History.getX, hm, htk, npGet]
  rw [normIndex_out]
  rintro p ⟨h1, h2⟩
  omega

theorem mapM_ok_forall₂ {α β : Type} {f : α → Except Err β} {is : List α} {ps : List β}
    (h : List.Forall₂ (fun i p => f i = .ok p) is ps) : is.mapM f = .ok ps := by
  induction h with
  | nil => rfl
  | cons h1 _ ih => rw [List.mapM_cons, h1, ih]; rfl

/-- C76: reading a list of vectors, with any mixture of signs. -/
theorem C76_read_vectors {ft : Functype} {d w : Nat} (hd : 0 < d) (hw : 0 < w) {h : History V}
    {xs : List (List V)} {evs : List (Nat × List V)} (ht : Trace ft d w h xs evs) (hne : xs ≠ [])
    {is : List Int} {ps : List Nat} (hps : List.Forall₂ (IndexOf xs.length) is ps) :
    h.getXs is = .ok (ps.filterMap fun p => xs[p]?) := by
  have hr := trace_rep hd hw ht
  obtain ⟨m, hm, htk⟩ := rep_xs_some hr hne
  simp only [History.getXs, hm, htk]
  induction hps with
  | nil => rfl
  | cons h1 _ ih =>
    rw [List.mapM_cons, npGet_of h1, ih, List.filterMap_cons, List.getElem?_eq_getElem h1.1]
    rfl

theorem extractMany_congr {α : Type} (arr : List α) (mapper : List (List Nat)) {is : List Int}
    {ps : List Nat} {n : Nat} (hps : List.Forall₂ (IndexOf n) is ps) :
    extractMany arr mapper is n = extractMany arr mapper (ps.map Int.ofNat) n := by
  have h1 : is.mapM (normIndex n) = .ok ps := mapM_ok_forall₂ (hps.imp fun _ _ => normIndex_of)
  have h2 : (ps.map Int.ofNat).mapM (normIndex n) = .ok ps := mapM_normIndex n ps (by
    intro p hp
    induction hps with
    | nil => simp at hp
    | cons a _ ih =>
      rcases List.mem_cons.1 hp with rfl | hp
      · exact a.1
      · exact ih (mapM_ok_forall₂ (by assumption |> fun h => List.Forall₂.imp (fun _ _ => normIndex_of) h)) hp)
  unfold extractMany
  rw [h1, h2]

/-- C76: reading the evaluations for a list of distinct points, with any mixture of signs: the keys of
the result are the positions. -/
theorem C76_read_evaluations {ft : Functype} {d w : Nat} (hd : 0 < d) (hw : 0 < w) {h : History V}
    {xs : List (List V)} {evs : List (Nat × List V)} (ht : Trace ft d w h xs evs) (hne : evs ≠ [])
    {is : List Int} {ps : List Nat} (hps : List.Forall₂ (IndexOf xs.length) is ps) (hnd : ps.Nodup) :
    h.getFvecs is = .ok (ps.map fun p => (p, (evs.filter fun q => q.1 = p).map Prod.snd)) := by
  have hlt : ∀ p ∈ ps, p < xs.length := by
    intro p hp
    clear hnd
    induction hps with
    | nil => simp at hp
    | cons a _ ih =>
      rcases List.mem_cons.1 hp with rfl | hp
      · exact a.1
      · exact ih hp
  rw [← C02_evaluations_read_back_many hd hw ht hne ps hnd hlt]
  have hr := trace_rep hd hw ht
  obtain ⟨m, hm, _, _⟩ := rep_fvecs_some hr hne
  simp only [History.getFvecs, hm, hr.nxs]
  exact extractMany_congr _ _ hps

theorem mapM_fails {α β : Type} {f : α → Except Err β} {e : Err} {l : List α}
    (hall : ∀ a ∈ l, f a = .error e ∨ ∃ b, f a = .ok b) (hex : ∃ a ∈ l, f a = .error e) : l.mapM f = .error e := by
  induction l with
  | nil => simp at hex
  | cons a l ih =>
    rw [List.mapM_cons]
    rcases hall a (by simp) with h | ⟨b, h⟩
    · rw [h]; rfl
    · have : ∃ a ∈ l, f a = .error e := by
        obtain ⟨a', ha', h'⟩ := hex
        rcases List.mem_cons.1 ha' with rfl | ha'
        · rw [h] at h'; cases h'
        · exact ⟨a', ha', h'⟩
      rw [h, ih (fun a ha => hall a (by simp [ha])) this]
      rfl

theorem normIndex_cases (n : Nat) (i : Int) :
    (∃ p, IndexOf n i p ∧ normIndex n i = .ok p) ∨ normIndex n i = .error .indexError := by
  by_cases h : ∃ p, IndexOf n i p
  · obtain ⟨p, hp⟩ := h
    exact Or.inl ⟨p, hp, normIndex_of hp⟩
  · exact Or.inr (normIndex_out fun p hp => h ⟨p, hp⟩)

/-- C76: a list with an index that is out of range raises IndexError, for vectors and for evaluations. -/
theorem C76_list_out_of_range {ft : Functype} {d w : Nat} (hd : 0 < d) (hw : 0 < w)
    {h : History V} {xs : List (List V)} {evs : List (Nat × List V)} (ht : Trace ft d w h xs evs)
    {is : List Int} (hi : ∃ i ∈ is, (xs.length : Int) ≤ i ∨ i < -(xs.length : Int)) :
    (xs ≠ [] → h.getXs is = .error .indexError) ∧ (evs ≠ [] → h.getFvecs is = .error .indexError) := by
  have hr := trace_rep hd hw ht
  obtain ⟨i, hmem, hi⟩ := hi
  have hout : normIndex xs.length i = .error .indexError := normIndex_out (by
    rintro p ⟨h1, h2⟩
    omega)
  refine ⟨fun hne => ?_, fun hne => ?_⟩
  · obtain ⟨m, hm, htk⟩ := rep_xs_some hr hne
    simp only [History.getXs, hm, htk]
    refine mapM_fails (fun j _ => ?_) ⟨i, hmem, by simp only [npGet, hout]⟩
    rcases normIndex_cases xs.length j with ⟨p, hp, -⟩ | h'
    · exact Or.inr ⟨_, npGet_of hp⟩
    · exact Or.inl (by simp only [npGet, h'])
  · obtain ⟨m, hm, _, _⟩ := rep_fvecs_some hr hne
    simp only [History.getFvecs, hm, hr.nxs, extractMany]
    rw [mapM_fails (e := .indexError) (fun j _ => ?_) ⟨i, hmem, hout⟩]
    · rfl
    · rcases normIndex_cases xs.length j with ⟨p, -, hp⟩ | h'
      · exact Or.inr ⟨p, hp⟩
      · exact Or.inl h'

/-- C76: so does a single index that is out of range, for evaluations. -/
theorem C76_read_evaluation_out_of_range {ft : Functype} {d w : Nat} (hd : 0 < d) (hw : 0 < w)
    {h : History V} {xs : List (List V)} {evs : List (Nat × List V)} (ht : Trace ft d w h xs evs) (hne : evs ≠ [])
    {i : Int} (hi : (xs.length : Int) ≤ i ∨ i < -(xs.length : Int)) : h.getFvec i = .error .indexError := by
  have hl := (C76_list_out_of_range hd hw ht (is := [i]) ⟨i, by simp, hi⟩).2 hne
  obtain ⟨m, hm, _, _⟩ := rep_fvecs_some (trace_rep hd hw ht) hne
  simp only [History.getFvecs, hm] at hl
  simp only [History.getFvec, hm, extractOne, hl]
  rfl

/-- C76: reading the criterion values for a list of distinct points, with any mixture of signs. -/
theorem C76_read_values {ft : Functype} {d w : Nat} (hd : 0 < d) (hw : 0 < w) (hscalar : ft = .scalar → w = 1)
    {h : History V} {xs : List (List V)} {evs : List (Nat × List V)} (ht : Trace ft d w h xs evs) (hne : evs ≠ [])
    {is : List Int} {ps : List Nat} (hps : List.Forall₂ (IndexOf xs.length) is ps) (hnd : ps.Nodup) :
    h.getFvals is = .ok (ps.map fun p => (p, ((evs.filter fun q => q.1 = p).map Prod.snd).map (criterionValue ft))) := by
  have hlt : ∀ p ∈ ps, p < xs.length := by
    intro p hp
    clear hnd
    induction hps with
    | nil => simp at hp
    | cons a _ ih =>
      rcases List.mem_cons.1 hp with rfl | hp
      · exact a.1
      · exact ih hp
  have hr := trace_rep hd hw ht
  have h1 := rep_getFvals hr hne ps hlt
  rw [dictFromKeys_nodup] at h1
  · obtain ⟨a, ha, _⟩ := rep_fvals_some hr hne
    have h2 : h.getFvals is = h.getFvals (ps.map Int.ofNat) := by
      simp only [History.getFvals, ha, hr.nxs]
      exact extractMany_congr _ _ hps
    rw [h2, h1]
    congr 1
    apply List.map_congr_left
    intro p hp
    rw [Prod.mk.injEq]
    refine ⟨rfl, ?_⟩
    obtain ⟨fvecs, e1, e2⟩ := C03_fvals_agree_with_fvecs hd hw hscalar ht hne p (hlt p hp)
    rw [rep_getFval hr hne p (hlt p hp)] at e2
    rw [rep_getFvec hr hne p (hlt p hp)] at e1
    cases e1
    exact Except.ok.inj e2
  · rw [List.map_map]
    rw [show (Prod.fst ∘ fun i => (i, (submittedFor evs i).map ft.aggregateRow)) = id from rfl]
    simpa using hnd

/-- C76 does not hold for single negative indices: the evaluations of the last point cannot be read
with `get_fvecs(-1)`, nor with any other negative index. -/
theorem C76_violated_single_negative {ft : Functype} {d w : Nat} (hd : 0 < d) (hw : 0 < w)
    {h : History V} {xs : List (List V)} {evs : List (Nat × List V)} (ht : Trace ft d w h xs evs)
    (hne : evs ≠ []) {i : Int} {p : Nat} (hp : IndexOf xs.length i p) (hneg : i < 0) :
    h.getFvec i = .error .keyError := by
  have hr := trace_rep hd hw ht
  obtain ⟨m, hm, _, htk⟩ := rep_fvecs_some hr hne
  simp only [History.getFvec, hm, extractOne, hr.nxs]
  rw [extractMany_congr (ps := [p]) _ _ (List.Forall₂.cons hp List.Forall₂.nil), htk,
    extractMany_eq id [p] (by simpa using hp.1) hr.hm]
  simp only [dictFromKeys, List.map_cons, List.map_nil, List.filter_nil, bind, Except.bind]
  rw [List.find?_cons_of_neg (by simp; omega)]
  rfl

-- a history with two vectors and three evaluations
example : ((History.init .scalar).run exampleOps).getX (-2) = .ok [.fin 1, .fin (2 : ℚ)] := by
  decide +kernel
example : ((History.init .scalar).run exampleOps).getFvecs [-1, 0]
    = .ok [(1, [[.fin 6]]), (0, [[.fin 5], [(.pinf : XVal ℚ)]])] := by
  decide +kernel
example : ((History.init .scalar).run exampleOps).getFvec (-1) = .error .keyError := by
  decide +kernel

end Tranquilo
