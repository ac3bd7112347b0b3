import Verif.Lemmas.History

namespace Tranquilo

variable {V : Type} [FloatLike V]

/-! ## Reading -/

theorem dictFromKeys_nodup {α : Type} (l : List (Nat × α)) (h : (l.map Prod.fst).Nodup) :
    dictFromKeys l = l := by
  induction l with
  | nil => rfl
  | cons p l ih =>
    obtain ⟨k, v⟩ := p
    simp only [List.map_cons, List.nodup_cons] at h
    rw [dictFromKeys, ih h.2]
    congr 1
    rw [List.filter_eq_self]
    intro q hq
    simp only [ne_eq, decide_eq_true_eq]
    rintro rfl
    exact h.1 (List.mem_map.2 ⟨q, hq, rfl⟩)

theorem normIndex_nat (n i : Nat) (hi : i < n) : normIndex n (i : Int) = .ok i := by
  unfold normIndex
  rw [if_pos ⟨by omega, by omega⟩]
  simp

theorem mapM_normIndex (n : Nat) (is : List Nat) (his : ∀ i ∈ is, i < n) :
    (is.map Int.ofNat).mapM (normIndex n) = .ok is := by
  induction is with
  | nil => rfl
  | cons i is ih =>
    rw [List.map_cons, List.mapM_cons, ih (fun j hj => his j (List.mem_cons_of_mem _ hj))]
    have := normIndex_nat n i (his i List.mem_cons_self)
    rw [show Int.ofNat i = (i : Int) from rfl, this]; rfl

/-- Reading all evaluations of point `i` from a buffer. -/
theorem lookupEvals_eq {β : Type} (g : List V → β) {evs : List (Nat × List V)}
    {mapper : List (List Nat)} {n i : Nat} (hi : i < n)
    (hm : ∀ i, i < n → mapper[i]? = some (positionsOf evs i)) :
    lookupEvals (evs.map fun p => g p.2) mapper i = .ok ((submittedFor evs i).map g) := by
  unfold lookupEvals
  rw [hm i hi]
  simp only
  rw [mapM_npGet, filterMap_positionsOf]
  intro k hk
  obtain ⟨r, hr⟩ := mem_positionsOf.1 hk
  have := (List.getElem?_eq_some_iff.1 hr).1
  simpa using this

theorem extractMany_eq {β : Type} (g : List V → β) {evs : List (Nat × List V)}
    {mapper : List (List Nat)} {n : Nat} (is : List Nat) (his : ∀ i ∈ is, i < n)
    (hm : ∀ i, i < n → mapper[i]? = some (positionsOf evs i)) :
    extractMany (evs.map fun p => g p.2) mapper (is.map Int.ofNat) n
      = .ok (dictFromKeys (is.map fun i => (i, (submittedFor evs i).map g))) := by
  unfold extractMany
  rw [mapM_normIndex n is his]
  have : (is.mapM fun i => do
      let v ← lookupEvals (evs.map fun p => g p.2) mapper i
      pure (i, v) : Except Err _) = .ok (is.map fun i => (i, (submittedFor evs i).map g)) := by
    induction is with
    | nil => rfl
    | cons i is ih =>
      rw [List.mapM_cons, ih (fun j hj => his j (List.mem_cons_of_mem _ hj)),
        lookupEvals_eq g (his i List.mem_cons_self) hm]
      rfl
  simp only [bind, Except.bind, pure, Except.pure] at this ⊢
  rw [this]

theorem extractOne_eq {β : Type} (g : List V → β) {evs : List (Nat × List V)}
    {mapper : List (List Nat)} {n : Nat} (i : Nat) (hi : i < n)
    (hm : ∀ i, i < n → mapper[i]? = some (positionsOf evs i)) :
    extractOne (evs.map fun p => g p.2) mapper i n = .ok ((submittedFor evs i).map g) := by
  unfold extractOne
  have := extractMany_eq g (n := n) [i] (by simpa using hi) hm
  simp only [List.map_cons, List.map_nil] at this
  rw [show (Int.ofNat i : Int) = (i : Int) from rfl] at this
  rw [this]
  simp [dictFromKeys, bind, Except.bind, pure, Except.pure]

theorem rep_fvecs_some {ft d w} {h : History V} {xs evs} (hr : Rep ft d w h xs evs)
    (hne : evs ≠ []) : ∃ m, h.fvecs = some m ∧ m.width = w ∧
      m.rows.take h.n_fun = evs.map fun p => id p.2 := by
  rcases hr.hfvecs with ⟨_, hn⟩ | ⟨m, hm, hw, _, ht⟩
  · simp at hn; exact absurd hn hne
  · exact ⟨m, hm, hw, by simpa [hr.nfun] using ht⟩

theorem rep_fvals_some {ft d w} {h : History V} {xs evs} (hr : Rep ft d w h xs evs)
    (hne : evs ≠ []) : ∃ a, h.fvals = some a ∧
      a.take h.n_fun = evs.map fun p => ft.aggregateRow p.2 := by
  rcases hr.hfvals with ⟨_, hn⟩ | ⟨m, hm, _, ht⟩
  · simp at hn; exact absurd hn hne
  · exact ⟨m, hm, by simpa [hr.nfun] using ht⟩

theorem rep_xs_some {ft d w} {h : History V} {xs evs} (hr : Rep ft d w h xs evs)
    (hne : xs ≠ []) : ∃ m, h.xs = some m ∧ m.rows.take h.n_xs = xs := by
  rcases hr.hxs with ⟨_, hn⟩ | ⟨m, hm, _, _, ht⟩
  · exact absurd hn hne
  · exact ⟨m, hm, by rw [hr.nxs]; exact ht⟩

theorem rep_getFvec {ft d w} {h : History V} {xs evs} (hr : Rep ft d w h xs evs)
    (hne : evs ≠ []) (i : Nat) (hi : i < xs.length) :
    h.getFvec i = .ok (submittedFor evs i) := by
  obtain ⟨m, hm, _, ht⟩ := rep_fvecs_some hr hne
  unfold History.getFvec
  rw [hm]; simp only
  rw [ht, hr.nxs, extractOne_eq id i hi hr.hm]
  simp

theorem rep_getFval {ft d w} {h : History V} {xs evs} (hr : Rep ft d w h xs evs)
    (hne : evs ≠ []) (i : Nat) (hi : i < xs.length) :
    h.getFval i = .ok ((submittedFor evs i).map ft.aggregateRow) := by
  obtain ⟨a, ha, ht⟩ := rep_fvals_some hr hne
  unfold History.getFval
  rw [ha]; simp only
  rw [ht, hr.nxs, extractOne_eq ft.aggregateRow i hi hr.hm]

theorem rep_getFvecs {ft d w} {h : History V} {xs evs} (hr : Rep ft d w h xs evs)
    (hne : evs ≠ []) (is : List Nat) (his : ∀ i ∈ is, i < xs.length) :
    h.getFvecs (is.map Int.ofNat)
      = .ok (dictFromKeys (is.map fun i => (i, submittedFor evs i))) := by
  obtain ⟨m, hm, _, ht⟩ := rep_fvecs_some hr hne
  unfold History.getFvecs
  rw [hm]; simp only
  rw [ht, hr.nxs, extractMany_eq id is his hr.hm]
  simp

theorem rep_getFvals {ft d w} {h : History V} {xs evs} (hr : Rep ft d w h xs evs)
    (hne : evs ≠ []) (is : List Nat) (his : ∀ i ∈ is, i < xs.length) :
    h.getFvals (is.map Int.ofNat)
      = .ok (dictFromKeys (is.map fun i => (i, (submittedFor evs i).map ft.aggregateRow))) := by
  obtain ⟨a, ha, ht⟩ := rep_fvals_some hr hne
  unfold History.getFvals
  rw [ha]; simp only
  rw [ht, hr.nxs, extractMany_eq ft.aggregateRow is his hr.hm]

theorem rep_getXs {ft d w} {h : History V} {xs evs} (hr : Rep ft d w h xs evs)
    (is : List Nat) (hne : xs ≠ []) (his : ∀ i ∈ is, i < xs.length) :
    h.getXs (is.map Int.ofNat) = .ok (is.filterMap fun i => xs[i]?) := by
  obtain ⟨m, hm, ht⟩ := rep_xs_some hr hne
  unfold History.getXs
  rw [hm]; simp only
  rw [ht]
  have := mapM_npGet xs is his
  rw [List.mapM_map]
  exact this

/-! ## The vectors alone, for arbitrary operations -/

/-- The stored vectors. -/
def storedXs (h : History V) : List (List V) :=
  match h.xs with
  | none => []
  | some m => m.rows.take h.n_xs

/-- Invariant of the vector buffer, kept by all operations. -/
def XInv (h : History V) : Prop :=
  (h.xs = none ∧ h.n_xs = 0) ∨
  ∃ m, h.xs = some m ∧ 0 < h.n_xs ∧ h.n_xs ≤ m.rows.length ∧ ∀ r ∈ m.rows.take h.n_xs, r.length = m.width

omit [FloatLike V] in
theorem storedXs_length {h : History V} (hi : XInv h) : (storedXs h).length = h.n_xs := by
  unfold storedXs
  rcases hi with ⟨h1, h2⟩ | ⟨m, h1, h2, h3, _⟩ <;> rw [h1] <;> simp <;> omega

theorem mapM_broadcast_length {w : Nat} {rows out : List (List V)}
    (h : rows.mapM (broadcastRow w) = .ok out) :
    out.length = rows.length ∧ ∀ r ∈ out, r.length = w := by
  induction rows generalizing out with
  | nil => 
    rw [List.mapM_nil] at h
    cases h; simp
  | cons r rs ih =>
    rw [List.mapM_cons] at h
    cases hb : broadcastRow w r with
    | error e => rw [hb] at h; cases h
    | ok r' =>
      cases hbs : rs.mapM (broadcastRow w) with
      | error e => rw [hb, hbs] at h; cases h
      | ok rs' =>
        rw [hb, hbs] at h
        cases h
        obtain ⟨h1, h2⟩ := ih hbs
        refine ⟨by simp [h1], ?_⟩
        intro q hq
        rcases List.mem_cons.1 hq with rfl | hq
        · unfold broadcastRow at hb
          split at hb
          · cases hb; assumption
          · split at hb
            · cases hb; simp
            · cases hb
        · exact h2 q hq

/-- `add_xs` appends (broadcast) rows. -/
theorem addXs_storedXs {h h' : History V} {arg : XsArg V} {out : IdxOut} (hi : XInv h)
    (hh : h.addXs arg = (h', .ok out)) :
    XInv h' ∧ ∃ new, storedXs h' = storedXs h ++ new ∧
      ∀ m, arg.toMat = .ok m → 0 < m.width → new.length = m.rows.length ∧
        ((h.xs = none ∨ ∃ b, h.xs = some b ∧ b.width = m.width) →
          (∀ r ∈ m.rows, r.length = m.width) → new = m.rows) := by
  unfold History.addXs at hh
  split at hh
  · simp at hh
  rename_i m hm
  simp only at hh
  by_cases hn : (if m.width = 0 then 0 else m.rows.length) = 0
  · rw [if_pos hn] at hh
    simp at hh
    obtain ⟨rfl, _⟩ := hh
    refine ⟨hi, [], by simp, ?_⟩
    intro m' hm' hw
    rw [hm'] at hm; cases hm
    rw [if_neg (by omega)] at hn
    refine ⟨by simp [hn], ?_⟩
    intro _ _
    exact (List.eq_nil_of_length_eq_zero hn).symm
  · rw [if_neg hn] at hh
    have hw : m.width ≠ 0 := by intro h0; simp [h0] at hn
    simp only [if_neg hw] at hh hn
    split at hh
    · simp at hh
    rename_i xs' hxs'
    have hh1 : h' = { h with
        xs := some xs', mapper := h.mapper ++ List.replicate m.rows.length []
        n_xs := h.n_xs + m.rows.length } := by
      split at hh <;> (simp at hh; exact hh.1.symm)
    subst hh1
    unfold addEntries2 at hxs'
    simp only at hxs'
    split at hxs'
    · cases hxs'
    rename_i newRows hnew
    cases hxs'
    obtain ⟨hl, hwid⟩ := mapM_broadcast_length hnew
    have hp : h.n_xs ≤ ((h.xs.getD ⟨m.width, List.replicate initialRows
        (List.replicate m.width FloatLike.nan)⟩).rows).length := by
      rcases hi with ⟨h1, h2⟩ | ⟨b, h1, _, h3, _⟩
      · rw [h2]; exact Nat.zero_le _
      · rw [h1]; exact h3
    generalize hB : (h.xs.getD ⟨m.width, List.replicate initialRows
        (List.replicate m.width FloatLike.nan)⟩) = B at *
    have htake := writeAt_take (growBuffer (List.replicate B.width FloatLike.nan) B.rows h.n_xs
      m.rows.length) h.n_xs newRows
      (le_trans (Nat.le_add_right _ _) (growBuffer_length_ge _ _ _ m.rows.length hp))
    rw [growBuffer_take _ _ _ _ hp, hl] at htake
    have hold : B.rows.take h.n_xs = storedXs h := by
      unfold storedXs
      rcases hi with ⟨h1, h2⟩ | ⟨b, h1, _, h3, _⟩
      · rw [h1, h2]; rfl
      · rw [h1] at hB ⊢; simp at hB; rw [hB]
    have hlen := writeAt_length_ge (growBuffer (List.replicate B.width FloatLike.nan) B.rows h.n_xs
      m.rows.length) h.n_xs newRows
      (le_trans (Nat.le_add_right _ _) (growBuffer_length_ge _ _ _ m.rows.length hp))
    refine ⟨Or.inr ⟨_, rfl, by simp only; omega, by simpa [hl] using hlen, ?_⟩, newRows, ?_, ?_⟩
    · simp only
      rw [htake]
      intro r hr
      rcases List.mem_append.1 hr with hr | hr
      · rcases hi with ⟨h1, h2⟩ | ⟨b, h1, _, h3, h4⟩
        · simp [h2] at hr
        · rw [h1] at hB; simp at hB; subst hB
          exact h4 r hr
      · exact hwid r hr
    · show List.take (h.n_xs + m.rows.length) _ = _
      rw [htake, hold]
    · intro m' hm' hw'
      rw [hm'] at hm; cases hm
      refine ⟨hl, ?_⟩
      intro hdim hrows
      have hBw : B.width = m.width := by
        rcases hdim with h1 | ⟨b, h1, h2⟩
        · rw [h1] at hB; simp at hB; rw [← hB]
        · rw [h1] at hB; simp at hB; rw [← hB, h2]
      have := mapM_broadcast_eq B.width m.rows (by rw [hBw]; exact hrows)
      rw [this] at hnew; cases hnew; rfl

theorem addEvals_xs {h : History V} (is : List Int) (es : List (EvalOut V)) :
    (h.addEvals is es).1.xs = h.xs ∧ (h.addEvals is es).1.n_xs = h.n_xs := by
  unfold History.addEvals
  split
  · exact ⟨rfl, rfl⟩
  split
  · exact ⟨rfl, rfl⟩
  split
  · exact ⟨rfl, rfl⟩
  simp only
  split
  · exact ⟨rfl, rfl⟩
  split
  · exact ⟨rfl, rfl⟩
  split <;> exact ⟨rfl, rfl⟩

theorem step_storedXs {h : History V} (hi : XInv h) (op : HistOp V) :
    XInv (h.step op) ∧ storedXs h <+: storedXs (h.step op) := by
  cases op with
  | addXs arg =>
    cases hh : h.addXs arg with
    | mk h' r =>
      simp only [History.step, hh]
      cases r with
      | error e => rw [addXs_error_eq hh]; exact ⟨hi, List.prefix_refl _⟩
      | ok out =>
        obtain ⟨h1, new, h2, _⟩ := addXs_storedXs hi hh
        exact ⟨h1, new, h2.symm⟩
  | addEvals is es =>
    obtain ⟨h1, h2⟩ := addEvals_xs (h := h) is es
    simp only [History.step]
    have : storedXs (h.addEvals is es).1 = storedXs h := by
      unfold storedXs; rw [h1, h2]
    refine ⟨?_, by rw [this]; exact List.prefix_refl _⟩
    unfold XInv; rw [h1, h2]; exact hi

theorem run_storedXs {h : History V} (hi : XInv h) (ops : List (HistOp V)) :
    XInv (h.run ops) ∧ storedXs h <+: storedXs (h.run ops) := by
  unfold History.run
  induction ops generalizing h with
  | nil => exact ⟨hi, List.prefix_refl _⟩
  | cons op ops ih =>
    obtain ⟨h1, h2⟩ := step_storedXs hi op
    obtain ⟨h3, h4⟩ := ih h1
    exact ⟨h3, h2.trans h4⟩

theorem getX_stored {h : History V} (hi : XInv h) (k : Nat) (x : List V)
    (hk : (storedXs h)[k]? = some x) : h.getX k = .ok x := by
  have hkl := (List.getElem?_eq_some_iff.1 hk).1
  unfold storedXs at hk hkl
  unfold History.getX
  cases hx : h.xs with
  | none => rw [hx] at hk; simp at hk
  | some m =>
    rw [hx] at hk hkl
    simp only at hk hkl ⊢
    rw [npGet_nat _ _ hkl]
    rw [List.getElem?_eq_getElem hkl] at hk
    simpa using hk

end Tranquilo
