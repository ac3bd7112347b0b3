import Verif.Spec.History

namespace Tranquilo

section buffers
variable {α : Type}

theorem growBuffer_length_ge (f : α) (arr : List α) (p n : Nat) (hp : p ≤ arr.length) :
    p + n ≤ (growBuffer f arr p n).length := by
  unfold growBuffer
  split
  · simp only [List.length_append, List.length_replicate]; omega
  · omega

theorem growBuffer_take (f : α) (arr : List α) (p n : Nat) (hp : p ≤ arr.length) :
    (growBuffer f arr p n).take p = arr.take p := by
  unfold growBuffer
  split
  · rw [List.take_append_of_le_length hp]
  · rfl

theorem writeAt_take (arr : List α) (p : Nat) (new : List α) (hp : p ≤ arr.length) :
    (writeAt arr p new).take (p + new.length) = arr.take p ++ new := by
  unfold writeAt
  rw [List.take_append_of_le_length]
  · rw [List.take_of_length_le]
    simp [hp]
  · simp [hp]

theorem writeAt_length_ge (arr : List α) (p : Nat) (new : List α) (hp : p ≤ arr.length) :
    p + new.length ≤ (writeAt arr p new).length := by
  unfold writeAt
  simp [hp]

end buffers

theorem mapM_broadcast_eq {V : Type} (w : Nat) (rows : List (List V))
    (h : ∀ r ∈ rows, r.length = w) : rows.mapM (broadcastRow w) = .ok rows := by
  induction rows with
  | nil => rfl
  | cons r rs ih =>
    rw [List.mapM_cons, ih (fun r' hr' => h r' (List.mem_cons_of_mem _ hr'))]
    have : broadcastRow w r = .ok r := by
      unfold broadcastRow; rw [if_pos (h r List.mem_cons_self)]
    rw [this]; rfl

/-- What a two dimensional buffer represents. -/
def Rep2 {V : Type} (w : Nat) (buf : Option (Buf V)) (rows : List (List V)) : Prop :=
  (buf = none ∧ rows = []) ∨
  ∃ m, buf = some m ∧ m.width = w ∧ rows.length ≤ m.rows.length ∧ m.rows.take rows.length = rows

/-- What a one dimensional buffer represents. -/
def Rep1 {V : Type} (buf : Option (List V)) (vals : List V) : Prop :=
  (buf = none ∧ vals = []) ∨
  ∃ a, buf = some a ∧ vals.length ≤ a.length ∧ a.take vals.length = vals

theorem rep2_addEntries {V : Type} [FloatLike V] {w : Nat} {buf : Option (Buf V)}
    {rows new newB : List (List V)} {nw : Nat} (hrep : Rep2 w buf rows)
    (hnone : buf = none → nw = w ∧ newB = new)
    (hb : new.mapM (broadcastRow w) = .ok newB) (hl : newB.length = new.length) :
    ∃ m, addEntries2 buf ⟨nw, new⟩ rows.length = .ok m ∧ Rep2 w (some m) (rows ++ newB) := by
  rcases hrep with ⟨hn, hr⟩ | ⟨m, hm, hw, hlen, htake⟩
  · obtain ⟨rfl, rfl⟩ := hnone hn
    subst hn; subst hr
    refine ⟨_, by simp only [addEntries2, Option.getD_none, hb]; rfl, Or.inr ⟨_, rfl, rfl, ?_, ?_⟩⟩
    · simpa using writeAt_length_ge _ 0 newB (Nat.zero_le _)
    · simpa using writeAt_take _ 0 newB (Nat.zero_le _)
  · subst hm; subst hw
    have heq : addEntries2 (some m) ⟨nw, new⟩ rows.length = .ok ⟨m.width,
        writeAt (growBuffer (List.replicate m.width FloatLike.nan) m.rows rows.length new.length)
          rows.length newB⟩ := by
      simp only [addEntries2, Option.getD_some, hb]
    refine ⟨_, heq, Or.inr ⟨_, rfl, rfl, ?_, ?_⟩⟩
    · simp only [List.length_append]
      apply writeAt_length_ge
      exact le_trans (Nat.le_add_right _ _) (growBuffer_length_ge _ _ _ new.length hlen)
    · simp only [List.length_append]
      rw [writeAt_take, growBuffer_take _ _ _ _ hlen, htake]
      exact le_trans (Nat.le_add_right _ _) (growBuffer_length_ge _ _ _ new.length hlen)

theorem rep1_addEntries {V : Type} [FloatLike V] {buf : Option (List V)} {vals new : List V}
    (hrep : Rep1 buf vals) : Rep1 (some (addEntries1 buf new vals.length)) (vals ++ new) := by
  rcases hrep with ⟨hn, hr⟩ | ⟨a, ha, hlen, htake⟩
  · subst hn; subst hr
    refine Or.inr ⟨_, rfl, ?_, ?_⟩
    · simpa [addEntries1] using writeAt_length_ge _ 0 new (Nat.zero_le _)
    · simpa [addEntries1] using writeAt_take _ 0 new (Nat.zero_le _)
  · subst ha
    refine Or.inr ⟨_, rfl, ?_, ?_⟩
    · simp only [List.length_append, addEntries1, Option.getD_some]
      apply writeAt_length_ge
      exact le_trans (Nat.le_add_right _ _) (growBuffer_length_ge _ _ _ new.length hlen)
    · simp only [List.length_append, addEntries1, Option.getD_some]
      rw [writeAt_take, growBuffer_take _ _ _ _ hlen, htake]
      exact le_trans (Nat.le_add_right _ _) (growBuffer_length_ge _ _ _ new.length hlen)

/-- Positions of the evaluations of point `i` in the log. -/
def positionsOf {V : Type} (evs : List (Nat × List V)) (i : Nat) : List Nat :=
  (evs.zipIdx.filter fun p => p.1.1 = i).map Prod.snd

/-- The mapper after appending the pairs `(x, n + k)`. -/
theorem appendToMapper_ok {V : Type} (evs : List (Nat × List V)) (mapper : List (List Nat))
    (is : List Nat) (rows : List (List V)) (hlen : is.length = rows.length)
    (his : ∀ i ∈ is, i < mapper.length)
    (hm : ∀ i, i < mapper.length → mapper[i]? = some (positionsOf evs i)) :
    ∃ m', appendToMapper mapper ((is.map Int.ofNat).zip (List.range' evs.length is.length))
        = (m', .ok ()) ∧ m'.length = mapper.length ∧
      ∀ i, i < mapper.length → m'[i]? = some (positionsOf (evs ++ is.zip rows) i) := by
  induction is generalizing evs mapper rows with
  | nil => exact ⟨mapper, rfl, rfl, by simpa using hm⟩
  | cons i is ih =>
    cases rows with
    | nil => simp at hlen
    | cons r rows =>
      have hi : i < mapper.length := his i List.mem_cons_self
      have key := ih (evs ++ [(i, r)]) (mapper.modify i (· ++ [evs.length])) rows
        (by simpa using hlen) (by
          intro j hj; simpa using his j (List.mem_cons_of_mem _ hj)) (by
          intro j hj
          have hj' : j < mapper.length := by simpa using hj
          rw [List.getElem?_modify, hm j hj']
          by_cases hij : i = j
          · subst hij
            simp [positionsOf, List.zipIdx_append, List.filter_append]
          · simp [positionsOf, List.zipIdx_append, List.filter_append, hij])
      obtain ⟨m', h1, h2, h3⟩ := key
      refine ⟨m', ?_, by simpa using h2, ?_⟩
      · simp only [List.map_cons, List.length_cons, List.range'_succ, List.zip_cons_cons,
          appendToMapper]
        rw [if_pos ⟨by simp, by simpa using hi⟩]
        simpa using h1
      · intro j hj
        have := h3 j (by simpa using hj)
        simpa using this

theorem npGet_nat {α : Type} (arr : List α) (i : Nat) (hi : i < arr.length) :
    npGet arr (i : Int) = .ok arr[i] := by
  unfold npGet normIndex
  rw [if_pos ⟨by omega, by omega⟩]
  simp [hi]

theorem mapM_npGet {α : Type} (arr : List α) (is : List Nat) (his : ∀ i ∈ is, i < arr.length) :
    (is.mapM fun (f : Nat) => npGet arr f) = .ok (is.filterMap fun i => arr[i]?) := by
  induction is with
  | nil => rfl
  | cons i is ih =>
    rw [List.mapM_cons, ih (fun j hj => his j (List.mem_cons_of_mem _ hj)),
      npGet_nat _ _ (his i List.mem_cons_self)]
    simp [his i List.mem_cons_self]
    rfl

theorem mem_positionsOf {V : Type} {evs : List (Nat × List V)} {i k : Nat} :
    k ∈ positionsOf evs i ↔ ∃ r, evs[k]? = some (i, r) := by
  unfold positionsOf
  simp only [List.mem_map, List.mem_filter, decide_eq_true_eq]
  constructor
  · rintro ⟨⟨⟨j, r⟩, k'⟩, ⟨hm, hj⟩, rfl⟩
    rw [List.mem_zipIdx_iff_getElem?] at hm
    simp only at hj hm
    subst hj
    exact ⟨r, by simpa using hm⟩
  · rintro ⟨r, hr⟩
    exact ⟨((i, r), k), ⟨by rw [List.mem_zipIdx_iff_getElem?]; simpa using hr, rfl⟩, rfl⟩

/-- Reading the positions of point `i` gives the evaluations submitted for `i`. -/
theorem filterMap_positionsOf {V β : Type} (g : List V → β) (evs : List (Nat × List V)) (i : Nat) :
    (positionsOf evs i).filterMap (fun k => (evs.map fun p => g p.2)[k]?)
      = (submittedFor evs i).map g := by
  unfold positionsOf submittedFor
  rw [List.filterMap_map]
  have : ∀ (n : Nat) (pre es : List (Nat × List V)), pre.length = n →
      List.filterMap ((fun k => ((pre ++ es).map fun p => g p.2)[k]?) ∘ Prod.snd)
        ((es.zipIdx n).filter fun p => p.1.1 = i)
      = (((es.filter fun p => p.1 = i).map Prod.snd).map g) := by
    intro n pre es
    induction es generalizing n pre with
    | nil => intro _; rfl
    | cons e es ih =>
      intro hn
      have ih' := ih (n + 1) (pre ++ [e]) (by simp [hn])
      simp only [List.append_assoc, List.singleton_append] at ih'
      rw [List.zipIdx_cons, List.filter_cons, List.filter_cons]
      by_cases he : e.1 = i
      · simp only [he, decide_true, if_true]
        rw [List.filterMap_cons_some (b := g e.2), ih']
        · rfl
        · simp [← hn]
      · simp only [he, decide_false]
        exact ih'
  simpa using this 0 [] evs rfl

variable {V : Type} [FloatLike V]

/-- The representation invariant. -/
structure Rep (ft : Functype) (d w : Nat) (h : History V) (xs : List (List V))
    (evs : List (Nat × List V)) : Prop where
  ft_eq : h.functype = ft
  nxs : h.n_xs = xs.length
  nfun : h.n_fun = evs.length
  hxs : Rep2 d h.xs xs
  hfvecs : Rep2 w h.fvecs (evs.map Prod.snd)
  hfvals : Rep1 h.fvals (evs.map fun p => ft.aggregateRow p.2)
  mlen : h.mapper.length = xs.length
  hm : ∀ i, i < xs.length → h.mapper[i]? = some (positionsOf evs i)
  idx : ∀ p ∈ evs, p.1 < xs.length
  xdim : ∀ x ∈ xs, x.length = d
  fdim : ∀ p ∈ evs, p.2.length = w

omit [FloatLike V] in
theorem positionsOf_eq_nil {evs : List (Nat × List V)} {n i : Nat}
    (h : ∀ p ∈ evs, p.1 < n) (hi : n ≤ i) : positionsOf evs i = [] := by
  rw [List.eq_nil_iff_forall_not_mem]
  intro k hk
  obtain ⟨r, hr⟩ := mem_positionsOf.1 hk
  have := h _ (List.mem_of_getElem? hr)
  simp at this; omega

theorem rep_addXs_mat {ft d w} {h : History V} {xs evs} (hr : Rep ft d w h xs evs)
    (new : List (List V)) (hnew : ∀ r ∈ new, r.length = d) :
    ∃ m, addEntries2 h.xs ⟨d, new⟩ h.n_xs = .ok m ∧
      Rep ft d w { h with
        xs := some m, mapper := h.mapper ++ List.replicate new.length [],
        n_xs := h.n_xs + new.length } (xs ++ new) evs := by
  obtain ⟨m, h1, h2⟩ := rep2_addEntries (nw := d) hr.hxs (fun _ => ⟨rfl, rfl⟩)
    (mapM_broadcast_eq d new hnew) rfl
  refine ⟨m, by rw [hr.nxs]; exact h1, ?_⟩
  refine ⟨hr.ft_eq, by simp [hr.nxs], hr.nfun, h2, hr.hfvecs, hr.hfvals, by simp [hr.mlen], ?_, ?_, ?_,
    hr.fdim⟩
  · intro i hi
    simp only [List.length_append] at hi
    by_cases hlt : i < xs.length
    · simp only
      rw [List.getElem?_append_left (by rw [hr.mlen]; exact hlt), hr.hm i hlt]
    · simp only
      rw [List.getElem?_append_right (by rw [hr.mlen]; omega),
        positionsOf_eq_nil hr.idx (by omega)]
      rw [List.getElem?_replicate, if_pos (by rw [hr.mlen]; omega)]
  · intro p hp; have := hr.idx p hp; simp; omega
  · intro x hx; rcases List.mem_append.1 hx with hx | hx
    · exact hr.xdim x hx
    · exact hnew x hx

theorem addXs_error_eq {h h' : History V} {arg : XsArg V} {e : Err}
    (hh : h.addXs arg = (h', .error e)) : h' = h := by
  unfold History.addXs at hh
  split at hh
  · simp at hh; exact hh.1.symm
  · rename_i m _
    simp only at hh
    by_cases hn : (if m.width = 0 then 0 else m.rows.length) = 0
    · rw [if_pos hn] at hh; simp at hh
    · rw [if_neg hn] at hh
      split at hh
      · simp at hh; exact hh.1.symm
      · split at hh <;> simp at hh

theorem rep_addXs_single {ft d w} {h h' : History V} {xs evs} {out} (hr : Rep ft d w h xs evs)
    (hd : 0 < d) (x : List V) (hx : x.length = d)
    (hh : h.addXs (.single x) = (h', .ok out)) :
    out = .one xs.length ∧ Rep ft d w h' (xs ++ [x]) evs := by
  obtain ⟨m, h1, h2⟩ := rep_addXs_mat hr [x] (by simpa using hx)
  unfold History.addXs at hh
  simp only [XsArg.toMat, hx] at hh
  rw [if_neg (by rw [if_neg (by omega)]; simp), h1] at hh
  simp only [Prod.mk.injEq, Except.ok.injEq] at hh
  obtain ⟨hh1, hh2⟩ := hh
  subst hh1; subst hh2
  refine ⟨by rw [hr.nxs], ?_⟩
  simpa [show d ≠ 0 by omega] using h2

theorem rep_addXs_many {ft d w} {h h' : History V} {xs evs} {out} (hr : Rep ft d w h xs evs)
    (hd : 0 < d) (rows : List (List V)) (hrows : ∀ r ∈ rows, r.length = d)
    (hh : h.addXs (.many rows) = (h', .ok out)) :
    out = .many (List.range' xs.length rows.length) ∧ Rep ft d w h' (xs ++ rows) evs := by
  cases rows with
  | nil =>
    simp [History.addXs, XsArg.toMat] at hh
    obtain ⟨rfl, rfl⟩ := hh
    simpa using hr
  | cons r rs =>
    have hrd : r.length = d := hrows r List.mem_cons_self
    obtain ⟨m, h1, h2⟩ := rep_addXs_mat hr (r :: rs) hrows
    have hall : (rs.all fun r' => decide (r'.length = r.length)) = true := by
      rw [List.all_eq_true]; intro r' hr'
      simp [hrd, hrows r' (List.mem_cons_of_mem _ hr')]
    unfold History.addXs at hh
    have hmat : (XsArg.many (r :: rs)).toMat = .ok ⟨d, r :: rs⟩ := by
      rw [← hrd]; simp only [XsArg.toMat, hall, if_true]
    rw [hmat] at hh
    simp only at hh
    rw [if_neg (by rw [if_neg (by omega)]; simp), h1] at hh
    simp only [Prod.mk.injEq, Except.ok.injEq] at hh
    obtain ⟨hh1, hh2⟩ := hh
    subst hh1; subst hh2
    refine ⟨by simp [hr.nxs, show d ≠ 0 by omega], ?_⟩
    simpa [show d ≠ 0 by omega] using h2

omit [FloatLike V] in
theorem allScalars_map (vs : List V) : allScalars (vs.map EvalOut.sc) = some vs := by
  induction vs with
  | nil => rfl
  | cons v vs ih => simp [allScalars, ih]

omit [FloatLike V] in
theorem allVectors_map (rows : List (List V)) : allVectors (rows.map EvalOut.vec) = some rows := by
  induction rows with
  | nil => rfl
  | cons v vs ih => simp [allVectors, ih]

/-- Storing prepared rows. -/
theorem rep_store {ft d w} {h : History V} {xs evs} (hr : Rep ft d w h xs evs)
    (is : List Nat) (his : ∀ i ∈ is, i < xs.length) (nw : Nat) (new newB : List (List V))
    (hlen : is.length = new.length)
    (hnone : h.fvecs = none → nw = w ∧ newB = new)
    (hb : new.mapM (broadcastRow w) = .ok newB) (hl : newB.length = new.length)
    (hagg : new.map ft.aggregateRow = newB.map ft.aggregateRow)
    (hdim : ∀ r ∈ newB, r.length = w) :
    ∃ m m', addEntries2 h.fvecs ⟨nw, new⟩ h.n_fun = .ok m ∧
      appendToMapper h.mapper ((is.map Int.ofNat).zip (List.range' h.n_fun is.length))
        = (m', .ok ()) ∧
      Rep ft d w { h with
        fvecs := some m
        fvals := some (addEntries1 h.fvals (new.map ft.aggregateRow) h.n_fun)
        mapper := m'
        n_fun := h.n_fun + is.length } xs (evs ++ is.zip newB) := by
  obtain ⟨m, h1, h2⟩ := rep2_addEntries (nw := nw) hr.hfvecs hnone hb hl
  obtain ⟨m', h3, h4, h5⟩ := appendToMapper_ok evs h.mapper is newB (by omega)
    (by rw [hr.mlen]; exact his) (by rw [hr.mlen]; exact hr.hm)
  have hsnd : (is.zip newB).map Prod.snd = newB := by
    rw [List.map_snd_zip]; omega
  have hagg2 : (is.zip newB).map (fun p => ft.aggregateRow p.2) = newB.map ft.aggregateRow := by
    conv_rhs => rw [← hsnd]
    rw [List.map_map]; rfl
  refine ⟨m, m', ?_, ?_, ?_⟩
  · rw [hr.nfun]; simpa using h1
  · rw [hr.nfun]; exact h3
  · refine ⟨hr.ft_eq, hr.nxs, ?_, hr.hxs, ?_, ?_, ?_, ?_, ?_, hr.xdim, ?_⟩
    · simp [hr.nfun]; omega
    · simpa [List.map_append, hsnd] using h2
    · have := rep1_addEntries (new := new.map ft.aggregateRow) hr.hfvals
      simp only [List.length_map] at this
      simpa [hr.nfun, List.map_append, hagg2, hagg] using this
    · simp only; rw [h4, hr.mlen]
    · intro i hi; exact h5 i (by rw [hr.mlen]; exact hi)
    · intro p hp
      rcases List.mem_append.1 hp with hp | hp
      · exact hr.idx p hp
      · exact his _ (List.of_mem_zip hp).1
    · intro p hp
      rcases List.mem_append.1 hp with hp | hp
      · exact hr.fdim p hp
      · exact hdim _ (List.of_mem_zip hp).2

theorem addEvals_core {ft d w} {h : History V} {xs evs} (hr : Rep ft d w h xs evs)
    (is : List Nat) (es : List (EvalOut V)) (his : ∀ i ∈ is, i < xs.length) (hne : is ≠ [])
    (nw : Nat) (new newB : List (List V))
    (hmat : evalsToMat ft es = .ok ⟨nw, new⟩)
    (hlen : is.length = new.length)
    (hnone : h.fvecs = none → nw = w ∧ newB = new)
    (hb : new.mapM (broadcastRow w) = .ok newB) (hl : newB.length = new.length)
    (hagg : new.map ft.aggregateRow = newB.map ft.aggregateRow)
    (hdim : ∀ r ∈ newB, r.length = w) :
    ∃ h', h.addEvals (is.map Int.ofNat) es = (h', .ok ()) ∧
      Rep ft d w h' xs (evs ++ is.zip newB) := by
  obtain ⟨m, m', h1, h2, h3⟩ := rep_store hr is his nw new newB hlen hnone hb hl hagg hdim
  refine ⟨_, ?_, h3⟩
  unfold History.addEvals
  rw [if_neg, if_neg, hr.ft_eq, hmat]
  · simp only [List.length_map]
    rw [if_neg (by simpa using hlen), h1]
    simp only [List.length_map, h2, hr.ft_eq]
  · simpa using hne
  · simp only [not_not, List.all_eq_true, List.mem_map, decide_eq_true_eq]
    rintro i ⟨j, hj, rfl⟩
    have := his j hj
    rw [hr.nxs]; simp; exact this

theorem addEvals_ok_facts {h h' : History V} {is : List Int} {es : List (EvalOut V)}
    (hh : h.addEvals is es = (h', .ok ())) :
    (∀ i ∈ is, i < h.n_xs) ∧
      (is = [] ∨ ∃ m, evalsToMat h.functype es = .ok m ∧ is.length = m.rows.length) := by
  unfold History.addEvals at hh
  split at hh
  · simp at hh
  rename_i hall
  simp only [not_not, List.all_eq_true, decide_eq_true_eq] at hall
  refine ⟨hall, ?_⟩
  split at hh
  · left; rename_i h0; simpa using h0
  split at hh
  · simp at hh
  rename_i m hm
  right
  refine ⟨m, hm, ?_⟩
  by_contra hne
  simp [hne] at hh

theorem evalsToMat_submission {ft : Functype} {w : Nat} {es : List (EvalOut V)}
    {rows : List (List V)} (hs : Submission ft w es rows) (hne : rows ≠ []) (hw : 0 < w) :
    evalsToMat ft es = .ok ⟨w, rows⟩ ∧ ∀ r ∈ rows, r.length = w := by
  cases hs with
  | scalars vs hft hw =>
    subst hft; subst hw
    simp [evalsToMat, allScalars_map]
  | vectors _ hft hrw =>
    refine ⟨?_, hrw⟩
    cases rows with
    | nil => simp at hne
    | cons r rs =>
      have hr : r.length = w := hrw r List.mem_cons_self
      have hall : (rs.all fun r' => decide (r'.length = r.length)) = true := by
        rw [List.all_eq_true]; intro r' hr'
        simp [hr, hrw r' (List.mem_cons_of_mem _ hr')]
      have hsc : allScalars ((r :: rs).map EvalOut.vec) = none := rfl
      unfold evalsToMat
      rw [hsc, allVectors_map]
      simp only [hall, if_true]
      rw [if_neg (by omega)]
      cases ft <;> simp_all

theorem addEvals_error_eq {ft d w} {h h' : History V} {xs evs} (hr : Rep ft d w h xs evs)
    (is : List Nat) {es : List (EvalOut V)} {e : Err}
    (hh : h.addEvals (is.map Int.ofNat) es = (h', .error e)) : h' = h := by
  unfold History.addEvals at hh
  split at hh
  · simp at hh; exact hh.1.symm
  rename_i hall
  simp only [not_not, List.all_eq_true, decide_eq_true_eq, List.mem_map] at hall
  split at hh
  · simp at hh
  split at hh
  · simp at hh; exact hh.1.symm
  simp only at hh
  split at hh
  · simp at hh; exact hh.1.symm
  split at hh
  · simp at hh; exact hh.1.symm
  exfalso
  have his : ∀ i ∈ is, i < h.mapper.length := by
    intro i hi
    have := hall i ⟨i, hi, rfl⟩
    rw [hr.nxs] at this; rw [hr.mlen]; exact_mod_cast this
  obtain ⟨m', h1, -⟩ := appendToMapper_ok evs h.mapper is (List.replicate is.length [])
    (by simp) his (by rw [hr.mlen]; exact hr.hm)
  rw [hr.nfun] at hh
  simp only [List.length_map, h1] at hh
  simp at hh

/-- The representation invariant holds in all traces. -/
theorem trace_rep {ft : Functype} {d w : Nat} (hd : 0 < d) (hw : 0 < w) {h : History V} {xs evs}
    (ht : Trace ft d w h xs evs) : Rep ft d w h xs evs := by
  induction ht with
  | new =>
    exact ⟨rfl, rfl, rfl, Or.inl ⟨rfl, rfl⟩, Or.inl ⟨rfl, rfl⟩, Or.inl ⟨rfl, rfl⟩, rfl,
      by simp, by simp, by simp, by simp⟩
  | addXs rows _ hrows hh ih => exact (rep_addXs_many ih hd rows hrows hh).2
  | addX x _ hx hh ih => exact (rep_addXs_single ih hd x hx hh).2
  | addXsRaises arg _ hh ih => rw [addXs_error_eq hh]; exact ih
  | addEvalsRaises is es _ hh ih => rw [addEvals_error_eq ih is hh]; exact ih
  | @addEvals h h' xs evs is es rows _ hs hh ih =>
    obtain ⟨h1, h2⟩ := addEvals_ok_facts hh
    rcases is with _ | ⟨i, is⟩
    · have : h' = h := by
        simp [History.addEvals] at hh; exact hh.symm
      rw [this]; simpa using ih
    · rcases h2 with h2 | ⟨m, hm, hl⟩
      · simp at h2
      · have hne : rows ≠ [] := by
          intro hnil
          rw [ih.ft_eq] at hm
          cases hs with
          | scalars vs hft _ =>
            have hvs : vs = [] := by simpa using hnil
            subst hvs; subst hft
            simp [evalsToMat, allScalars] at hm
            subst hm; simp at hl
          | vectors _ hft _ =>
            subst hnil
            cases ft <;> simp_all [evalsToMat, allScalars]
        obtain ⟨hmat, hdim⟩ := evalsToMat_submission hs hne hw
        rw [ih.ft_eq, hmat] at hm
        cases hm
        obtain ⟨h'', h3, h4⟩ := addEvals_core ih (i :: is) es (by
            intro j hj
            have := h1 j (List.mem_map.2 ⟨j, hj, rfl⟩)
            rw [ih.nxs] at this; exact_mod_cast this) (by simp) w rows rows hmat
          (by simpa using hl) (fun _ => ⟨rfl, rfl⟩) (mapM_broadcast_eq w rows hdim) rfl rfl hdim
        rw [hh] at h3
        cases h3
        exact h4
  | @addFailedEval h h' xs evs i v _ hft hevs hagg hh ih =>
    obtain ⟨h1, h2⟩ := addEvals_ok_facts hh
    have hbuf : h.fvecs ≠ none := by
      rcases ih.hfvecs with ⟨_, hnil⟩ | ⟨m, hm, _⟩
      · simp at hnil; exact absurd hnil hevs
      · rw [hm]; simp
    have hmat : evalsToMat ft [EvalOut.sc v] = .ok ⟨1, [[v]]⟩ := by
      cases ft <;> simp_all [evalsToMat, allScalars]
    have hb : [[v]].mapM (broadcastRow w) = .ok [List.replicate w v] := by
      by_cases hw1 : w = 1
      · subst hw1; rfl
      · have : broadcastRow w [v] = .ok (List.replicate w v) := by
          unfold broadcastRow
          rw [if_neg (by simpa using fun h => hw1 h.symm)]
        rw [List.mapM_cons, this]; rfl
    obtain ⟨h'', h3, h4⟩ := addEvals_core ih [i] [.sc v] (by
        intro j hj
        have := h1 i (by simp)
        rw [ih.nxs] at this
        simp at hj; subst hj; exact_mod_cast this) (by simp) 1 [[v]] [List.replicate w v] hmat
      rfl (fun hn => absurd hn hbuf) hb rfl (by simpa using hagg) (by simp)
    have : (h', (Except.ok () : Except Err Unit)) = (h'', .ok ()) := by
      rw [← hh, ← h3]; rfl
    cases this
    exact h4

end Tranquilo
