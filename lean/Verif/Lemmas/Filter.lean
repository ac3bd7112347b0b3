import Verif.Model.Filter
import Mathlib.Data.List.Perm.Basic
import Mathlib.Data.List.Nodup

/-!
# Lemmas on `drop_worst_points`
-/

namespace Tranquilo

theorem argFirst_spec {α : Type} (better : α → α → Bool)
    (hneg : ∀ a b c, better a b = false → better b c = false → better a c = false)
    (hasym : ∀ a b, better a b = true → better b a = false)
    (l : List α) (hl : l ≠ []) :
    ∃ b, l[argFirst better l]? = some b ∧ ∀ a ∈ l, better a b = false := by
  have hirr : ∀ a, better a a = false := by
    intro a
    cases h : better a a
    · rfl
    · exact absurd (hasym a a h) (by simp [h])
  induction l with
  | nil => exact absurd rfl hl
  | cons a l ih =>
    rw [argFirst]
    by_cases hn : l = []
    · subst hn
      exact ⟨a, by simp, by simp [hirr]⟩
    · obtain ⟨b, hb, hall⟩ := ih hn
      rw [hb]
      simp only
      by_cases h : better b a = true
      · rw [if_pos h]
        refine ⟨b, by simpa using hb, fun c hc => ?_⟩
        rcases List.mem_cons.1 hc with rfl | hc
        · exact hasym _ _ h
        · exact hall c hc
      · rw [if_neg h]
        have h : better b a = false := by simpa using h
        refine ⟨a, by simp, fun c hc => ?_⟩
        rcases List.mem_cons.1 hc with rfl | hc
        · exact hirr _
        · exact hneg _ _ _ (hall c hc) h

variable {K : Type} [Field K] [LinearOrder K] {n : Nat}

omit [Field K] in
theorem argMax_spec (l : List K) (hl : l ≠ []) :
    ∃ b, l[argMax l]? = some b ∧ ∀ a ∈ l, a ≤ b := by
  obtain ⟨b, h1, h2⟩ := argFirst_spec (fun a b : K => decide (b < a))
    (by intro a b c h1 h2; simp only [decide_eq_false_iff_not, not_lt] at *; exact h1.trans h2)
    (by intro a b h; simp only [decide_eq_true_eq, decide_eq_false_iff_not, not_lt] at *; exact h.le)
    l hl
  exact ⟨b, h1, fun a ha => by simpa using h2 a ha⟩

omit [Field K] in
theorem argMinDist_spec (l : List (Option K)) (hl : l ≠ []) :
    ∃ b, l[argFirst distLt l]? = some b ∧ ∀ a ∈ l, distLt a b = false := by
  refine argFirst_spec distLt ?_ ?_ l hl
  · intro a b c
    cases a <;> cases b <;> cases c <;> simp [distLt]
    intro h1 h2; exact h2.trans h1
  · intro a b
    cases a <;> cases b <;> simp [distLt]
    intro h; exact h.le

theorem getElem?_flatten {α : Type} (N : Nat) (m : List (List α)) (hrow : ∀ r ∈ m, r.length = N)
    (k : Nat) : m.flatten[k]? = (m[k / N]?).bind fun r => r[k % N]? := by
  by_cases hN : N = 0
  · subst hN
    have : m.flatten = [] := by
      rw [List.flatten_eq_nil_iff]
      intro r hr; exact List.length_eq_zero_iff.1 (hrow r hr)
    rw [this]
    cases h : m[k / 0]? with
    | none => simp
    | some r =>
      have := hrow r (List.mem_of_getElem? h)
      have : r = [] := List.length_eq_zero_iff.1 this
      simp [this]
  · induction m generalizing k with
    | nil => simp
    | cons r m ih =>
      have hr := hrow r (by simp)
      rw [List.flatten_cons]
      by_cases hk : k < N
      · rw [List.getElem?_append_left (by omega), Nat.div_eq_of_lt hk, Nat.mod_eq_of_lt hk]
        simp
      · have hk : N ≤ k := by omega
        rw [List.getElem?_append_right (by omega), hr, ih (fun s hs => hrow s (by simp [hs]))]
        have h1 : k / N = (k - N) / N + 1 := by
          rw [Nat.div_eq_sub_div (by omega) hk]
        have h2 : (k - N) % N = k % N := (Nat.mod_eq_sub_mod hk).symm
        rw [h1, List.getElem?_cons_succ, h2]

/-- The arrays as one list of pairs. -/
def ofPairs (nrm : Vec K n → K) (x : Vec K n) (l : List (Vec K n × Nat)) : Points K n :=
  { xs := l.map Prod.fst, indices := l.map Prod.snd
    dists := l.map fun p => nrm fun k => p.1 k - x k }

theorem eraseIdx_map' {α β : Type} (f : α → β) (l : List α) (k : Nat) :
    (l.map f).eraseIdx k = (l.eraseIdx k).map f := by
  induction l generalizing k with
  | nil => simp
  | cons a l ih => cases k <;> simp [ih]

omit [LinearOrder K] in
theorem delete_ofPairs (nrm : Vec K n → K) (x : Vec K n) (l : List (Vec K n × Nat)) (k : Nat) :
    (ofPairs nrm x l).delete k = ofPairs nrm x (l.eraseIdx k) := by
  simp [ofPairs, Points.delete, eraseIdx_map']

theorem perm_eraseIdx {α : Type} (l : List α) (k : Nat) (p : α) (hp : l[k]? = some p) :
    (l.eraseIdx k ++ [p]).Perm l := by
  induction l generalizing k with
  | nil => simp at hp
  | cons a l ih =>
    cases k with
    | zero =>
      simp only [List.getElem?_cons_zero, Option.some.injEq] at hp
      subst hp
      simp
    | succ k =>
      simp only [List.getElem?_cons_succ] at hp
      simpa using ih k hp

/-- Result of the first loop. -/
theorem dropOutside_spec (nrm : Vec K n → K) (x : Vec K n) (radius : K) (m : Nat)
    (l : List (Vec K n × Nat)) :
    ∃ (kept dropped : List (Vec K n × Nat)) (left : Nat),
      dropOutside radius m (ofPairs nrm x l) = (ofPairs nrm x kept, left) ∧
      kept.Sublist l ∧ (kept ++ dropped).Perm l ∧ dropped.length + left = m ∧
      (∀ q ∈ dropped, radius < nrm fun k => q.1 k - x k) ∧
      (∀ p ∈ kept, ∀ q ∈ dropped, (nrm fun k => p.1 k - x k) ≤ nrm fun k => q.1 k - x k) ∧
      (0 < left → ∀ p ∈ kept, (nrm fun k => p.1 k - x k) ≤ radius) := by
  induction m generalizing l with
  | zero => exact ⟨l, [], 0, rfl, List.Sublist.refl _, by simp, rfl, by simp, by simp, by simp⟩
  | succ m ih =>
    rw [dropOutside]
    by_cases h : ((ofPairs nrm x l).dists.any fun d => decide (radius < d)) = true
    · rw [if_pos h]
      have hne : (ofPairs nrm x l).dists ≠ [] := by
        intro he; rw [he] at h; simp at h
      obtain ⟨b, hb1, hb2⟩ := argMax_spec _ hne
      set k := argMax (ofPairs nrm x l).dists
      have hb1' : (l.map fun p => nrm fun k => p.1 k - x k)[k]? = some b := hb1
      rw [List.getElem?_map, Option.map_eq_some_iff] at hb1'
      obtain ⟨q0, hq0, hqb⟩ := hb1'
      rw [delete_ofPairs]
      obtain ⟨kept, dropped, left, h1, h2, h3, h4, h5, h6, h7⟩ := ih (l.eraseIdx k)
      have hmax : ∀ p ∈ l, (nrm fun k => p.1 k - x k) ≤ b := fun p hp =>
        hb2 _ (List.mem_map.2 ⟨p, hp, rfl⟩)
      refine ⟨kept, dropped ++ [q0], left, h1, h2.trans (List.eraseIdx_sublist _ _), ?_, ?_, ?_, ?_, h7⟩
      · rw [← List.append_assoc]
        exact (h3.append_right [q0]).trans (perm_eraseIdx l k q0 hq0)
      · simp only [List.length_append, List.length_cons, List.length_nil]; omega
      · intro q hq
        rcases List.mem_append.1 hq with hq | hq
        · exact h5 q hq
        · rw [List.mem_singleton.1 hq]
          rw [List.any_eq_true] at h
          obtain ⟨d, hd, hd'⟩ := h
          have := hb2 d hd
          rw [hqb]
          exact lt_of_lt_of_le (by simpa using hd') this
      · intro p hp q hq
        rcases List.mem_append.1 hq with hq | hq
        · exact h6 p hp q hq
        · rw [List.mem_singleton.1 hq, hqb]
          exact hmax p (List.mem_of_mem_eraseIdx (h2.subset hp))
    · rw [if_neg h]
      refine ⟨l, [], m + 1, rfl, List.Sublist.refl _, by simp, by simp, by simp, by simp, ?_⟩
      intro _ p hp
      by_contra hc
      apply h
      rw [List.any_eq_true]
      exact ⟨_, List.mem_map.2 ⟨p, hp, rfl⟩, by simpa using hc⟩

omit [LinearOrder K] in
theorem pairDists_getElem (nrm : Vec K n → K) (xs : List (Vec K n)) (i j : Nat) :
    ((pairDists nrm xs)[i]?).bind (fun r => r[j]?) =
      (xs[i]?).bind fun a => (xs[j]?).map fun b =>
        if i = j then none else some (nrm fun k => a k - b k) := by
  simp only [pairDists, List.getElem?_mapIdx]
  cases xs[i]? with
  | none => rfl
  | some a => simp

omit [LinearOrder K] in
theorem pairDists_row (nrm : Vec K n → K) (xs : List (Vec K n)) :
    ∀ r ∈ pairDists nrm xs, r.length = xs.length := by
  intro r hr
  rw [pairDists, List.mem_mapIdx] at hr
  obtain ⟨i, hi, rfl⟩ := hr
  simp

omit [LinearOrder K] in
theorem pairDists_length (nrm : Vec K n → K) (xs : List (Vec K n)) :
    (pairDists nrm xs).length = xs.length := by simp [pairDists]

omit [LinearOrder K] in
theorem deleteCross_pairDists (nrm : Vec K n → K) (xs : List (Vec K n)) (k : Nat) :
    deleteCross (pairDists nrm xs) k = pairDists nrm (xs.eraseIdx k) := by
  apply List.ext_getElem?
  intro i
  simp only [deleteCross, pairDists, List.getElem?_map, List.getElem?_eraseIdx, List.getElem?_mapIdx]
  have hrow : ∀ (i' : Nat) (a : Vec K n) (i : Nat), i' = (if i < k then i else i + 1) →
      (xs.mapIdx fun j y => if i' = j then none else some (nrm fun c => a c - y c)).eraseIdx k
        = (xs.eraseIdx k).mapIdx fun j y => if i = j then none else some (nrm fun c => a c - y c) := by
    intro i' a i hi
    apply List.ext_getElem?
    intro j
    simp only [List.getElem?_eraseIdx, List.getElem?_mapIdx]
    by_cases hj : j < k
    · simp only [hj, if_true]
      cases xs[j]? with
      | none => rfl
      | some y =>
        simp only [Option.map_some]
        congr 1
        have : (i' = j) ↔ (i = j) := by rw [hi]; split <;> omega
        simp only [this]
    · simp only [hj, if_false]
      cases xs[j + 1]? with
      | none => rfl
      | some y =>
        simp only [Option.map_some]
        congr 1
        have : (i' = j + 1) ↔ (i = j) := by rw [hi]; split <;> omega
        simp only [this]
  by_cases hi : i < k
  · simp only [hi, if_true]
    cases xs[i]? with
    | none => rfl
    | some a => simp only [Option.map_some]; rw [hrow i a i (by simp [hi])]
  · simp only [hi, if_false]
    cases xs[i + 1]? with
    | none => rfl
    | some a => simp only [Option.map_some]; rw [hrow (i + 1) a i (by simp [hi])]

/-- The closest pair. -/
theorem argMinPair_spec (nrm : Vec K n → K) (xs : List (Vec K n)) (hx : xs ≠ []) :
    let ij := argMinPair (pairDists nrm xs)
    ij.1 < xs.length ∧ ij.2 < xs.length ∧
    (2 ≤ xs.length → ij.1 ≠ ij.2 ∧ ∃ a b, xs[ij.1]? = some a ∧ xs[ij.2]? = some b ∧
      ∀ (i j : Nat) (c d : Vec K n), i ≠ j → xs[i]? = some c → xs[j]? = some d →
        (nrm fun k => a k - b k) ≤ nrm fun k => c k - d k) := by
  intro ij
  set m := pairDists nrm xs with hm
  have hlen : m.length = xs.length := pairDists_length nrm xs
  have hrow := pairDists_row nrm xs
  have hpos : 0 < xs.length := List.length_pos_iff.2 hx
  have hfl : m.flatten ≠ [] := by
    have h0 := getElem?_flatten xs.length m hrow 0
    rw [Nat.zero_div, Nat.zero_mod, hm, pairDists_getElem] at h0
    intro he
    rw [← hm, he, List.getElem?_eq_getElem hpos] at h0
    simp at h0
  obtain ⟨v, hv1, hv2⟩ := argMinDist_spec m.flatten hfl
  have hij : ij = (argFirst distLt m.flatten / xs.length, argFirst distLt m.flatten % xs.length) := by
    show argMinPair m = _
    simp only [argMinPair, hlen]
  set k := argFirst distLt m.flatten with hk
  have hk1 : ij.1 = k / xs.length := by rw [hij]
  have hk2 : ij.2 = k % xs.length := by rw [hij]
  rw [getElem?_flatten xs.length m hrow, ← hk1, ← hk2, hm, pairDists_getElem] at hv1
  have h1 : ij.1 < xs.length := by
    by_contra hc
    rw [List.getElem?_eq_none (by omega)] at hv1
    simp at hv1
  have h2 : ij.2 < xs.length := by rw [hk2]; exact Nat.mod_lt _ hpos
  refine ⟨h1, h2, fun h2le => ?_⟩
  have hmem : ∀ (i j : Nat) (c d : Vec K n), i ≠ j → xs[i]? = some c → xs[j]? = some d →
      some (nrm fun k => c k - d k) ∈ m.flatten := by
    intro i j c d hne hc hd
    have hi : i < xs.length := (List.getElem?_eq_some_iff.1 hc).1
    have hj : j < xs.length := (List.getElem?_eq_some_iff.1 hd).1
    apply List.mem_of_getElem? (i := i * xs.length + j)
    rw [getElem?_flatten xs.length m hrow]
    have e1 : (i * xs.length + j) / xs.length = i := by
      rw [Nat.mul_comm, Nat.mul_add_div hpos, Nat.div_eq_of_lt hj, Nat.add_zero]
    have e2 : (i * xs.length + j) % xs.length = j := by
      rw [Nat.mul_comm, Nat.mul_add_mod, Nat.mod_eq_of_lt hj]
    rw [e1, e2, hm, pairDists_getElem, hc, hd]
    simp [hne]
  rw [List.getElem?_eq_getElem h1, List.getElem?_eq_getElem h2] at hv1
  simp only [Option.bind_some, Option.map_some, Option.some.injEq] at hv1
  have hne : ij.1 ≠ ij.2 := by
    intro he
    rw [if_pos he] at hv1
    have := hv2 _ (hmem 0 1 (xs[0]) (xs[1]) (by omega) (List.getElem?_eq_getElem _)
      (List.getElem?_eq_getElem _))
    rw [← hv1] at this
    simp [distLt] at this
  refine ⟨hne, xs[ij.1], xs[ij.2], List.getElem?_eq_getElem h1, List.getElem?_eq_getElem h2, ?_⟩
  intro i j c d hne' hc hd
  rw [if_neg hne] at hv1
  have := hv2 _ (hmem i j c d hne' hc hd)
  rw [← hv1] at this
  simpa [distLt] using this

/-- The cases of the choice between the two points of the closest pair. -/
theorem chooseDrop_cases (index : Nat) (p : Points K n) (m : List (List (Option K))) (i j : Nat)
    (hij : argMinPair m = (i, j)) :
    (p.indices[i]? = some index ∧ chooseDrop index p m = j) ∨
    (p.indices[i]? ≠ some index ∧ p.indices[j]? = some index ∧ chooseDrop index p m = i) ∨
    (p.indices[i]? ≠ some index ∧ p.indices[j]? ≠ some index ∧
      ((p.dists.getD i 0 < p.dists.getD j 0 ∧ chooseDrop index p m = i) ∨
       (p.dists.getD j 0 ≤ p.dists.getD i 0 ∧ chooseDrop index p m = j))) := by
  unfold chooseDrop
  rw [hij]
  simp only
  by_cases h1 : p.indices[i]? = some index
  · left; exact ⟨h1, if_pos h1⟩
  · right
    by_cases h2 : p.indices[j]? = some index
    · left; exact ⟨h1, h2, by rw [if_neg h1, if_pos h2]⟩
    · right
      refine ⟨h1, h2, ?_⟩
      rw [if_neg h1, if_neg h2]
      by_cases h3 : p.dists.getD i 0 < p.dists.getD j 0
      · left; exact ⟨h3, if_pos h3⟩
      · right; exact ⟨not_lt.1 h3, if_neg h3⟩

/-- Result of the second loop. -/
theorem dropClose_spec (nrm : Vec K n → K) (x : Vec K n) (index m : Nat) (l : List (Vec K n × Nat))
    (hm : m ≤ l.length) :
    ∃ (kept dropped : List (Vec K n × Nat)),
      dropClose index m (ofPairs nrm x l) (pairDists nrm (l.map Prod.fst)) = .ok (ofPairs nrm x kept) ∧
      kept.Sublist l ∧ (kept ++ dropped).Perm l ∧ dropped.length = m ∧
      (m < l.length → (l.map Prod.snd).Nodup → ∀ q ∈ dropped, q.2 ≠ index) := by
  induction m generalizing l with
  | zero => exact ⟨l, [], rfl, List.Sublist.refl _, by simp, rfl, by simp⟩
  | succ m ih =>
    have hl : l ≠ [] := by intro h; subst h; simp at hm
    have hx : l.map Prod.fst ≠ [] := by simpa using hl
    have hpd : pairDists nrm (l.map Prod.fst) ≠ [] := by
      intro h
      have := pairDists_length nrm (l.map Prod.fst)
      rw [h] at this
      exact hx (List.length_eq_zero_iff.1 this.symm)
    rw [dropClose, if_neg hpd]
    simp only
    obtain ⟨hi, hj, hpair⟩ := argMinPair_spec nrm (l.map Prod.fst) hx
    obtain ⟨i, j, hij⟩ : ∃ i j, argMinPair (pairDists nrm (l.map Prod.fst)) = (i, j) := ⟨_, _, rfl⟩
    rw [hij] at hi hj hpair
    simp only [List.length_map] at hi hj hpair
    have hcases := chooseDrop_cases index (ofPairs nrm x l) _ i j hij
    have hk : chooseDrop index (ofPairs nrm x l) (pairDists nrm (l.map Prod.fst)) < l.length := by
      rcases hcases with ⟨-, h⟩ | ⟨-, -, h⟩ | ⟨-, -, ⟨-, h⟩ | ⟨-, h⟩⟩ <;> rw [h] <;> assumption
    have hcenter : 2 ≤ l.length → (l.map Prod.snd).Nodup →
        (l.map Prod.snd)[chooseDrop index (ofPairs nrm x l) (pairDists nrm (l.map Prod.fst))]?
          ≠ some index := by
      intro h2 hnd
      have hne := (hpair h2).1
      have hinj : ∀ {a b : Nat}, a ≠ b → a < l.length → (l.map Prod.snd)[a]? = some index →
          (l.map Prod.snd)[b]? ≠ some index := by
        intro a b hab ha h1 h2
        exact hab ((List.getElem?_inj (by simpa using ha) hnd).1 (h1.trans h2.symm))
      rcases hcases with ⟨h, e⟩ | ⟨-, h, e⟩ | ⟨h, h', ⟨-, e⟩ | ⟨-, e⟩⟩ <;> rw [e]
      · exact hinj hne hi h
      · exact hinj hne.symm hj h
      · exact h
      · exact h'
    set k := chooseDrop index (ofPairs nrm x l) (pairDists nrm (l.map Prod.fst)) with hkdef
    rw [delete_ofPairs, deleteCross_pairDists, eraseIdx_map']
    have hlen : (l.eraseIdx k).length = l.length - 1 := List.length_eraseIdx_of_lt hk
    obtain ⟨kept, dropped, h1, h2, h3, h4, h5⟩ := ih (l.eraseIdx k) (by omega)
    refine ⟨kept, dropped ++ [l[k]], h1, h2.trans (List.eraseIdx_sublist _ _), ?_, by simp [h4], ?_⟩
    · rw [← List.append_assoc]
      exact (h3.append_right _).trans (perm_eraseIdx l k _ (List.getElem?_eq_getElem hk))
    · intro hlt hnd q hq
      rcases List.mem_append.1 hq with hq | hq
      · refine h5 (by omega) ?_ q hq
        exact hnd.sublist ((List.eraseIdx_sublist _ _).map _)
      · rw [List.mem_singleton.1 hq]
        have := hcenter (by omega) hnd
        rw [List.getElem?_map, List.getElem?_eq_getElem hk] at this
        simpa using this

/-- Result of `drop_worst_points`. -/
theorem dropWorst_spec (nrm : Vec K n → K) (x : Vec K n) (index : Nat) (radius : K)
    (l : List (Vec K n × Nat)) (m : Nat) (hm : m ≤ l.length) :
    ∃ (kept dropped : List (Vec K n × Nat)),
      dropWorst nrm x index radius (l.map Prod.fst) (l.map Prod.snd) m
        = .ok (kept.map Prod.fst, kept.map Prod.snd) ∧
      kept.Sublist l ∧ (kept ++ dropped).Perm l ∧ dropped.length = m ∧
      (∀ p ∈ kept, (radius < nrm fun k => p.1 k - x k) → ∀ q ∈ dropped,
        (nrm fun k => p.1 k - x k) ≤ nrm fun k => q.1 k - x k) ∧
      (m < l.length → (l.map Prod.snd).Nodup → (x, index) ∈ l → (nrm fun _ => 0) ≤ radius →
        (x, index) ∈ kept) := by
  unfold dropWorst
  by_cases h0 : 0 < m
  · rw [if_pos h0]
    have hof : ({ xs := l.map Prod.fst, indices := l.map Prod.snd
                  dists := (l.map Prod.fst).map fun y => nrm fun k => y k - x k } : Points K n)
        = ofPairs nrm x l := by simp [ofPairs]
    rw [hof]
    obtain ⟨k1, d1, left, a1, a2, a3, a4, a5, a6, a7⟩ := dropOutside_spec nrm x radius m l
    rw [a1]
    simp only
    have hkl := a3.length_eq
    rw [List.length_append] at hkl
    have hcen1 : (x, index) ∈ l → (nrm fun _ => 0) ≤ radius → (x, index) ∈ k1 := by
      intro hmem hr
      rcases List.mem_append.1 (a3.mem_iff.2 hmem) with h | h
      · exact h
      · have := a5 _ h
        simp only [sub_self] at this
        exact absurd this (not_lt.2 hr)
    by_cases hleft : 0 < left
    · rw [if_pos hleft]
      obtain ⟨k2, d2, b1, b2, b3, b4, b5⟩ := dropClose_spec nrm x index left k1 (by omega)
      have hb1 : dropClose index left (ofPairs nrm x k1) (pairDists nrm (ofPairs nrm x k1).xs)
          = .ok (ofPairs nrm x k2) := b1
      rw [hb1]
      refine ⟨k2, d2 ++ d1, rfl, b2.trans a2, ?_, by simp; omega, ?_, ?_⟩
      · rw [← List.append_assoc]
        exact (b3.append_right d1).trans a3
      · intro p hp hout
        exact absurd (a7 hleft p (b2.subset hp)) (not_le.2 hout)
      · intro hlt hnd hmem hr
        have h1 := hcen1 hmem hr
        rcases List.mem_append.1 (b3.mem_iff.2 h1) with h | h
        · exact h
        · exact absurd rfl (b5 (by omega) (hnd.sublist (a2.map _)) _ h)
    · rw [if_neg hleft]
      refine ⟨k1, d1, rfl, a2, a3, by omega, fun p hp _ q hq => a6 p hp q hq, ?_⟩
      intro _ _ hmem hr
      exact hcen1 hmem hr
  · rw [if_neg h0]
    refine ⟨l, [], rfl, List.Sublist.refl _, by simp, by simp; omega, by simp, ?_⟩
    intro _ _ h _
    exact h

end Tranquilo
