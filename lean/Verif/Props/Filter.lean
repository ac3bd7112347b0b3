import Verif.Lemmas.Filter
import Mathlib.Data.Rat.Floor
import Mathlib.Algebra.Order.Floor.Ring

/-!
# Properties C23 - C25: filters
-/

namespace Tranquilo

variable {K : Type} [Field K] [LinearOrder K] {n : Nat}

/-- Distance of a point from the current point. -/
abbrev fromCenter (nrm : Vec K n → K) (x : Vec K n) (p : Vec K n × Nat) : K := nrm fun k => p.1 k - x k

/-- C23. `drop_worst_points` succeeds for every number of points to drop up to the number of points.
The result is a sub-list of the given (point, index) pairs in the same order, exactly `n_to_drop` pairs
are missing, and as long as a point outside of the region is kept, every dropped point is at least as
far away. In particular nothing inside of the region is dropped before everything outside is gone. -/
theorem C23_drop_worst (nrm : Vec K n → K) (x : Vec K n) (index : Nat) (radius : K)
    (xs : List (Vec K n)) (indices : List Nat) (hlen : xs.length = indices.length)
    (nToDrop : Nat) (hm : nToDrop ≤ xs.length) :
    ∃ kept dropped : List (Vec K n × Nat),
      dropWorst nrm x index radius xs indices nToDrop = .ok (kept.map Prod.fst, kept.map Prod.snd) ∧
      kept.Sublist (xs.zip indices) ∧ (kept ++ dropped).Perm (xs.zip indices) ∧
      dropped.length = nToDrop ∧
      ∀ p ∈ kept, radius < fromCenter nrm x p →
        ∀ q ∈ dropped, radius < fromCenter nrm x q ∧ fromCenter nrm x p ≤ fromCenter nrm x q := by
  have hm' : nToDrop ≤ (xs.zip indices).length := by rw [List.length_zip]; omega
  obtain ⟨kept, dropped, h1, h2, h3, h4, h5, -⟩ :=
    dropWorst_spec nrm x index radius (xs.zip indices) nToDrop hm'
  rw [List.map_fst_zip (by omega), List.map_snd_zip (by omega)] at h1
  exact ⟨kept, dropped, h1, h2, h3, h4, fun p hp hr q hq =>
    ⟨lt_of_lt_of_le hr (h5 p hp hr q hq), h5 p hp hr q hq⟩⟩

/-- C23, which point goes when all points are inside of the region: it is one of a closest pair of
points `p`, `q`; the other one, `q`, stays. The dropped point is not the current point; and unless `q` is
the current point, `p` is at most as far from the current point as `q`. -/
theorem C23_drops_from_closest_pair (nrm : Vec K n → K) (hsym : ∀ v : Vec K n, nrm (fun k => - v k) = nrm v)
    (x : Vec K n) (index : Nat) (radius : K)
    (xs : List (Vec K n)) (indices : List Nat) (hlen : xs.length = indices.length)
    (hnd : indices.Nodup) (h2 : 2 ≤ xs.length)
    (hin : ∀ y ∈ xs, (nrm fun k => y k - x k) ≤ radius) :
    ∃ (i j : Nat) (p q : Vec K n × Nat), i ≠ j ∧
      (xs.zip indices)[i]? = some p ∧ (xs.zip indices)[j]? = some q ∧
      dropWorst nrm x index radius xs indices 1 = .ok (xs.eraseIdx i, indices.eraseIdx i) ∧
      (∀ (a b : Nat) (c d : Vec K n), a ≠ b → xs[a]? = some c → xs[b]? = some d →
        (nrm fun k => p.1 k - q.1 k) ≤ nrm fun k => c k - d k) ∧
      p.2 ≠ index ∧ (q.2 ≠ index → fromCenter nrm x p ≤ fromCenter nrm x q) := by
  set l := xs.zip indices with hl
  have hxs : xs = l.map Prod.fst := (List.map_fst_zip (by omega)).symm
  have hidx : indices = l.map Prod.snd := (List.map_snd_zip (by omega)).symm
  have hlen' : l.length = xs.length := by rw [hl, List.length_zip]; omega
  have hne : l.map Prod.fst ≠ [] := by rw [← hxs]; intro h; rw [h] at h2; simp at h2
  obtain ⟨hi, hj, hpair⟩ := argMinPair_spec nrm (l.map Prod.fst) hne
  obtain ⟨i, j, hij⟩ : ∃ i j, argMinPair (pairDists nrm (l.map Prod.fst)) = (i, j) := ⟨_, _, rfl⟩
  rw [hij] at hi hj hpair
  simp only [List.length_map] at hi hj hpair
  obtain ⟨hneij, a, b, ha, hb, hmin⟩ := hpair (by omega)
  have hcases := chooseDrop_cases index (ofPairs nrm x l) _ i j hij
  -- reduce the call
  have hcall : ∀ k, chooseDrop index (ofPairs nrm x l) (pairDists nrm (l.map Prod.fst)) = k →
      dropWorst nrm x index radius xs indices 1 = .ok (xs.eraseIdx k, indices.eraseIdx k) := by
    intro k hk
    have hof : ({ xs := xs, indices := indices, dists := xs.map fun y => nrm fun k => y k - x k }
        : Points K n) = ofPairs nrm x l := by rw [ofPairs, ← hxs, ← hidx, hxs]; simp
    have hany : ((ofPairs nrm x l).dists.any fun d => decide (radius < d)) = false := by
      rw [← hof, List.any_eq_false]
      intro d hd
      obtain ⟨y, hy, rfl⟩ := List.mem_map.1 hd
      simpa using hin y hy
    have hpd : pairDists nrm (l.map Prod.fst) ≠ [] := by
      intro h
      have := pairDists_length nrm (l.map Prod.fst)
      rw [h] at this
      exact hne (List.length_eq_zero_iff.1 this.symm)
    unfold dropWorst
    rw [if_pos (by omega), hof, dropOutside, hany]
    simp only [Bool.false_eq_true, if_false, zero_add, if_pos (Nat.one_pos)]
    have : dropClose index 1 (ofPairs nrm x l) (pairDists nrm (ofPairs nrm x l).xs)
        = .ok (ofPairs nrm x (l.eraseIdx k)) := by
      show dropClose index 1 (ofPairs nrm x l) (pairDists nrm (l.map Prod.fst)) = _
      rw [dropClose, if_neg hpd]
      simp only [hk, delete_ofPairs, dropClose]
    rw [this, hxs, hidx]
    simp only [eraseIdx_map']
    rfl
  have hinj : ∀ {u v : Nat}, u ≠ v → u < l.length → (l.map Prod.snd)[u]? = some index →
      (l.map Prod.snd)[v]? ≠ some index := by
    intro u v huv hu h1 h2
    rw [← hidx] at h1 h2
    exact huv ((List.getElem?_inj (by rw [hidx, List.length_map]; exact hu) hnd).1 (h1.trans h2.symm))
  have hsnd : ∀ u (hu : u < l.length), (l.map Prod.snd)[u]? = some (l[u]).2 := by
    intro u hu; rw [List.getElem?_map, List.getElem?_eq_getElem hu]; rfl
  have hfst : ∀ u (hu : u < l.length), (l.map Prod.fst)[u]? = some (l[u]).1 := by
    intro u hu; rw [List.getElem?_map, List.getElem?_eq_getElem hu]; rfl
  have hdist : ∀ u (hu : u < l.length), (ofPairs nrm x l).dists.getD u 0 = fromCenter nrm x l[u] := by
    intro u hu
    rw [ofPairs, List.getD_eq_getElem?_getD]
    simp only
    rw [List.getElem?_map, List.getElem?_eq_getElem hu]
    rfl
  have ha' : a = (l[i]).1 := by rw [hfst i hi] at ha; exact (Option.some.inj ha).symm
  have hb' : b = (l[j]).1 := by rw [hfst j hj] at hb; exact (Option.some.inj hb).symm
  have hmin1 : ∀ (a' b' : Nat) (c d : Vec K n), a' ≠ b' → xs[a']? = some c → xs[b']? = some d →
      (nrm fun k => l[i].1 k - l[j].1 k) ≤ nrm fun k => c k - d k := by
    rw [← ha', ← hb', hxs]; exact hmin
  have hmin2 : ∀ (a' b' : Nat) (c d : Vec K n), a' ≠ b' → xs[a']? = some c → xs[b']? = some d →
      (nrm fun k => l[j].1 k - l[i].1 k) ≤ nrm fun k => c k - d k := by
    have : (nrm fun k => l[j].1 k - l[i].1 k) = nrm fun k => l[i].1 k - l[j].1 k := by
      rw [← hsym]; simp only [neg_sub]
    rw [this]; exact hmin1
  have gi := List.getElem?_eq_getElem hi
  have gj := List.getElem?_eq_getElem hj
  rcases hcases with ⟨h, e⟩ | ⟨h1, h, e⟩ | ⟨h, h', ⟨hd, e⟩ | ⟨hd, e⟩⟩
  · have hne' := hinj hneij hi h
    rw [hsnd j hj] at hne'
    have hqi : (l[i]).2 = index := by
      have : (l.map Prod.snd)[i]? = some index := h
      rw [hsnd i hi] at this; exact Option.some.inj this
    exact ⟨j, i, l[j], l[i], hneij.symm, gj, gi, hcall j e, hmin2, by simpa using hne',
      fun hq => absurd hqi hq⟩
  · have hne' := hinj hneij.symm hj h
    rw [hsnd i hi] at hne'
    have hqi : (l[j]).2 = index := by
      have : (l.map Prod.snd)[j]? = some index := h
      rw [hsnd j hj] at this; exact Option.some.inj this
    exact ⟨i, j, l[i], l[j], hneij, gi, gj, hcall i e, hmin1, by simpa using hne',
      fun hq => absurd hqi hq⟩
  · have hh : (l.map Prod.snd)[i]? ≠ some index := h
    rw [hsnd i hi] at hh
    rw [hdist i hi, hdist j hj] at hd
    exact ⟨i, j, l[i], l[j], hneij, gi, gj, hcall i e, hmin1, by simpa using hh, fun _ => hd.le⟩
  · have hh : (l.map Prod.snd)[j]? ≠ some index := h'
    rw [hsnd j hj] at hh
    rw [hdist i hi, hdist j hj] at hd
    exact ⟨j, i, l[j], l[i], hneij.symm, gj, gi, hcall j e, hmin2, by simpa using hh, fun _ => hd⟩

/-- C24 for `drop_worst_points`: if the current point is among the points and at least one point
remains, the current point remains. -/
theorem C24_center_survives_drop_worst (nrm : Vec K n → K) (hn : nrm (fun _ => 0) = 0)
    (x : Vec K n) (index : Nat) (radius : K) (hr : 0 ≤ radius)
    (xs : List (Vec K n)) (indices : List Nat) (hlen : xs.length = indices.length)
    (hnd : indices.Nodup) (hc : (x, index) ∈ xs.zip indices)
    (nToDrop : Nat) (hm : nToDrop < xs.length) (xs' : List (Vec K n)) (indices' : List Nat)
    (h : dropWorst nrm x index radius xs indices nToDrop = .ok (xs', indices')) :
    (x, index) ∈ xs'.zip indices' := by
  have hm' : nToDrop < (xs.zip indices).length := by rw [List.length_zip]; omega
  obtain ⟨kept, dropped, h1, h2, h3, h4, h5, h6⟩ :=
    dropWorst_spec nrm x index radius (xs.zip indices) nToDrop hm'.le
  rw [List.map_snd_zip (by omega)] at h6
  rw [List.map_fst_zip (by omega), List.map_snd_zip (by omega), h] at h1
  simp only [Except.ok.injEq, Prod.mk.injEq] at h1
  rw [h1.1, h1.2, List.zip_map', show (fun p : Vec K n × Nat => (p.1, p.2)) = id from rfl, List.map_id]
  exact h6 hm' hnd hc (by rw [hn]; exact hr)

/-- C24 for `drop_excess`. -/
theorem C24_center_survives_drop_excess [FloorRing K] (nrm : Vec K n → K)
    (hn : nrm (fun _ => 0) = 0)
    (x : Vec K n) (index : Nat) (radius : K) (hr : 0 ≤ radius)
    (xs : List (Vec K n)) (indices : List Nat) (hlen : xs.length = indices.length)
    (hnd : indices.Nodup) (hc : (x, index) ∈ xs.zip indices)
    (targetSize : Nat) (nMaxFactor : K) (hpos : 1 ≤ ⌊(targetSize : K) * nMaxFactor⌋)
    (xs' : List (Vec K n)) (indices' : List Nat)
    (h : dropExcess nrm x index radius xs indices targetSize nMaxFactor = .ok (xs', indices')) :
    (x, index) ∈ xs'.zip indices' := by
  unfold dropExcess at h
  simp only at h
  split at h
  · refine C24_center_survives_drop_worst nrm hn x index radius hr xs indices hlen hnd hc _ ?_ xs'
      indices' h
    have : 0 < xs.length := by
      have := List.length_pos_of_mem hc
      rw [List.length_zip] at this; omega
    omega
  · simp only [Except.ok.injEq, Prod.mk.injEq] at h
    rw [← h.1, ← h.2]; exact hc

/-- C24 for `keep_all` and `discard_all`. -/
theorem C24_center_survives_simple_filters (x : Vec K n) (index : Nat) (xs : List (Vec K n))
    (indices : List Nat) (hc : (x, index) ∈ xs.zip indices) :
    (x, index) ∈ (keepAll xs indices).1.zip (keepAll xs indices).2 ∧
    (discardAll x index).1.zip (discardAll x index).2 = [(x, index)] :=
  ⟨hc, rfl⟩

/-- C25. `drop_excess` returns at most `floor(target_size * n_max_factor)` points, exactly that many if
there were more, and everything if there were not more. -/
theorem C25_drop_excess [FloorRing K] (nrm : Vec K n → K) (x : Vec K n) (index : Nat) (radius : K)
    (xs : List (Vec K n)) (indices : List Nat) (hlen : xs.length = indices.length)
    (targetSize : Nat) (nMaxFactor : K) (hpos : 0 ≤ ⌊(targetSize : K) * nMaxFactor⌋) :
    ∃ xs' indices', dropExcess nrm x index radius xs indices targetSize nMaxFactor = .ok (xs', indices') ∧
      xs'.length = indices'.length ∧ (xs'.zip indices').Sublist (xs.zip indices) ∧
      (xs'.length : Int) = min (xs.length : Int) ⌊(targetSize : K) * nMaxFactor⌋ ∧
      ((xs.length : Int) ≤ ⌊(targetSize : K) * nMaxFactor⌋ → xs' = xs ∧ indices' = indices) := by
  unfold dropExcess
  simp only
  by_cases h : (xs.length : Int) ≤ ⌊(targetSize : K) * nMaxFactor⌋
  · rw [if_neg (by omega)]
    exact ⟨xs, indices, rfl, hlen, List.Sublist.refl _, by omega, fun _ => ⟨rfl, rfl⟩⟩
  · rw [if_pos (by omega)]
    obtain ⟨kept, dropped, h1, h2, h3, h4, -⟩ := C23_drop_worst nrm x index radius xs indices hlen
      (max 0 ((xs.length : Int) - ⌊(targetSize : K) * nMaxFactor⌋)).toNat (by omega)
    refine ⟨_, _, h1, by simp, ?_, ?_, fun h' => absurd h' h⟩
    · rw [List.zip_map', show (fun p : Vec K n × Nat => (p.1, p.2)) = id from rfl, List.map_id]
      exact h2
    · have := h3.length_eq
      rw [List.length_append, List.length_zip] at this
      rw [List.length_map]
      omega

/-- Without at least one point to keep the center is not safe (`n_max_factor` so small that the limit is
zero): everything is dropped. -/
theorem C24_limit_zero_drops_center :
    (dropExcess (fun v : Vec ℚ 1 => |v 0|) (fun _ => 0) 0 1 [fun _ => 0] [0] 3 (1 / 4)).map
      (fun r => r.2) = .ok [] := by decide +kernel

/-! ## The hypotheses can be met -/

/-- Five points on the line, two of them outside of the region; three are dropped: the two outside and
one of the closest pair. -/
example :
    (dropWorst (fun v : Vec ℚ 1 => |v 0|) (fun _ => 0) 7 1
      [fun _ => 0, fun _ => 3, fun _ => 1 / 2, fun _ => -2, fun _ => 3 / 4] [7, 8, 9, 10, 11] 3).map
      (fun r => (r.1.map (· 0), r.2)) = .ok ([0, 3 / 4], [7, 11]) := by decide +kernel

example : ((fun _ => 0 : Vec ℚ 1), 7) ∈ [(fun _ => 0 : Vec ℚ 1), fun _ => 3].zip [7, 8] ∧
    [7, 8].Nodup ∧ 1 ≤ ⌊((2 : Nat) : ℚ) * 3⌋ := by
  refine ⟨by simp, by simp, by decide +kernel⟩

end Tranquilo
