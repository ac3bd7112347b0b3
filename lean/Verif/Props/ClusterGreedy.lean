import Verif.Props.Cluster
import Mathlib.Data.Fintype.Basic
import Mathlib.Data.Finset.Card

/-!
# Property C84: clusters are chosen greedily
-/

namespace Tranquilo

variable {K : Type} [Field K] [LinearOrder K] {n : Nat}

/-- The points that are not in one of the first `k` clusters. -/
def remaining (labels : Fin n → Option Nat) (k : Nat) : Finset (Fin n) :=
  Finset.univ.filter fun j => ∀ k', labels j = some k' → k ≤ k'

/-- The points of the `k`-th cluster. -/
def members (labels : Fin n → Option Nat) (k : Nat) : Finset (Fin n) :=
  Finset.univ.filter fun j => labels j = some k

/-- The points of a set within `epsilon` of a point. -/
def near (dist : Fin n → Fin n → K) (epsilon : K) (s : Finset (Fin n)) (i : Fin n) : Finset (Fin n) :=
  s.filter fun j => dist i j ≤ epsilon

/-- The `k`-th cluster is the result of a greedy choice: it contains all points near its center that are in
no earlier cluster, and if it has more than one point then no point outside the earlier clusters
has more of such points near it. -/
def GreedyAt (dist : Fin n → Fin n → K) (epsilon : K) (c : Clusters n) (k : Nat) : Prop :=
  (∀ i, c.centers[k]? = some i → near dist epsilon (remaining c.labels k) i = members c.labels k) ∧
  (1 < (members c.labels k).card → ∀ a ∈ remaining c.labels k,
    (near dist epsilon (remaining c.labels k) a).card ≤ (members c.labels k).card)

/-- The unlabeled points near `i`. -/
def unlabeledNear (dist : Fin n → Fin n → K) (epsilon : K) (labels : Fin n → Option Nat) (i : Fin n) :
    Finset (Fin n) :=
  Finset.univ.filter fun j => labels j = none ∧ dist i j ≤ epsilon

theorem nNeighbors_eq (dist : Fin n → Fin n → K) (epsilon : K) (labels : Fin n → Option Nat) (i : Fin n) :
    nNeighbors dist epsilon labels i
      = (Finset.univ.filter fun j => labels j = none ∧ j ≠ i ∧ dist i j ≤ epsilon).card := by
  unfold nNeighbors
  have : (Finset.univ.filter fun j => labels j = none ∧ j ≠ i ∧ dist i j ≤ epsilon).card
      = ((List.finRange n).filter fun j => decide (labels j = none ∧ j ≠ i ∧ dist i j ≤ epsilon)).length :=
    rfl
  rw [this]
  congr 1
  apply List.filter_congr
  intro j _
  cases h : labels j <;> simp

/-- For an unlabeled point the code's number of neighbors is one less than the number of unlabeled points
near it. -/
theorem card_unlabeledNear {dist : Fin n → Fin n → K} {epsilon : K} (hself : ∀ i, dist i i ≤ epsilon)
    {labels : Fin n → Option Nat} {i : Fin n} (hi : labels i = none) :
    (unlabeledNear dist epsilon labels i).card = nNeighbors dist epsilon labels i + 1 := by
  rw [nNeighbors_eq]
  have : unlabeledNear dist epsilon labels i
      = insert i (Finset.univ.filter fun j => labels j = none ∧ j ≠ i ∧ dist i j ≤ epsilon) := by
    ext j
    simp only [unlabeledNear, Finset.mem_filter, Finset.mem_univ, true_and, Finset.mem_insert]
    constructor
    · intro h
      by_cases hji : j = i
      · exact Or.inl hji
      · exact Or.inr ⟨h.1, hji, h.2⟩
    · rintro (rfl | h)
      · exact ⟨hi, hself j⟩
      · exact ⟨h.1, h.2.2⟩
  rw [this, Finset.card_insert_of_notMem (by simp)]

/-- `c'` extends `c`: labels are kept and new labels are new cluster numbers. -/
structure Extends (c c' : Clusters n) : Prop where
  old : ∀ j k, c.labels j = some k → c'.labels j = some k
  new : ∀ j k, c.labels j = none → c'.labels j = some k → c.centers.length ≤ k
  pre : ∃ l, c'.centers = c.centers ++ l
  bound : ∀ j k, c.labels j = some k → k < c.centers.length

theorem Extends.remaining_eq {c c' : Clusters n} (h : Extends c c') {k : Nat} (hk : k ≤ c.centers.length) :
    remaining c'.labels k = remaining c.labels k := by
  ext j
  simp only [remaining, Finset.mem_filter, Finset.mem_univ, true_and]
  constructor
  · intro hj k' hk'
    exact hj k' (h.old j k' hk')
  · intro hj k' hk'
    cases hc : c.labels j with
    | some k'' =>
      have := h.old j k'' hc
      rw [hk', Option.some.injEq] at this
      subst this
      exact hj k' hc
    | none => exact hk.trans (h.new j k' hc hk')

theorem Extends.members_eq {c c' : Clusters n} (h : Extends c c') {k : Nat} (hk : k < c.centers.length) :
    members c'.labels k = members c.labels k := by
  ext j
  simp only [members, Finset.mem_filter, Finset.mem_univ, true_and]
  constructor
  · intro hj
    cases hc : c.labels j with
    | some k'' =>
      have := h.old j k'' hc
      rw [hj] at this
      exact this.symm
    | none => have := h.new j k hc hj; omega
  · exact h.old j k

theorem Extends.greedy {c c' : Clusters n} (h : Extends c c') {dist : Fin n → Fin n → K} {epsilon : K}
    {k : Nat} (hk : k < c.centers.length) (hg : GreedyAt dist epsilon c k) :
    GreedyAt dist epsilon c' k := by
  unfold GreedyAt at hg ⊢
  rw [h.remaining_eq hk.le, h.members_eq hk]
  refine ⟨fun i hi => hg.1 i ?_, hg.2⟩
  obtain ⟨l, hl⟩ := h.pre
  rwa [hl, List.getElem?_append_left hk] at hi

theorem mem_remaining_all {c : Clusters n} (hb : ∀ j k, c.labels j = some k → k < c.centers.length)
    (j : Fin n) : j ∈ remaining c.labels c.centers.length ↔ c.labels j = none := by
  simp only [remaining, Finset.mem_filter, Finset.mem_univ, true_and]
  cases hc : c.labels j with
  | none => simp
  | some k =>
    have := hb j k hc
    simp only [Option.some.injEq, forall_eq', reduceCtorEq, iff_false]
    omega

theorem near_remaining {c : Clusters n} (hb : ∀ j k, c.labels j = some k → k < c.centers.length)
    (dist : Fin n → Fin n → K) (epsilon : K) (i : Fin n) :
    near dist epsilon (remaining c.labels c.centers.length) i = unlabeledNear dist epsilon c.labels i := by
  ext j
  simp only [near, Finset.mem_filter, mem_remaining_all hb, unlabeledNear, Finset.mem_univ, true_and]

/-- All clusters so far are greedy, and labels are numbers of clusters. -/
structure GreedyInv (dist : Fin n → Fin n → K) (epsilon : K) (c : Clusters n) : Prop where
  bound : ∀ j k, c.labels j = some k → k < c.centers.length
  greedy : ∀ k, k < c.centers.length → GreedyAt dist epsilon c k

/-- Adding the cluster of all unlabeled points near `i`. -/
theorem GreedyInv.extend {dist : Fin n → Fin n → K} {epsilon : K} {c : Clusters n}
    (hc : GreedyInv dist epsilon c) (i : Fin n) (labels : Fin n → Option Nat)
    (hlab : ∀ j, labels j = if c.labels j = none ∧ dist i j ≤ epsilon then some c.centers.length
      else c.labels j)
    (hbest : 1 < (unlabeledNear dist epsilon c.labels i).card → ∀ a, c.labels a = none →
      (unlabeledNear dist epsilon c.labels a).card ≤ (unlabeledNear dist epsilon c.labels i).card) :
    GreedyInv dist epsilon ⟨labels, c.centers ++ [i]⟩ ∧ Extends c ⟨labels, c.centers ++ [i]⟩ := by
  have hext : Extends c ⟨labels, c.centers ++ [i]⟩ := by
    refine ⟨?_, ?_, ⟨[i], rfl⟩, hc.bound⟩
    · intro j k hj
      simp only
      rw [hlab, if_neg (by simp [hj]), hj]
    · intro j k hj hk
      simp only at hk
      rw [hlab] at hk
      split at hk
      · rw [Option.some.injEq] at hk; omega
      · rw [hj] at hk; simp at hk
  have hmem : members labels c.centers.length = unlabeledNear dist epsilon c.labels i := by
    ext j
    simp only [members, unlabeledNear, Finset.mem_filter, Finset.mem_univ, true_and]
    rw [hlab]
    by_cases h : c.labels j = none ∧ dist i j ≤ epsilon
    · simp [h]
    · rw [if_neg h]
      simp only [h, iff_false]
      intro hj
      have := hc.bound j _ hj
      omega
  refine ⟨⟨?_, ?_⟩, hext⟩
  · intro j k hj
    simp only at hj
    rw [hlab] at hj
    simp only [List.length_append, List.length_cons, List.length_nil]
    split at hj
    · rw [Option.some.injEq] at hj; omega
    · have := hc.bound j k hj; omega
  · intro k hk
    simp only [List.length_append, List.length_cons, List.length_nil] at hk
    rcases Nat.lt_or_ge k c.centers.length with hk' | hk'
    · exact hext.greedy hk' (hc.greedy k hk')
    · obtain rfl : k = c.centers.length := by omega
      unfold GreedyAt
      rw [hext.remaining_eq le_rfl]
      simp only
      rw [hmem]
      refine ⟨?_, ?_⟩
      · intro a ha
        simp only [List.getElem?_concat_length, Option.some.injEq] at ha
        subst ha
        exact near_remaining hc.bound _ _ _
      · intro h1 a ha
        rw [near_remaining hc.bound]
        exact hbest h1 a ((mem_remaining_all hc.bound a).1 ha)

/-- Invariant of the scan. -/
structure ScanGreedy (dist : Fin n → Fin n → K) (epsilon : K) (l : List (Fin n))
    (s : Clusters n × Option (Fin n) × Nat) : Prop where
  inv : GreedyInv dist epsilon s.1
  visited : ∀ a ∈ l, s.1.labels a = none → nNeighbors dist epsilon s.1.labels a ≤ s.2.2
  cand : ∀ i, s.2.1 = some i → s.1.labels i = none ∧ nNeighbors dist epsilon s.1.labels i = s.2.2 ∧
    0 < s.2.2

theorem scan_greedy_step {dist : Fin n → Fin n → K} {epsilon : K} (hself : ∀ i, dist i i ≤ epsilon)
    (hsym : ∀ i j, dist i j = dist j i) {l : List (Fin n)} {s : Clusters n × Option (Fin n) × Nat}
    (i : Fin n) (h : ScanGreedy dist epsilon l s) :
    ScanGreedy dist epsilon (l ++ [i]) (scanPoint dist epsilon s i) := by
  unfold scanPoint
  cases hli : s.1.labels i with
  | some k =>
    simp only
    refine ⟨h.inv, fun a ha hn => ?_, h.cand⟩
    rcases List.mem_append.1 ha with ha | ha
    · exact h.visited a ha hn
    · rw [List.mem_singleton.1 ha, hli] at hn; simp at hn
  | none =>
    simp only
    by_cases hk : nNeighbors dist epsilon s.1.labels i = 0
    · rw [if_pos hk]
      have hz := nNeighbors_eq_zero hk
      have hone : (unlabeledNear dist epsilon s.1.labels i).card = 1 := by
        rw [card_unlabeledNear hself hli, hk]
      have hsame : ∀ a, a ≠ i → s.1.labels a = none →
          nNeighbors dist epsilon (Function.update s.1.labels i (some s.1.centers.length)) a
            = nNeighbors dist epsilon s.1.labels a := by
        intro a hai ha
        rw [nNeighbors_eq, nNeighbors_eq]
        congr 1
        ext j
        simp only [Finset.mem_filter, Finset.mem_univ, true_and]
        by_cases hji : j = i
        · subst hji
          rw [Function.update_self]
          have := hz a ha hai
          rw [hsym] at this
          simp [not_le.2 this]
        · rw [Function.update_of_ne hji]
      refine ⟨?_, ?_, ?_⟩
      · refine (h.inv.extend i _ ?_ ?_).1
        · intro j
          by_cases hji : j = i
          · subst hji
            rw [Function.update_self, if_pos ⟨hli, hself j⟩]
          · rw [Function.update_of_ne hji, if_neg]
            rintro ⟨h1, h2⟩
            exact absurd h2 (not_le.2 (hz j h1 hji))
        · intro h1; omega
      · intro a ha hn
        simp only at hn ⊢
        have hai : a ≠ i := by rintro rfl; rw [Function.update_self] at hn; simp at hn
        rw [Function.update_of_ne hai] at hn
        rw [hsame a hai hn]
        rcases List.mem_append.1 ha with ha | ha
        · exact h.visited a ha hn
        · exact absurd (List.mem_singleton.1 ha) hai
      · intro a ha
        obtain ⟨h1, h2, h3⟩ := h.cand a ha
        simp only
        by_cases hai : a = i
        · -- the candidate itself was isolated: then it had no neighbors
          subst hai
          omega
        · rw [hsame a hai h1, Function.update_of_ne hai]
          exact ⟨h1, h2, h3⟩
    · rw [if_neg hk]
      by_cases hlt : s.2.2 < nNeighbors dist epsilon s.1.labels i
      · rw [if_pos hlt]
        refine ⟨h.inv, ?_, ?_⟩
        · intro a ha hn
          simp only at hn ⊢
          rcases List.mem_append.1 ha with ha | ha
          · exact (h.visited a ha hn).trans hlt.le
          · rw [List.mem_singleton.1 ha]
        · intro a ha
          simp only [Option.some.injEq] at ha
          subst ha
          exact ⟨hli, rfl, (Nat.zero_le _).trans_lt hlt⟩
      · rw [if_neg hlt]
        refine ⟨h.inv, ?_, h.cand⟩
        intro a ha hn
        rcases List.mem_append.1 ha with ha | ha
        · exact h.visited a ha hn
        · rw [List.mem_singleton.1 ha]; omega

theorem scan_greedy_all {dist : Fin n → Fin n → K} {epsilon : K} (hself : ∀ i, dist i i ≤ epsilon)
    (hsym : ∀ i j, dist i j = dist j i) (l l0 : List (Fin n)) (s : Clusters n × Option (Fin n) × Nat)
    (h : ScanGreedy dist epsilon l0 s) :
    ScanGreedy dist epsilon (l0 ++ l) (l.foldl (scanPoint dist epsilon) s) := by
  induction l generalizing l0 s with
  | nil => simpa using h
  | cons i l ih =>
    rw [List.foldl_cons]
    have := ih (l0 ++ [i]) _ (scan_greedy_step hself hsym i h)
    simpa using this

theorem pass_greedy {dist : Fin n → Fin n → K} {epsilon : K} (hself : ∀ i, dist i i ≤ epsilon)
    (hsym : ∀ i j, dist i j = dist j i) {c c' : Clusters n} (hc : GreedyInv dist epsilon c)
    (hp : clusterPass dist epsilon c = .ok c') : GreedyInv dist epsilon c' := by
  have h0 : ScanGreedy dist epsilon [] (c, none, 0) := ⟨hc, by simp, by simp⟩
  have hs := scan_greedy_all hself hsym (List.finRange n) [] _ h0
  rw [List.nil_append] at hs
  unfold clusterPass at hp
  obtain ⟨c1, cand, k, hcc⟩ : ∃ c1 cand k,
    (List.finRange n).foldl (scanPoint dist epsilon) (c, none, 0) = (c1, cand, k) := ⟨_, _, _, rfl⟩
  rw [hcc] at hs hp
  simp only at hp
  split at hp
  · cases hcand : cand with
    | none => rw [hcand] at hp; simp at hp
    | some i =>
      rw [hcand] at hp
      simp only [Except.ok.injEq] at hp
      subst hp
      obtain ⟨h1, h2, h3⟩ := hs.cand i hcand
      refine (hs.inv.extend i _ ?_ ?_).1
      · intro j
        simp only [Bool.and_eq_true, Option.isNone_iff_eq_none, decide_eq_true_eq]
      · intro _ a ha
        rw [card_unlabeledNear hself ha, card_unlabeledNear hself h1, h2]
        have := hs.visited a (List.mem_finRange a) ha
        omega
  · simp only [Except.ok.injEq] at hp
    subst hp
    exact hs.inv

theorem loop_greedy {dist : Fin n → Fin n → K} {epsilon : K} (hself : ∀ i, dist i i ≤ epsilon)
    (hsym : ∀ i j, dist i j = dist j i) (fuel : Nat) {c c' : Clusters n} (hc : GreedyInv dist epsilon c)
    (hl : clusterLoop dist epsilon fuel c = some (.ok c')) : GreedyInv dist epsilon c' := by
  induction fuel generalizing c with
  | zero => simp [clusterLoop] at hl
  | succ m ih =>
    rw [clusterLoop] at hl
    split at hl
    · cases hp : clusterPass dist epsilon c with
      | error e => rw [hp] at hl; simp at hl
      | ok c1 => rw [hp] at hl; exact ih (pass_greedy hself hsym hc hp) hl
    · simp only [Option.some.injEq, Except.ok.injEq] at hl
      exact hl ▸ hc

/-- C84. Every cluster is chosen greedily among the points that are in no earlier cluster: it contains all
of them that are near its center, and a cluster with more than one point is as large as any that could
have been chosen instead. -/
theorem C84_clusters_are_greedy (dist : Fin n → Fin n → K) (epsilon : K)
    (hself : ∀ i, dist i i ≤ epsilon) (hsym : ∀ i j, dist i j = dist j i) (fuel : Nat) (c : Clusters n)
    (hc : clusterFuel dist epsilon fuel = some (.ok c)) :
    ∀ k, k < c.centers.length → GreedyAt dist epsilon c k :=
  (loop_greedy hself hsym fuel (c := ⟨fun _ => none, []⟩) ⟨by simp, by simp⟩ hc).greedy

/-- The hypotheses are met by the four points 0, 1, 2, 10 of C26. -/
example : (∀ i, c26Dist i i ≤ 1) ∧ (∀ i j, c26Dist i j = c26Dist j i) ∧
    (∃ c, clusterFuel c26Dist 1 5 = some (.ok c)) := by
  refine ⟨by intro i; simp [c26Dist], by intro i j; exact abs_sub_comm _ _, ?_⟩
  obtain ⟨c, hc, -⟩ := C26_clustering c26Dist 1 (by intro i; simp [c26Dist])
  exact ⟨c, hc 5 (by norm_num)⟩

end Tranquilo
