import Verif.Model.Filter
import Mathlib.Data.List.FinRange
import Mathlib.Algebra.Order.Ring.Abs

/-!
# Property C26: clustering
-/

namespace Tranquilo

variable {K : Type} [Field K] [LinearOrder K] {n : Nat}

/-- Invariant of the loops of `_cluster`. -/
structure ClusterInv (dist : Fin n → Fin n → K) (epsilon : K) (c : Clusters n) : Prop where
  labeled : ∀ j k, c.labels j = some k → ∃ i, c.centers[k]? = some i ∧ dist i j ≤ epsilon
  center : ∀ k i, c.centers[k]? = some i → c.labels i = some k
  far : ∀ i ∈ c.centers, ∀ j, c.labels j = none → epsilon < dist i j
  apart : c.centers.Pairwise fun a b => epsilon < dist a b

theorem nNeighbors_eq_zero {dist : Fin n → Fin n → K} {epsilon : K} {labels : Fin n → Option Nat}
    {i : Fin n} (h : nNeighbors dist epsilon labels i = 0) :
    ∀ j, labels j = none → j ≠ i → epsilon < dist i j := by
  intro j hj hne
  unfold nNeighbors at h
  rw [List.length_eq_zero_iff, List.filter_eq_nil_iff] at h
  have := h j (List.mem_finRange j)
  simpa [hj, hne] using this

/-- A new cluster with center `i` that consists of `i` and of unlabeled points near `i`, such that no
unlabeled point near `i` is left out. -/
theorem ClusterInv.extend {dist : Fin n → Fin n → K} {epsilon : K} {c : Clusters n}
    (hc : ClusterInv dist epsilon c) (i : Fin n) (hi : c.labels i = none) (hself : dist i i ≤ epsilon)
    (labels : Fin n → Option Nat)
    (hold : ∀ j, c.labels j ≠ none → labels j = c.labels j)
    (hnew : ∀ j, c.labels j = none → labels j = none ∨ (labels j = some c.centers.length ∧ dist i j ≤ epsilon))
    (hleft : ∀ j, labels j = none → epsilon < dist i j) :
    ClusterInv dist epsilon ⟨labels, c.centers ++ [i]⟩ := by
  have hli : labels i = some c.centers.length := by
    rcases hnew i hi with h | h
    · exact absurd hself (not_le.2 (hleft i h))
    · exact h.1
  refine ⟨?_, ?_, ?_, ?_⟩
  · intro j k hk
    simp only at hk ⊢
    cases hcj : c.labels j with
    | some k' =>
      rw [hold j (by simp [hcj]), hcj, Option.some.injEq] at hk
      subst hk
      obtain ⟨a, h1, h2⟩ := hc.labeled j k' hcj
      refine ⟨a, ?_, h2⟩
      rw [List.getElem?_append_left (List.getElem?_eq_some_iff.1 h1).1]
      exact h1
    | none =>
      rcases hnew j hcj with h | ⟨h, hd⟩
      · rw [h] at hk; simp at hk
      · rw [h, Option.some.injEq] at hk
        subst hk
        exact ⟨i, by simp, hd⟩
  · intro k a hka
    simp only at hka ⊢
    rcases Nat.lt_or_ge k c.centers.length with hk | hk
    · rw [List.getElem?_append_left hk] at hka
      have := hc.center k a hka
      rw [hold a (by simp [this]), this]
    · rw [List.getElem?_append_right hk] at hka
      have hk0 : k - c.centers.length = 0 := by
        by_contra hne
        rw [List.getElem?_eq_none (by simp; omega)] at hka
        simp at hka
      rw [hk0] at hka
      simp only [List.getElem?_cons_zero, Option.some.injEq] at hka
      subst hka
      rw [hli]
      congr 1
      omega
  · intro a ha j hj
    have hcj : c.labels j = none := by
      by_contra hne
      simp only at hj
      rw [hold j hne] at hj
      exact hne hj
    rcases List.mem_append.1 ha with ha | ha
    · exact hc.far a ha j hcj
    · rw [List.mem_singleton.1 ha]; exact hleft j hj
  · rw [List.pairwise_append]
    refine ⟨hc.apart, by simp, fun a ha b hb => ?_⟩
    rw [List.mem_singleton.1 hb]
    exact hc.far a ha i hi

/-- Invariant of the scan: `l` are the points visited so far. -/
structure ScanInv (dist : Fin n → Fin n → K) (epsilon : K) (c0 : Clusters n) (l : List (Fin n))
    (s : Clusters n × Option (Fin n) × Nat) : Prop where
  inv : ClusterInv dist epsilon s.1
  mono : ∀ j, c0.labels j ≠ none → s.1.labels j = c0.labels j
  cand : ∀ i, s.2.1 = some i → s.1.labels i = none ∧ i ∈ l
  none : s.2.1 = none → s.2.2 = 0 ∧ ∀ i ∈ l, s.1.labels i ≠ none

theorem scan_step {dist : Fin n → Fin n → K} {epsilon : K} (hself : ∀ i, dist i i ≤ epsilon)
    {c0 : Clusters n} {l : List (Fin n)} {s : Clusters n × Option (Fin n) × Nat} (i : Fin n)
    (hil : i ∉ l) (h : ScanInv dist epsilon c0 l s) :
    ScanInv dist epsilon c0 (l ++ [i]) (scanPoint dist epsilon s i) := by
  unfold scanPoint
  cases hli : s.1.labels i with
  | some k =>
    simp only
    refine ⟨h.inv, h.mono, fun a ha => ⟨(h.cand a ha).1, by simp [(h.cand a ha).2]⟩, fun hn =>
      ⟨(h.none hn).1, fun a ha => ?_⟩⟩
    rcases List.mem_append.1 ha with ha | ha
    · exact (h.none hn).2 a ha
    · rw [List.mem_singleton.1 ha, hli]; simp
  | none =>
    simp only
    by_cases hk : nNeighbors dist epsilon s.1.labels i = 0
    · rw [if_pos hk]
      have hz := nNeighbors_eq_zero hk
      have hupd : ∀ j, j ≠ i → Function.update s.1.labels i (some s.1.centers.length) j = s.1.labels j :=
        fun j hj => Function.update_of_ne hj _ _
      refine ⟨?_, ?_, ?_, ?_⟩
      · refine h.inv.extend i hli (hself i) _ ?_ ?_ ?_
        · intro j hj
          have : j ≠ i := by rintro rfl; exact hj hli
          exact hupd j this
        · intro j hj
          by_cases hji : j = i
          · subst hji; right; exact ⟨Function.update_self _ _ _, hself j⟩
          · left; rw [hupd j hji]; exact hj
        · intro j hj
          have hji : j ≠ i := by rintro rfl; rw [Function.update_self] at hj; simp at hj
          rw [hupd j hji] at hj
          exact hz j hj hji
      · intro j hj
        have := h.mono j hj
        have hji : j ≠ i := by
          rintro rfl; rw [hli] at this; exact hj this.symm
        simp only
        rw [hupd j hji]; exact this
      · intro a ha
        have h1 := h.cand a ha
        have hai : a ≠ i := by rintro rfl; exact hil h1.2
        simp only
        rw [hupd a hai]
        exact ⟨h1.1, by simp [h1.2]⟩
      · intro hn
        refine ⟨(h.none hn).1, fun a ha => ?_⟩
        simp only
        by_cases hai : a = i
        · subst hai; rw [Function.update_self]; simp
        · rw [hupd a hai]
          rcases List.mem_append.1 ha with ha | ha
          · exact (h.none hn).2 a ha
          · exact absurd (List.mem_singleton.1 ha) hai
    · rw [if_neg hk]
      by_cases hlt : s.2.2 < nNeighbors dist epsilon s.1.labels i
      · rw [if_pos hlt]
        refine ⟨h.inv, h.mono, ?_, by simp⟩
        intro a ha
        simp only [Option.some.injEq] at ha
        subst ha
        exact ⟨hli, by simp⟩
      · rw [if_neg hlt]
        refine ⟨h.inv, h.mono, fun a ha => ⟨(h.cand a ha).1, by simp [(h.cand a ha).2]⟩, fun hn => ?_⟩
        have := (h.none hn).1
        omega

theorem scan_all {dist : Fin n → Fin n → K} {epsilon : K} (hself : ∀ i, dist i i ≤ epsilon)
    {c0 : Clusters n} (l : List (Fin n)) (l0 : List (Fin n)) (hnd : (l0 ++ l).Nodup)
    (s : Clusters n × Option (Fin n) × Nat) (h : ScanInv dist epsilon c0 l0 s) :
    ScanInv dist epsilon c0 (l0 ++ l) (l.foldl (scanPoint dist epsilon) s) := by
  induction l generalizing l0 s with
  | nil => simpa using h
  | cons i l ih =>
    rw [List.foldl_cons]
    have hi : i ∉ l0 := by
      intro hmem
      rw [List.nodup_append] at hnd
      exact hnd.2.2 i hmem i (by simp) rfl
    have := ih (l0 ++ [i]) (by simpa using hnd) _ (scan_step hself i hi h)
    simpa using this

theorem nLabeled_le (labels : Fin n → Option Nat) : nLabeled labels ≤ n := by
  unfold nLabeled
  exact (List.length_filter_le _ _).trans (by simp)

theorem nLabeled_lt_iff (labels : Fin n → Option Nat) :
    nLabeled labels < n ↔ ∃ j, labels j = none := by
  have h := List.length_filter_lt_length_iff_exists (l := List.finRange n)
    (p := fun j => (labels j).isSome)
  rw [List.length_finRange] at h
  unfold nLabeled
  rw [h]
  simp

theorem nLabeled_lt_of {a b : Fin n → Option Nat} (hmono : ∀ j, a j ≠ none → b j ≠ none)
    (i : Fin n) (hai : a i = none) (hbi : b i ≠ none) : nLabeled a < nLabeled b := by
  have key : ∀ l : List (Fin n),
      (l.filter fun j => (a j).isSome).length ≤ (l.filter fun j => (b j).isSome).length ∧
      (i ∈ l → (l.filter fun j => (a j).isSome).length < (l.filter fun j => (b j).isSome).length) := by
    intro l
    induction l with
    | nil => simp
    | cons j l ih =>
      have h1 : (a j).isSome = true → (b j).isSome = true := by
        intro h
        have := hmono j (by intro hn; rw [hn] at h; simp at h)
        cases hb : b j with
        | none => exact absurd hb this
        | some v => rfl
      by_cases hij : j = i
      · subst hij
        have hb : (b j).isSome = true := by
          cases hb : b j with
          | none => exact absurd hb hbi
          | some v => rfl
        simp only [List.filter_cons, hai, hb, if_true, List.length_cons, Option.isSome_none,
          Bool.false_eq_true, if_false]
        exact ⟨by omega, fun _ => by omega⟩
      · simp only [List.filter_cons, List.mem_cons, Ne.symm hij, false_or]
        cases ha : (a j).isSome
        · simp only [Bool.false_eq_true, if_false]
          cases hb : (b j).isSome
          · simpa using ih
          · simp only [if_true, List.length_cons]
            exact ⟨by omega, fun hm => by have := ih.2 hm; omega⟩
        · rw [h1 ha]
          simp only [if_true, List.length_cons]
          exact ⟨by omega, fun hm => by have := ih.2 hm; omega⟩
  exact (key (List.finRange n)).2 (List.mem_finRange i)

/-- One pass keeps the invariant, never fails and labels at least one point. -/
theorem pass_spec {dist : Fin n → Fin n → K} {epsilon : K} (hself : ∀ i, dist i i ≤ epsilon)
    {c : Clusters n} (hc : ClusterInv dist epsilon c) (hlt : nLabeled c.labels < n) :
    ∃ c', clusterPass dist epsilon c = .ok c' ∧ ClusterInv dist epsilon c' ∧
      nLabeled c.labels < nLabeled c'.labels := by
  have h0 : ScanInv dist epsilon c [] (c, none, 0) := ⟨hc, fun _ _ => rfl, by simp, by simp⟩
  have hs := scan_all hself (List.finRange n) [] (by simpa using List.nodup_finRange n) _ h0
  rw [List.nil_append] at hs
  unfold clusterPass
  obtain ⟨c1, cand, k, hcc⟩ : ∃ c1 cand k,
    (List.finRange n).foldl (scanPoint dist epsilon) (c, none, 0) = (c1, cand, k) := ⟨_, _, _, rfl⟩
  rw [hcc] at hs ⊢
  simp only
  obtain ⟨j0, hj0⟩ := (nLabeled_lt_iff _).1 hlt
  by_cases hlt1 : nLabeled c1.labels < n
  · rw [if_pos hlt1]
    cases hcand : cand with
    | none =>
      obtain ⟨j, hj⟩ := (nLabeled_lt_iff _).1 hlt1
      exact absurd hj ((hs.none hcand).2 j (List.mem_finRange j))
    | some i =>
      have hi : c1.labels i = none := (hs.cand i hcand).1
      have hi0 : c.labels i = none := by
        by_contra hne
        have := hs.mono i hne
        simp only at this
        rw [hi] at this
        exact hne this.symm
      refine ⟨_, rfl, ?_, ?_⟩
      · refine hs.inv.extend i hi (hself i) _ ?_ ?_ ?_
        · intro j hj
          cases hcj : c1.labels j with
          | none => exact absurd hcj hj
          | some v => simp [hcj]
        · intro j hj
          have hj : c1.labels j = none := hj
          by_cases hd : dist i j ≤ epsilon
          · right; simp [hj, hd]
          · left; simp [hj, hd]
        · intro j hj
          by_contra hd
          rw [not_lt] at hd
          cases hcj : c1.labels j with
          | none => simp [hcj, hd] at hj
          | some v => simp [hcj] at hj
      · refine nLabeled_lt_of ?_ i hi0 ?_
        · intro j hj
          have := hs.mono j hj
          simp only at this ⊢
          rw [this]
          split
          · simp
          · exact hj
        · simp [hi, hself i]
  · rw [if_neg hlt1]
    refine ⟨c1, rfl, hs.inv, ?_⟩
    have := nLabeled_le c1.labels
    omega

theorem loop_spec {dist : Fin n → Fin n → K} {epsilon : K} (hself : ∀ i, dist i i ≤ epsilon)
    (fuel : Nat) {c : Clusters n} (hc : ClusterInv dist epsilon c) (hf : n < fuel + nLabeled c.labels) :
    ∃ c', clusterLoop dist epsilon fuel c = some (.ok c') ∧ ClusterInv dist epsilon c' ∧
      ¬ nLabeled c'.labels < n := by
  induction fuel generalizing c with
  | zero => have := nLabeled_le c.labels; omega
  | succ m ih =>
    rw [clusterLoop]
    by_cases hlt : nLabeled c.labels < n
    · rw [if_pos hlt]
      obtain ⟨c', h1, h2, h3⟩ := pass_spec hself hc hlt
      rw [h1]
      exact ih h2 (by omega)
    · rw [if_neg hlt]
      exact ⟨c, rfl, hc, hlt⟩

/-- C26. For every distance function with `dist i i <= epsilon` (in particular the distances of a point
set and `epsilon >= 0`) the procedure terminates (after at most `n` passes, any larger amount of fuel
gives the same), does not raise, and yields labels and centers such that: every point `j` has
exactly one label `k`, which is the number of a center `i` with `dist i j <= epsilon`; the `k`-th center
has label `k`; different centers are more than `epsilon` apart. -/
theorem C26_clustering (dist : Fin n → Fin n → K) (epsilon : K) (hself : ∀ i, dist i i ≤ epsilon) :
    ∃ c : Clusters n,
      (∀ fuel, n < fuel → clusterFuel dist epsilon fuel = some (.ok c)) ∧
      (∀ j, ∃ k i, c.labels j = some k ∧ c.centers[k]? = some i ∧ dist i j ≤ epsilon) ∧
      (∀ (k : Nat) (i : Fin n), c.centers[k]? = some i → c.labels i = some k) ∧
      (∀ (k l : Nat) (i j : Fin n), k < l → c.centers[k]? = some i → c.centers[l]? = some j → epsilon < dist i j) := by
  have hinit : ClusterInv dist epsilon (⟨fun _ => none, []⟩ : Clusters n) :=
    ⟨by simp, by simp, by simp, by simp⟩
  have hmono : ∀ (f g : Nat) (c c' : Clusters n), f ≤ g →
      clusterLoop dist epsilon f c = some (.ok c') → clusterLoop dist epsilon g c = some (.ok c') := by
    intro f
    induction f with
    | zero => intro g c c' _ h; simp [clusterLoop] at h
    | succ f ih =>
      intro g c c' hfg h
      obtain ⟨g, rfl⟩ : ∃ g', g = g' + 1 := ⟨g - 1, by omega⟩
      rw [clusterLoop] at h ⊢
      split at h
      · rename_i hlt
        rw [if_pos hlt]
        cases hp : clusterPass dist epsilon c with
        | error e => rw [hp] at h; simp at h
        | ok c1 => rw [hp] at h; exact ih g c1 c' (by omega) h
      · rename_i hlt
        rw [if_neg hlt]; exact h
  have h1 := loop_spec hself (n + 1) hinit (by omega)
  obtain ⟨c, hc1, hc2, hc3⟩ := h1
  refine ⟨c, ?_, ?_, hc2.center, ?_⟩
  · intro fuel hfuel
    exact hmono (n + 1) fuel _ _ (by omega) hc1
  · intro j
    rw [nLabeled_lt_iff] at hc3
    push Not at hc3
    cases hj : c.labels j with
    | none => exact absurd hj (hc3 j)
    | some k =>
      obtain ⟨i, h1, h2⟩ := hc2.labeled j k hj
      exact ⟨k, i, rfl, h1, h2⟩
  · intro k l i j hkl hi hj
    have := List.pairwise_iff_getElem.1 hc2.apart
    obtain ⟨hk, rfl⟩ := List.getElem?_eq_some_iff.1 hi
    obtain ⟨hl, rfl⟩ := List.getElem?_eq_some_iff.1 hj
    exact this k l hk hl hkl

/-- Distances of four points on the line: 0, 1, 2, 10. -/
def c26Dist : Fin 4 → Fin 4 → ℚ := fun i j => |(![0, 1, 2, 10] : Fin 4 → ℚ) i - (![0, 1, 2, 10] : Fin 4 → ℚ) j|

/-- The hypothesis is met, and two clusters are found: the isolated point 10 and the center 1. -/
example : (∀ i, c26Dist i i ≤ 1) ∧
    (clusterFuel c26Dist 1 5).map (fun r => r.map fun c => (c.centers, (List.finRange 4).map c.labels))
      = some (.ok ([3, 1], [some 1, some 1, some 1, some 0])) := by
  constructor
  · intro i; simp [c26Dist]
  · decide +kernel

/-- Clustering can drop the current point (which C24 does not claim for this filter): with the points 0,
1, 2 and the current point 0, only the center 1 survives. -/
theorem C24_clustering_may_drop_center :
    (clusterFuel (fun i j : Fin 3 => |(![0, 1, 2] : Fin 3 → ℚ) i - (![0, 1, 2] : Fin 3 → ℚ) j|) 1 5).map
      (fun r => r.map fun c => c.centers) = some (.ok [1]) := by decide +kernel

end Tranquilo
