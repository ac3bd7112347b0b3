import Verif.Model.Acceptance

/-!
# Lemmas on the abstract history
-/

namespace Tranquilo

variable {K : Type} [Field K] [LinearOrder K] {n : Nat}

namespace Log

/-- All recorded evaluations belong to stored points. -/
def WF (h : Log K n) : Prop := ∀ p ∈ h.evals, p.1 < h.xs.length

/-- The evaluations that a list of points adds. -/
def newEvals (oracle : Oracle K n) (xs : List (Vec K n)) : Nat → List Nat → List (Nat × XVal K)
  | _, [] => []
  | k, i :: l =>
    match xs[i]? with
    | some x => (i, oracle k x) :: newEvals oracle xs (k + 1) l
    | none => newEvals oracle xs k l

theorem foldl_evalOne (oracle : Oracle K n) (l : List Nat) (h : Log K n) :
    l.foldl (evalOne oracle) h
      = { h with evals := h.evals ++ newEvals oracle h.xs h.evals.length l } := by
  induction l generalizing h with
  | nil => simp [newEvals]
  | cons i l ih =>
    rw [List.foldl_cons, ih, newEvals]
    unfold evalOne
    cases hx : h.xs[i]? with
    | none => simp
    | some x => simp

theorem evaluate_eq (oracle : Oracle K n) (h : Log K n) (request : List (Nat × Nat)) :
    h.evaluate oracle request
      = { h with
          evals := h.evals ++ newEvals oracle h.xs h.evals.length
            (request.flatMap fun p => List.replicate p.2 p.1) } :=
  foldl_evalOne _ _ _

@[simp] theorem evaluate_xs (oracle : Oracle K n) (h : Log K n) (request : List (Nat × Nat)) :
    (h.evaluate oracle request).xs = h.xs := by rw [evaluate_eq]

theorem newEvals_fst (oracle : Oracle K n) (xs : List (Vec K n)) (l : List Nat)
    (hl : ∀ i ∈ l, i < xs.length) (k : Nat) : (newEvals oracle xs k l).map Prod.fst = l := by
  induction l generalizing k with
  | nil => rfl
  | cons i l ih =>
    have hi := hl i (by simp)
    rw [newEvals, List.getElem?_eq_getElem hi]
    simp only [List.map_cons]
    rw [ih (fun j hj => hl j (by simp [hj]))]

theorem newEvals_mem_lt (oracle : Oracle K n) (xs : List (Vec K n)) (l : List Nat) (k : Nat) :
    ∀ p ∈ newEvals oracle xs k l, p.1 < xs.length ∧ p.1 ∈ l ∧
      ∃ m x, xs[p.1]? = some x ∧ p.2 = oracle m x := by
  induction l generalizing k with
  | nil => simp [newEvals]
  | cons i l ih =>
    intro p hp
    rw [newEvals] at hp
    cases hx : xs[i]? with
    | none =>
      rw [hx] at hp
      obtain ⟨h1, h2, h3⟩ := ih k p hp
      exact ⟨h1, by simp [h2], h3⟩
    | some x =>
      rw [hx] at hp
      rcases List.mem_cons.1 hp with rfl | hp
      · have : i < xs.length := by
          by_contra hc
          rw [List.getElem?_eq_none (by omega)] at hx
          simp at hx
        exact ⟨this, by simp, k, x, hx, rfl⟩
      · obtain ⟨h1, h2, h3⟩ := ih (k + 1) p hp
        exact ⟨h1, by simp [h2], h3⟩

theorem newEvals_length_le (oracle : Oracle K n) (xs : List (Vec K n)) (l : List Nat) (k : Nat) :
    (newEvals oracle xs k l).length ≤ l.length := by
  induction l generalizing k with
  | nil => simp [newEvals]
  | cons i l ih =>
    rw [newEvals]
    cases xs[i]? with
    | none => exact (ih k).trans (by simp)
    | some x => simpa using ih (k + 1)

theorem wf_evaluate {h : Log K n} (hw : h.WF) (oracle : Oracle K n) (request : List (Nat × Nat)) :
    (h.evaluate oracle request).WF := by
  intro p hp
  rw [evaluate_eq] at hp ⊢
  rcases List.mem_append.1 hp with hp | hp
  · exact hw p hp
  · exact (newEvals_mem_lt _ _ _ _ p hp).1

theorem wf_addX {h : Log K n} (hw : h.WF) (x : Vec K n) : (h.addX x).1.WF := by
  intro p hp
  have := hw p hp
  simp only [addX, List.length_append, List.length_cons, List.length_nil]
  omega

theorem wf_addXs {h : Log K n} (hw : h.WF) (rows : List (Vec K n)) : (h.addXs rows).1.WF := by
  intro p hp
  have := hw p hp
  simp only [addXs, List.length_append]
  omega

theorem fvals_fresh {h : Log K n} (hw : h.WF) {i : Nat} (hi : h.xs.length ≤ i) : h.fvals i = [] := by
  unfold fvals
  rw [List.filter_eq_nil_iff.2]
  · rfl
  · intro p hp
    have := hw p hp
    simp only [decide_eq_true_eq]
    omega

theorem fvals_append (h : Log K n) (l : List (Nat × XVal K)) (i : Nat) :
    ({ h with evals := h.evals ++ l } : Log K n).fvals i
      = h.fvals i ++ (l.filter fun p => p.1 = i).map Prod.snd := by
  simp [fvals]

theorem newEvals_filter_not_mem (oracle : Oracle K n) (xs : List (Vec K n)) (l : List Nat) (k i : Nat)
    (hi : i ∉ l) : ((newEvals oracle xs k l).filter fun p => p.1 = i) = [] := by
  rw [List.filter_eq_nil_iff]
  intro p hp
  have := (newEvals_mem_lt _ _ _ _ p hp).2.1
  simp only [decide_eq_true_eq]
  rintro rfl
  exact hi this

/-- Points that are not requested keep their evaluations. -/
theorem fvals_evaluate_of_not_mem (oracle : Oracle K n) (h : Log K n) (request : List (Nat × Nat))
    (i : Nat) (hi : i ∉ request.map Prod.fst) :
    (h.evaluate oracle request).fvals i = h.fvals i := by
  rw [evaluate_eq, fvals_append, newEvals_filter_not_mem]
  · simp
  · intro hm
    obtain ⟨p, hp, hm⟩ := List.mem_flatMap.1 hm
    exact hi (List.mem_map.2 ⟨p, hp, (List.eq_of_mem_replicate hm).symm⟩)

/-- Evaluations are only ever appended. -/
theorem fvals_evaluate_prefix (oracle : Oracle K n) (h : Log K n) (request : List (Nat × Nat))
    (i : Nat) : ∃ l, (h.evaluate oracle request).fvals i = h.fvals i ++ l := by
  rw [evaluate_eq, fvals_append]
  exact ⟨_, rfl⟩

/-- Values of a list of distinct points that are evaluated once each. -/
theorem newEvals_eq_of_nodup (oracle : Oracle K n) (xs : List (Vec K n)) (l : List Nat)
    (hl : l.Nodup) (k j : Nat) (hj : j < l.length) (x : Vec K n) (hx : xs[l[j]]? = some x)
    (hall : ∀ i ∈ l, i < xs.length) :
    ((newEvals oracle xs k l).filter fun p => p.1 = l[j]).map Prod.snd = [oracle (k + j) x] := by
  induction l generalizing k j with
  | nil => simp at hj
  | cons i l ih =>
    have hi := hall i (by simp)
    obtain ⟨hnot, hnd⟩ := List.nodup_cons.1 hl
    rw [newEvals, List.getElem?_eq_getElem hi]
    cases j with
    | zero =>
      simp only [List.getElem_cons_zero] at hx ⊢
      rw [List.getElem?_eq_getElem hi] at hx
      rw [List.filter_cons_of_pos (by simp), newEvals_filter_not_mem _ _ _ _ _ hnot]
      have := Option.some.inj hx
      simp [this]
    | succ j =>
      simp only [List.getElem_cons_succ] at hx ⊢
      have hj' : j < l.length := by simpa using hj
      have hne : i ≠ l[j] := by
        intro he
        exact hnot (he ▸ List.getElem_mem hj')
      rw [List.filter_cons_of_neg (by simpa using hne)]
      have := ih hnd (k + 1) j hj' hx (fun a ha => hall a (by simp [ha]))
      rw [this, Nat.add_assoc, Nat.add_comm 1 j]

end Log

end Tranquilo
