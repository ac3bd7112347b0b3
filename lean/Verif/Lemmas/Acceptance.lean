import Verif.Lemmas.Log
import Verif.Spec.Acceptance

/-!
# Lemmas on the acceptance deciders
-/

namespace Tranquilo

variable {K : Type} [Field K] [LinearOrder K] [IsStrictOrderedRing K] {n : Nat}

theorem improves_iff (m : K) (old new : XVal K) :
    (new.isFinite = true ∧ XVal.fin m ≤ -(new - old)) ↔ ImprovesBy m old new := by
  unfold ImprovesBy
  cases new with
  | fin a =>
    cases old with
    | fin b => simp
    | pinf =>
      simp only [XVal.isFinite_fin, true_and]
      constructor
      · intro _; exact ⟨a, rfl, by simp⟩
      · intro _; exact trivial
    | ninf =>
      simp only [XVal.isFinite_fin, true_and]
      constructor
      · intro h; exact absurd h (by intro h; exact h)
      · rintro ⟨_, _, h | ⟨b, h, _⟩⟩ <;> cases h
    | nan =>
      simp only [XVal.isFinite_fin, true_and]
      constructor
      · intro h; exact absurd h (by intro h; exact h)
      · rintro ⟨_, _, h | ⟨b, h, _⟩⟩ <;> cases h
  | _ => simp

theorem mean_singleton (v : XVal K) : XVal.mean [v] = v := by
  unfold XVal.mean
  rw [if_neg (by simp)]
  simp only [List.sum_cons, List.sum_nil, List.length_cons, List.length_nil, zero_add]
  have h0 : v + 0 = v := by
    cases v with
    | fin x => show XVal.fin (x + 0) = _; rw [add_zero]
    | _ => rfl
  rw [h0]
  cases v with
  | fin x => simp [FloatLike.divNat]
  | _ => rfl

/-! ## The common last step -/

theorem finish_spec (nrm : Vec K n → K) (cx : Vec K n) (cf : XVal K) (ci : Nat) (rho : XVal K)
    (acc : Bool) (old : Current K n) (ne : Int) :
    let res := finishDecision nrm cx cf ci rho acc old ne
    (res.accepted = true ↔ acc = true ∧ cf.isFinite = true) ∧
    (res.accepted = true → res.x = cx ∧ res.fval = cf ∧ res.index = ci ∧ res.rho = rho ∧
      res.candidateX = cx ∧ res.candidateIndex = ci ∧ res.stepLength = nrm fun i => cx i - old.x i) ∧
    (res.accepted = false → res.x = old.x ∧ res.fval = old.fval ∧ res.index = old.index ∧
      res.stepLength = nrm fun _ => 0) ∧
    (cf.isFinite = false → res.accepted = false ∧ res.rho = .ninf ∧ res.candidateX = old.x ∧
      res.candidateIndex = old.index) ∧
    (cf.isFinite = true → res.rho = rho ∧ res.candidateX = cx ∧ res.candidateIndex = ci) ∧
    res.nEvalsAcceptance = ne := by
  cases hf : cf.isFinite <;> cases acc <;> simp [finishDecision, hf, getAcceptanceResult]

/-! ## Reduction of the deciders to the values they see -/

theorem acceptSimple_one (nrm : Vec K n → K) (oracle : Oracle K n) (m : K) (sub : SubSolution K n)
    (old : Current K n) (h : Log K n) (hw : h.WF) :
    acceptClassic nrm oracle m sub old h =
      (⟨h.xs ++ [sub.x], h.evals ++ [(h.xs.length, oracle h.evals.length sub.x)]⟩,
        finishDecision nrm sub.x (oracle h.evals.length sub.x) h.xs.length
          (calculateRho (-(oracle h.evals.length sub.x - old.fval)) sub.expectedImprovement)
          (decide (XVal.fin m ≤ -(oracle h.evals.length sub.x - old.fval))) old 1) := by
  have hev : (h.addX sub.x).1.evaluate oracle [(h.xs.length, 1)]
      = ⟨h.xs ++ [sub.x], h.evals ++ [(h.xs.length, oracle h.evals.length sub.x)]⟩ := by
    rw [Log.evaluate_eq]
    simp [Log.addX, Log.newEvals]
  have hfv : (⟨h.xs ++ [sub.x], h.evals ++ [(h.xs.length, oracle h.evals.length sub.x)]⟩
      : Log K n).fvals h.xs.length = [oracle h.evals.length sub.x] := by
    have h1 := Log.fvals_append ⟨h.xs ++ [sub.x], h.evals⟩
      [(h.xs.length, oracle h.evals.length sub.x)] h.xs.length
    have h2 := Log.fvals_fresh hw (le_refl h.xs.length)
    simp only [Log.fvals] at h1 h2 ⊢
    rw [h1, h2]
    simp
  unfold acceptClassic acceptSimple
  simp only [show (h.addX sub.x).2 = h.xs.length from rfl]
  rw [hev]
  simp only [hfv, mean_singleton]
  rfl

/-- With a nonnegative `min_improvement` (default 0) the accepted value never exceeds the current one. -/
theorem improves_le {m : K} (hm : 0 ≤ m) {old new : XVal K} (h : ImprovesBy m old new) : new ≤ old := by
  obtain ⟨a, rfl, rfl | ⟨b, rfl, hb⟩⟩ := h
  · trivial
  · simp only [XVal.fin_le_fin]; linarith

/-! ## The line search decider -/

section lineSearch

variable (nrm : Vec K n → K) (cr : K → K) (oracle : Oracle K n) (sample : Sampler K n)
  (radiusFactor m : K) (b : Nat) (sub : SubSolution K n) (old : Current K n) (h : Log K n)

/-- The points that one call of the line search decider adds (candidate first). -/
def lineSearchPoints : List (Vec K n) :=
  sub.x :: lineSearchXs nrm cr sample radiusFactor b sub.x old (h.addX sub.x).1

theorem idxMin_spec (l : List (Nat × XVal K)) :
    (idxMin l = none → ∀ p ∈ l, p.2 = .nan) ∧
    (∀ q, idxMin l = some q → q ∈ l ∧ q.2 ≠ .nan ∧ ∀ p ∈ l, p.2 ≠ .nan → q.2 ≤ p.2) := by
  have hrefl : ∀ v : XVal K, v ≠ .nan → v ≤ v := by
    intro v hv; cases v <;> simp at hv ⊢
  have htrans : ∀ u v w : XVal K, u ≤ v → v ≤ w → u ≤ w := by
    intro u v w h1 h2
    cases u <;> cases v <;> cases w <;> simp at h1 h2 ⊢
    exact h1.trans h2
  have hnlt : ∀ u v : XVal K, u ≠ .nan → v ≠ .nan → ¬ (u < v) → v ≤ u := by
    intro u v h1 h2 h3
    cases u <;> cases v <;> simp at h1 h2 h3 ⊢
    exact h3
  have hlt : ∀ u v : XVal K, u < v → u ≤ v := by
    intro u v h3
    cases u <;> cases v <;> simp at h3 ⊢
    exact h3.le
  have hnan : ∀ v : XVal K, v.isNan = true ↔ v = .nan := by
    intro v; cases v <;> simp [XVal.isNan]
  induction l with
  | nil => simp [idxMin]
  | cons p l ih =>
    obtain ⟨ih1, ih2⟩ := ih
    rw [idxMin]
    cases hl : idxMin l with
    | none =>
      have hall := ih1 hl
      simp only
      by_cases hp : p.2.isNan = true
      · rw [if_pos hp]
        refine ⟨fun _ q hq => ?_, by simp⟩
        rcases List.mem_cons.1 hq with rfl | hq
        · exact (hnan _).1 hp
        · exact hall q hq
      · rw [if_neg hp]
        refine ⟨by simp, fun q hq => ?_⟩
        obtain rfl := Option.some.inj hq
        have hne : p.2 ≠ .nan := fun h => hp ((hnan _).2 h)
        refine ⟨by simp, hne, fun r hr hrn => ?_⟩
        rcases List.mem_cons.1 hr with rfl | hr
        · exact hrefl _ hne
        · exact absurd (hall r hr) hrn
    | some q =>
      obtain ⟨hq1, hq2, hq3⟩ := ih2 q hl
      simp only
      by_cases hp : p.2.isNan = true
      · rw [if_pos hp]
        refine ⟨by simp, fun r hr => ?_⟩
        obtain rfl := Option.some.inj hr
        refine ⟨by simp [hq1], hq2, fun s hs hsn => ?_⟩
        rcases List.mem_cons.1 hs with rfl | hs
        · exact absurd ((hnan _).1 hp) hsn
        · exact hq3 s hs hsn
      · rw [if_neg hp]
        have hne : p.2 ≠ .nan := fun h => hp ((hnan _).2 h)
        by_cases hlt' : q.2 < p.2
        · rw [if_pos hlt']
          refine ⟨by simp, fun r hr => ?_⟩
          obtain rfl := Option.some.inj hr
          refine ⟨by simp [hq1], hq2, fun s hs hsn => ?_⟩
          rcases List.mem_cons.1 hs with rfl | hs
          · exact hlt _ _ hlt'
          · exact hq3 s hs hsn
        · rw [if_neg hlt']
          refine ⟨by simp, fun r hr => ?_⟩
          obtain rfl := Option.some.inj hr
          refine ⟨by simp, hne, fun s hs hsn => ?_⟩
          rcases List.mem_cons.1 hs with rfl | hs
          · exact hrefl _ hne
          · exact htrans _ _ _ (hnlt _ _ hq2 hne hlt') (hq3 s hs hsn)

theorem newEvals_range (oracle : Oracle K n) (pts xs0 : List (Vec K n)) (k : Nat) :
    Log.newEvals oracle (xs0 ++ pts) k (List.range' xs0.length pts.length)
      = pts.mapIdx fun j x => (xs0.length + j, oracle (k + j) x) := by
  induction pts generalizing xs0 k with
  | nil => simp [Log.newEvals]
  | cons x pts ih =>
    rw [List.length_cons, List.range'_succ, Log.newEvals, List.mapIdx_cons]
    have hx : (xs0 ++ x :: pts)[xs0.length]? = some x := by simp
    rw [hx]
    have := ih (xs0 ++ [x]) (k + 1)
    simp only [List.append_assoc, List.singleton_append, List.length_append, List.length_cons,
      List.length_nil, zero_add] at this
    simp only [this, Nat.add_zero, List.cons.injEq, true_and]
    congr 1
    funext j y
    rw [Nat.add_assoc, Nat.add_assoc, Nat.add_comm 1 j]

/-- What the line search decider adds to the history: its points, each evaluated once, in order. -/
theorem lineSearch_log (hb : b ≠ 1) :
    (acceptLineSearch nrm cr oracle sample radiusFactor m b sub old h).1 =
      (⟨h.xs ++ lineSearchPoints nrm cr sample radiusFactor b sub old h,
        h.evals ++ (lineSearchPoints nrm cr sample radiusFactor b sub old h).mapIdx
          fun j x => (h.xs.length + j, oracle (h.evals.length + j) x)⟩ : Log K n) := by
  rw [← newEvals_range]
  unfold acceptLineSearch
  rw [if_neg hb]
  simp only [Log.evaluate_eq]
  simp only [Log.addXs, Log.addX, lineSearchPoints, List.append_assoc, List.singleton_append,
    List.length_cons, List.flatMap_cons, List.replicate_one, Log.mk.injEq, true_and,
    List.flatMap_map, List.length_append, List.length_nil, zero_add]
  congr 2
  rw [List.range'_succ]
  congr 1
  rw [List.range'_eq_map_range, List.map_eq_flatMap]

/-- The values the decider works with are the recorded ones. -/
theorem lineSearch_value (pts : List (Vec K n)) (hw : h.WF) (j : Nat) (hj : j < pts.length) :
    XVal.mean ((⟨h.xs ++ pts, h.evals ++ pts.mapIdx
        fun j x => (h.xs.length + j, oracle (h.evals.length + j) x)⟩ : Log K n).fvals (h.xs.length + j))
      = oracle (h.evals.length + j) pts[j] := by
  have h1 := Log.fvals_append ⟨h.xs ++ pts, h.evals⟩
    (pts.mapIdx fun j x => (h.xs.length + j, oracle (h.evals.length + j) x)) (h.xs.length + j)
  simp only at h1
  rw [h1]
  have h2 : (⟨h.xs ++ pts, h.evals⟩ : Log K n).fvals (h.xs.length + j) = [] :=
    Log.fvals_fresh hw (Nat.le_add_right _ _)
  rw [h2, ← newEvals_range]
  have hr : ∀ i (hi : i < (List.range' h.xs.length pts.length).length),
      (List.range' h.xs.length pts.length)[i] = h.xs.length + i := by
    intro i hi; simp
  have h3 := Log.newEvals_eq_of_nodup oracle (h.xs ++ pts) (List.range' h.xs.length pts.length)
    (List.nodup_range') h.evals.length j (by simpa using hj) pts[j]
    (by rw [hr]; simp [hj]) (by
      intro i hi
      simp only [List.mem_range'_1, List.length_append] at hi ⊢
      omega)
  rw [hr] at h3
  rw [h3, List.nil_append, mean_singleton]

/-- Shape of the decision: the best of the new points is taken. -/
theorem lineSearch_best (hb : b ≠ 1) (hw : h.WF) :
    ∃ (j : Nat) (x : Vec K n) (v : XVal K) (acc : Bool) (rho : XVal K),
      (lineSearchPoints nrm cr sample radiusFactor b sub old h)[j]? = some x ∧
      v = oracle (h.evals.length + j) x ∧
      (acc = true ↔ XVal.fin m ≤ -(v - old.fval)) ∧
      rho = calculateRho (-(oracle h.evals.length sub.x - old.fval)) sub.expectedImprovement ∧
      (acceptLineSearch nrm cr oracle sample radiusFactor m b sub old h).2
        = finishDecision nrm x v (h.xs.length + j) rho acc old 1 ∧
      (v = .nan ↔ oracle h.evals.length sub.x = .nan) ∧
      (v ≠ .nan → ∀ (k : Nat) (y : Vec K n),
        (lineSearchPoints nrm cr sample radiusFactor b sub old h)[k]? = some y →
        oracle (h.evals.length + k) y ≠ .nan → v ≤ oracle (h.evals.length + k) y) := by
  have hlog := lineSearch_log nrm cr oracle sample radiusFactor m b sub old h hb
  set pts := lineSearchPoints nrm cr sample radiusFactor b sub old h with hpts
  set L : Log K n := ⟨h.xs ++ pts, h.evals ++ pts.mapIdx
    fun j x => (h.xs.length + j, oracle (h.evals.length + j) x)⟩ with hL
  have hval : ∀ j (hj : j < pts.length), XVal.mean (L.fvals (h.xs.length + j))
      = oracle (h.evals.length + j) pts[j] := fun j hj => lineSearch_value oracle h pts hw j hj
  have hlen : pts.length = (lineSearchXs nrm cr sample radiusFactor b sub.x old (h.addX sub.x).1).length
      + 1 := by rw [hpts]; rfl
  have hc0 : pts[0]? = some sub.x := rfl
  have hcand : XVal.mean (L.fvals h.xs.length) = oracle h.evals.length sub.x :=
    hval 0 (by omega)
  -- the decision in terms of `L`
  set idx := (List.range (lineSearchXs nrm cr sample radiusFactor b sub.x old
    (h.addX sub.x).1).length).map fun k => (h.addX sub.x).1.xs.length + k with hidx
  have hdec : (acceptLineSearch nrm cr oracle sample radiusFactor m b sub old h).2 =
      (let best : Nat × XVal K :=
        match idxMin (idx.map fun i => (i, XVal.mean (L.fvals i))) with
        | some q => if q.2 < XVal.mean (L.fvals h.xs.length) then q
            else (h.xs.length, XVal.mean (L.fvals h.xs.length))
        | none => (h.xs.length, XVal.mean (L.fvals h.xs.length))
      finishDecision nrm ((L.xs[best.1]?).getD sub.x) best.2 best.1
        (calculateRho (-(XVal.mean (L.fvals h.xs.length) - old.fval)) sub.expectedImprovement)
        (decide (XVal.fin m ≤ -(best.2 - old.fval))) old 1) := by
    rw [← hlog]
    unfold acceptLineSearch
    simp only [if_neg hb]
    rfl
  have hmem : ∀ p ∈ idx.map (fun i => (i, XVal.mean (L.fvals i))),
      ∃ (j : Nat) (x : Vec K n), pts[j]? = some x ∧ p = (h.xs.length + j, oracle (h.evals.length + j) x) := by
    intro p hp
    rw [List.mem_map] at hp
    obtain ⟨i, hi, rfl⟩ := hp
    rw [hidx, List.mem_map] at hi
    obtain ⟨k, hk, rfl⟩ := hi
    rw [List.mem_range] at hk
    have hk' : k + 1 < pts.length := by omega
    have he : (h.addX sub.x).1.xs.length + k = h.xs.length + (k + 1) := by
      simp only [Log.addX, List.length_append, List.length_cons, List.length_nil]; omega
    refine ⟨k + 1, pts[k + 1], List.getElem?_eq_getElem hk', ?_⟩
    rw [he, hval (k + 1) hk']
  have hmem' : ∀ (j : Nat) (x : Vec K n), pts[j + 1]? = some x →
      (h.xs.length + (j + 1), oracle (h.evals.length + (j + 1)) x) ∈
        idx.map (fun i => (i, XVal.mean (L.fvals i))) := by
    intro j x hx
    obtain ⟨hj, rfl⟩ := List.getElem?_eq_some_iff.1 hx
    rw [List.mem_map]
    refine ⟨h.xs.length + (j + 1), ?_, by rw [hval (j + 1) hj]⟩
    rw [hidx, List.mem_map]
    refine ⟨j, by rw [List.mem_range]; omega, ?_⟩
    simp only [Log.addX, List.length_append, List.length_cons, List.length_nil]; omega
  have hLx : ∀ (j : Nat) (x : Vec K n), pts[j]? = some x → (L.xs[h.xs.length + j]?).getD sub.x = x := by
    intro j x hx
    rw [hL]
    simp [List.getElem?_append_right, hx]
  obtain ⟨hs1, hs2⟩ := idxMin_spec (idx.map fun i => (i, XVal.mean (L.fvals i)))
  have hnlt : ∀ u v : XVal K, u ≠ .nan → v ≠ .nan → ¬ (u < v) → v ≤ u := by
    intro u v h1 h2 h3
    cases u <;> cases v <;> simp at h1 h2 h3 ⊢
    exact h3
  have hlt : ∀ u v : XVal K, u < v → u ≤ v := by
    intro u v h3
    cases u <;> cases v <;> simp at h3 ⊢
    exact h3.le
  have htrans : ∀ u v w : XVal K, u ≤ v → v ≤ w → u ≤ w := by
    intro u v w h1 h2
    cases u <;> cases v <;> cases w <;> simp at h1 h2 ⊢
    exact h1.trans h2
  have hrefl : ∀ v : XVal K, v ≠ .nan → v ≤ v := by
    intro v hv; cases v <;> simp at hv ⊢
  rw [hdec]
  rw [hcand]
  cases hmin : idxMin (idx.map fun i => (i, XVal.mean (L.fvals i))) with
  | none =>
    have hall := hs1 hmin
    refine ⟨0, sub.x, oracle h.evals.length sub.x,
      decide (XVal.fin m ≤ -(oracle h.evals.length sub.x - old.fval)), _, hc0, rfl, by simp, rfl, ?_,
      Iff.rfl, ?_⟩
    · simp only
      have := hLx 0 sub.x hc0
      rw [Nat.add_zero] at this
      rw [this, Nat.add_zero]
    · intro hne k y hy hyn
      cases k with
      | zero =>
        rw [hc0] at hy
        obtain rfl := Option.some.inj hy
        exact hrefl _ hne
      | succ k => exact absurd (hall _ (hmem' k y hy)) hyn
  | some q =>
    obtain ⟨hq1, hq2, hq3⟩ := hs2 q hmin
    obtain ⟨j, x, hjx, hqe⟩ := hmem q hq1
    by_cases hlt' : q.2 < oracle h.evals.length sub.x
    · refine ⟨j, x, q.2, decide (XVal.fin m ≤ -(q.2 - old.fval)), _, hjx, by rw [hqe], by simp, rfl, ?_,
        ?_, ?_⟩
      · simp only [if_pos hlt']
        have : q.1 = h.xs.length + j := by rw [hqe]
        rw [this, hLx j x hjx]
      · constructor
        · intro he; exact absurd he hq2
        · intro he; rw [he] at hlt'; simp at hlt'
      · intro _ k y hy hyn
        cases k with
        | zero =>
          rw [hc0] at hy
          obtain rfl := Option.some.inj hy
          exact hlt _ _ hlt'
        | succ k => exact hq3 _ (hmem' k y hy) hyn
    · refine ⟨0, sub.x, oracle h.evals.length sub.x,
        decide (XVal.fin m ≤ -(oracle h.evals.length sub.x - old.fval)), _, hc0, rfl, by simp, rfl, ?_,
        Iff.rfl, ?_⟩
      · simp only [if_neg hlt']
        have := hLx 0 sub.x hc0
        rw [Nat.add_zero] at this
        rw [this, Nat.add_zero]
      · intro hne k y hy hyn
        cases k with
        | zero =>
          rw [hc0] at hy
          obtain rfl := Option.some.inj hy
          exact hrefl _ hne
        | succ k => exact htrans _ _ _ (hnlt _ _ hq2 hne hlt') (hq3 _ (hmem' k y hy) hyn)

end lineSearch

end Tranquilo
