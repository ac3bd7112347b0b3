import Verif.Lemmas.HistoryReads
import Mathlib.Analysis.SpecialFunctions.Pow.Real

/-!
# Properties C01 - C07: the history
-/

namespace Tranquilo

section C01
variable {V : Type} [FloatLike V]

/-- C01. Whatever happened before (`before`) and whatever happens later (`after`), including calls
that raise: vectors that were added successfully can be read back unchanged under the consecutive
indices that `add_xs` returned. `hdim` says that the new vectors have the same length as
the vectors that are already there; the indices start at the number of vectors stored before. -/
theorem C01_vectors_never_lost (ft : Functype) (before after : List (HistOp V))
    (rows : List (List V)) (d : Nat) (hd : 0 < d) (hrows : ∀ r ∈ rows, r.length = d)
    (h' : History V) (out : IdxOut)
    (hdim : ∀ i x, ((History.init ft).run before).getX i = .ok x → x.length = d)
    (hadd : ((History.init ft).run before).addXs (.many rows) = (h', .ok out)) :
    out = .many (List.range' ((History.init ft : History V).run before).n_xs rows.length) ∧
    ∀ k (hk : k < rows.length),
      (h'.run after).getX (((History.init ft : History V).run before).n_xs + k : Nat)
        = .ok rows[k] := by
  obtain ⟨hi, -⟩ := run_storedXs (h := (History.init ft : History V)) (Or.inl ⟨rfl, rfl⟩) before
  generalize hB : (History.init ft : History V).run before = B at *
  cases rows with
  | nil =>
    refine ⟨?_, by simp⟩
    simp [History.addXs, XsArg.toMat] at hadd
    rw [← hadd.2]; rfl
  | cons r rs =>
    have hr : r.length = d := hrows r List.mem_cons_self
    have hall : (rs.all fun r' => decide (r'.length = r.length)) = true := by
      rw [List.all_eq_true]; intro r' hr'
      simp [hr, hrows r' (List.mem_cons_of_mem _ hr')]
    have hmat : (XsArg.many (r :: rs)).toMat = .ok ⟨d, r :: rs⟩ := by
      rw [← hr]; simp only [XsArg.toMat, hall, if_true]
    obtain ⟨hi', new, hst, hnew⟩ := addXs_storedXs hi hadd
    obtain ⟨-, hnew⟩ := hnew _ hmat hd
    have hnew : new = r :: rs := by
      apply hnew _ hrows
      rcases hi with ⟨h1, -⟩ | ⟨m, h1, h2, h3, h4⟩
      · exact Or.inl h1
      · right
        refine ⟨m, h1, ?_⟩
        have hlt : 0 < (m.rows.take B.n_xs).length := by simp; omega
        have hget : B.getX ((0 : Nat) : Int) = .ok (m.rows.take B.n_xs)[0] := by
          apply getX_stored (Or.inr ⟨m, h1, h2, h3, h4⟩)
          unfold storedXs; rw [h1]
          exact List.getElem?_eq_getElem hlt
        rw [← h4 _ (List.getElem_mem hlt), hdim _ _ hget]
    subst hnew
    refine ⟨?_, ?_⟩
    · unfold History.addXs at hadd
      rw [hmat] at hadd
      simp only at hadd
      rw [if_neg (by rw [if_neg (by omega)]; simp)] at hadd
      split at hadd
      · simp at hadd
      · simp only [Prod.mk.injEq, Except.ok.injEq] at hadd
        rw [← hadd.2, if_neg (by omega)]
    · intro k hk
      obtain ⟨hi'', hpre⟩ := run_storedXs hi' after
      apply getX_stored hi''
      obtain ⟨t, ht⟩ := hpre
      have hlen := storedXs_length hi
      rw [← ht, hst, List.append_assoc, List.getElem?_append_right (by omega), hlen,
        Nat.add_sub_cancel_left, List.getElem?_append_left hk, List.getElem?_eq_getElem hk]

/-- C01, one vector at a time. -/
theorem C01_single_vector_never_lost (ft : Functype) (before after : List (HistOp V))
    (x : List V) (hx : x ≠ []) (h' : History V) (out : IdxOut)
    (hdim : ∀ i y, ((History.init ft).run before).getX i = .ok y → y.length = x.length)
    (hadd : ((History.init ft).run before).addXs (.single x) = (h', .ok out)) :
    out = .one ((History.init ft : History V).run before).n_xs ∧
      (h'.run after).getX (((History.init ft : History V).run before).n_xs : Nat) = .ok x := by
  have hpos : 0 < x.length := List.length_pos_iff.2 hx
  have hmany : ∃ o, ((History.init ft : History V).run before).addXs (.many [x]) = (h', .ok o) := by
    unfold History.addXs at hadd ⊢
    simp only [XsArg.toMat, List.all_nil, if_true] at hadd ⊢
    rw [if_neg (by rw [if_neg (by omega)]; simp)] at hadd ⊢
    split at hadd
    · simp at hadd
    · rename_i heq
      simp only [Prod.mk.injEq] at hadd
      simp only [heq, Prod.mk.injEq]
      exact ⟨_, hadd.1, rfl⟩
  obtain ⟨o, ho⟩ := hmany
  have := (C01_vectors_never_lost ft before after [x] x.length hpos (by simp) h' o hdim ho).2 0
    (by simp)
  refine ⟨?_, by simpa using this⟩
  unfold History.addXs at hadd
  simp only [XsArg.toMat] at hadd
  rw [if_neg (by rw [if_neg (by omega)]; simp)] at hadd
  split at hadd
  · simp at hadd
  · simp only [Prod.mk.injEq, Except.ok.injEq] at hadd
    exact hadd.2.symm

end C01

section examples

/-- A concrete history with two vectors and three evaluations; the middle call raises. -/
def exampleOps : List (HistOp (XVal ℚ)) :=
  [.addXs (.many [[.fin 1, .fin 2], [.fin 3, .fin 4]]),
   .addEvals [0, 1] [.sc (.fin 5), .sc (.fin 6)],
   .addEvals [7] [.sc (.fin 5)],
   .addEvals [0] [.sc .pinf]]

-- the hypotheses of C01 are met by a non-trivial history
example : ∃ h' out, ((History.init .scalar).run exampleOps).addXs
    (.many [[.fin 9, .fin 9], [.fin 8, .fin (8 : ℚ)]]) = (h', .ok out) := ⟨_, _, rfl⟩
example : ((History.init .scalar).run exampleOps).getX 1 = .ok [.fin 3, .fin (4 : ℚ)] := by
  decide +kernel
end examples

section C02_C04
variable {V : Type} [FloatLike V]

/-- C02. After any sequence of calls `get_fvecs(i)` returns exactly the evaluations that were
submitted for `i`, in submission order. (Before the first evaluation the call raises.) -/
theorem C02_evaluations_read_back {ft : Functype} {d w : Nat} (hd : 0 < d) (hw : 0 < w)
    {h : History V} {xs : List (List V)} {evs : List (Nat × List V)}
    (ht : Trace ft d w h xs evs) (hne : evs ≠ []) (i : Nat) (hi : i < xs.length) :
    h.getFvec i = .ok ((evs.filter fun p => p.1 = i).map Prod.snd) :=
  rep_getFvec (trace_rep hd hw ht) hne i hi

/-- C02 for several points at once: one entry per distinct requested index. -/
theorem C02_evaluations_read_back_many {ft : Functype} {d w : Nat} (hd : 0 < d) (hw : 0 < w)
    {h : History V} {xs : List (List V)} {evs : List (Nat × List V)}
    (ht : Trace ft d w h xs evs) (hne : evs ≠ []) (is : List Nat) (hnd : is.Nodup)
    (his : ∀ i ∈ is, i < xs.length) :
    h.getFvecs (is.map Int.ofNat)
      = .ok (is.map fun i => (i, (evs.filter fun p => p.1 = i).map Prod.snd)) := by
  rw [rep_getFvecs (trace_rep hd hw ht) hne is his, dictFromKeys_nodup]
  · rfl
  · simpa [List.map_map, Function.comp_def] using hnd

/-- C02 for scalar criteria whose values arrive as arrays: arrays of length one are stored like numbers, and as many
arrays of another length as there are indices are rejected, without a change of the history. -/
theorem C02_scalars_in_arrays (h : History V) (hft : h.functype = .scalar) (is : List Int) :
    (∀ vs : List V, h.addEvals is (vs.map fun v => .vec [v]) = h.addEvals is (vs.map .sc)) ∧
    ∀ (rows : List (List V)) (w : Nat), 2 ≤ w → (∀ r ∈ rows, r.length = w) → is.length = rows.length → is ≠ [] →
      h.addEvals is (rows.map .vec) = (h, .error .valueError) := by
  have hvec : ∀ rows : List (List V), allVectors (rows.map EvalOut.vec) = some rows := by
    intro rows
    induction rows with
    | nil => rfl
    | cons r rows ih => simp [allVectors, ih]
  constructor
  · intro vs
    have hmat : evalsToMat h.functype (vs.map fun v => EvalOut.vec [v]) = evalsToMat h.functype (vs.map EvalOut.sc) := by
      rw [hft]
      cases vs with
      | nil => rfl
      | cons v vs =>
        have h1 : allVectors ((v :: vs).map fun v => EvalOut.vec [v]) = some ((v :: vs).map fun v => [v]) := by
          have := hvec ((v :: vs).map fun v => [v])
          rwa [List.map_map] at this
        have h2 : allScalars ((v :: vs).map fun v => EvalOut.vec [v]) = none := by simp [allScalars]
        have h3 : ((v :: vs).map fun v => [v]).flatten = v :: vs := by
          generalize v :: vs = l
          induction l with
          | nil => rfl
          | cons a l ih => simpa using ih
        unfold evalsToMat
        rw [h1, h2, allScalars_map]
        simp only [List.map_cons] at h3 ⊢
        rw [if_neg (by simp), if_pos (by simp), h3]
        rfl
    unfold History.addEvals
    rw [hmat]
  · intro rows w hw hrows hlen hne
    have hmat : ∃ m, evalsToMat h.functype (rows.map EvalOut.vec) = .ok m ∧ m.rows.length = w * rows.length := by
      cases rows with
      | nil => simp at hlen; exact absurd hlen hne
      | cons r rows =>
        have hr : r.length = w := hrows r (by simp)
        have hflat : ∀ l : List (List V), (∀ r ∈ l, r.length = w) → l.flatten.length = w * l.length := by
          intro l hl
          induction l with
          | nil => simp
          | cons a l ih =>
            rw [List.flatten_cons, List.length_append, ih (fun r hr => hl r (by simp [hr])), hl a (by simp),
              List.length_cons]
            ring
        refine ⟨⟨1, (r :: rows).flatten.map fun v => [v]⟩, ?_, by simp only [List.length_map]; exact hflat _ hrows⟩
        rw [hft]
        unfold evalsToMat
        rw [hvec, show allScalars ((r :: rows).map EvalOut.vec) = none by simp [allScalars]]
        simp only
        rw [if_neg (by omega), if_pos]
        rw [List.all_eq_true]
        intro r' hr'
        simpa using (hrows r' (by simp [hr'])).trans hr.symm
    obtain ⟨m, hm, hl⟩ := hmat
    unfold History.addEvals
    rw [hm]
    have hpos : 0 < is.length := List.length_pos_iff.2 hne
    have hneq : is.length ≠ m.rows.length := by
      rw [hl, hlen]
      nlinarith
    split
    · rfl
    · rw [if_neg hpos.ne']
      simp only
      rw [if_pos hneq]

/-- The criterion value of one evaluation: the specification of the aggregation. -/
def criterionValue : Functype → List V → V
  | .scalar, [v] => v
  | .scalar, _ => 0
  | .likelihood, r => r.foldr (· + ·) 0
  | .leastSquares, r => r.foldr (fun v s => v * v + s) 0

/-- C03, names: a history can be created for exactly three names of function types. For "scalar" the value of an
evaluation is the number that was returned, for "likelihood" the sum and for "least_squares" the sum of squares of the
numbers. -/
theorem C03_names (name : String) :
    (name = "scalar" → ∃ ft, Functype.parse name = .ok ft ∧ ∀ a : V, ft.aggregateRow [a] = a) ∧
    (name = "likelihood" → ∃ ft, Functype.parse name = .ok ft ∧ ∀ r : List V, ft.aggregateRow r = r.sum) ∧
    (name = "least_squares" → ∃ ft, Functype.parse name = .ok ft ∧
      ∀ r : List V, ft.aggregateRow r = (r.map fun v => v * v).sum) ∧
    (name ≠ "scalar" → name ≠ "likelihood" → name ≠ "least_squares" → Functype.parse name = .error .valueError) := by
  refine ⟨?_, ?_, ?_, ?_⟩
  · rintro rfl
    exact ⟨.scalar, rfl, fun _ => rfl⟩
  · rintro rfl
    exact ⟨.likelihood, rfl, fun _ => rfl⟩
  · rintro rfl
    exact ⟨.leastSquares, rfl, fun _ => rfl⟩
  · intro h1 h2 h3
    rw [Functype.parse, if_neg h1, if_neg h2, if_neg h3]

/-- C03. The scalar values are entry by entry the aggregates of the stored vectors. -/
theorem C03_fvals_agree_with_fvecs {ft : Functype} {d w : Nat} (hd : 0 < d) (hw : 0 < w)
    (hscalar : ft = .scalar → w = 1)
    {h : History V} {xs : List (List V)} {evs : List (Nat × List V)}
    (ht : Trace ft d w h xs evs) (hne : evs ≠ []) (i : Nat) (hi : i < xs.length) :
    ∃ fvecs, h.getFvec i = .ok fvecs ∧ h.getFval i = .ok (fvecs.map (criterionValue ft)) := by
  have hr := trace_rep hd hw ht
  refine ⟨_, rep_getFvec hr hne i hi, ?_⟩
  rw [rep_getFval hr hne i hi]
  congr 1
  apply List.map_congr_left
  intro r hrow
  obtain ⟨p, hp, rfl⟩ := List.mem_map.1 hrow
  have hlen := hr.fdim p (List.mem_filter.1 hp).1
  cases ft with
  | scalar =>
    rw [hscalar rfl] at hlen
    obtain ⟨v, hv⟩ := List.length_eq_one_iff.1 hlen
    rw [hv]; rfl
  | likelihood =>
    simp only [Functype.aggregateRow, criterionValue, List.sum]
  | leastSquares =>
    simp only [Functype.aggregateRow, criterionValue, List.sum]
    induction p.2 with
    | nil => rfl
    | cons v vs ih => simp [ih]

theorem sum_counts (evs : List (Nat × List V)) (n : Nat) (h : ∀ p ∈ evs, p.1 < n) :
    ((List.range n).map fun i => (submittedFor evs i).length).sum = evs.length := by
  induction evs with
  | nil => simp [submittedFor]
  | cons e evs ih =>
    have ih := ih (fun p hp => h p (List.mem_cons_of_mem _ hp))
    have he : e.1 < n := h e List.mem_cons_self
    have key : ∀ i, (submittedFor (e :: evs) i).length
        = (if e.1 = i then 1 else 0) + (submittedFor evs i).length := by
      intro i
      unfold submittedFor
      rw [List.filter_cons]
      by_cases hi : e.1 = i <;> simp [hi]; omega
    simp only [key, List.length_cons, ← ih]
    have : ∀ (l : List Nat) (f g : Nat → Nat), (l.map fun i => f i + g i).sum
        = (l.map f).sum + (l.map g).sum := by
      intro l f g
      induction l with
      | nil => rfl
      | cons a l ih => simp only [List.map_cons, List.sum_cons, ih]; omega
    rw [this]
    have h1 : ((List.range n).map fun i => if e.1 = i then 1 else 0).sum = 1 := by
      clear * - he
      induction n with
      | zero => omega
      | succ n ih =>
        rw [List.range_succ, List.map_append, List.sum_append]
        by_cases hen : e.1 = n
        · have : ((List.range n).map fun i => if e.1 = i then 1 else 0)
              = List.replicate n 0 := by
            apply List.ext_getElem (by simp)
            intro k h1 h2
            simp at h1
            simp [hen]; omega
          rw [this]; simp [hen]
        · rw [ih (by omega)]; simp [hen]
    omega

/-- C04. The counters are exact: `get_n_xs` is the number of vectors added, `get_n_fun` the number
of evaluations, `get_n_evals` counts the evaluations of each point, and these counts add up to
`get_n_fun`. -/
theorem C04_counters_exact {ft : Functype} {d w : Nat} (hd : 0 < d) (hw : 0 < w)
    {h : History V} {xs : List (List V)} {evs : List (Nat × List V)}
    (ht : Trace ft d w h xs evs) :
    h.getNXs = xs.length ∧ h.getNFun = evs.length ∧
    (evs ≠ [] → ∃ counts, h.getNEvals ((List.range xs.length).map Int.ofNat) = .ok counts ∧
      counts = (List.range xs.length).map (fun i => (i, (evs.filter fun p => p.1 = i).length)) ∧
      (counts.map Prod.snd).sum = h.getNFun) := by
  have hr := trace_rep hd hw ht
  refine ⟨hr.nxs, hr.nfun, fun hne => ?_⟩
  refine ⟨_, ?_, rfl, ?_⟩
  · unfold History.getNEvals
    rw [rep_getFvals hr hne _ (by simp), dictFromKeys_nodup]
    · simp [bind, Except.bind, pure, Except.pure, submittedFor]
    · simp only [List.map_map]
      rw [show (Prod.fst ∘ fun i => (i, (submittedFor evs i).map ft.aggregateRow)) = id from rfl]
      simpa using List.nodup_range
  · rw [History.getNFun, hr.nfun, ← sum_counts evs xs.length hr.idx]
    simp [List.map_map, Function.comp_def, submittedFor]

end C02_C04

section examples
open XVal

/-- Non-vacuity: a least squares history that grows, with a failed call and a failed evaluation. -/
example : ∃ h : History (XVal ℚ), Trace .leastSquares 1 2 h
    ([] ++ [[fin 1], [fin 2]])
    (([] ++ [0, 1].zip [[fin 1, fin 2], [fin 3, fin 4]]) ++ [(1, List.replicate 2 pinf)]) :=
  ⟨_, Trace.addFailedEval 1 pinf
    (Trace.addEvalsRaises [5] [.vec [fin 1, fin 1]] (e := .valueError)
      (Trace.addEvals (es := [.vec [fin 1, fin 2], .vec [fin 3, fin 4]]) [0, 1]
        (Trace.addXs [[fin 1], [fin 2]] Trace.new (by simp) rfl)
        (Submission.vectors [[fin 1, fin 2], [fin 3, fin 4]] (by decide) (by simp)) rfl) rfl)
    (by decide) (by simp) rfl rfl⟩
end examples

section C05
open XVal

/-- A vector of numbers as a row of floats. -/
def finRow {K : Type} {n : Nat} (x : Fin n → K) : List (XVal K) := List.ofFn fun j => fin (x j)

theorem sum_fin_list (l : List ℝ) : (l.map fun a => (fin a : XVal ℝ)).sum = fin l.sum := by
  induction l with
  | nil => rfl
  | cons a l ih => simp only [List.map_cons, List.sum_cons, ih, fin_add_fin]

theorem inBall_finRow {n : Nat} (c x : Fin n → ℝ) (r : ℝ) :
    inBall (List.ofFn c) r (finRow x) = true ↔
      Real.sqrt (∑ j, (x j - c j) ^ 2) ≤ r := by
  unfold inBall finRow
  have : (List.zip (List.ofFn fun j => (fin (x j) : XVal ℝ)) (List.ofFn c)).map
      (fun p => (p.1 - .fin p.2) * (p.1 - .fin p.2))
      = (List.ofFn fun j => (x j - c j) ^ 2).map fun a => (fin a : XVal ℝ) := by
    apply List.ext_getElem
    · simp
    · intro k h1 h2
      simp [pow_two]
  rw [this, sum_fin_list, List.sum_ofFn]
  simp only [Bool.and_eq_true, decide_eq_true_eq, fin_le_fin]
  constructor
  · rintro ⟨h1, h2⟩
    exact Real.sqrt_le_iff.2 ⟨h1, by rw [pow_two]; exact h2⟩
  · intro h
    have := Real.sqrt_le_iff.1 h
    exact ⟨this.1, by rw [← pow_two]; exact this.2⟩

/-- C05. The region query returns, in strictly ascending order, exactly the indices of the stored
vectors with euclidean distance at most `r` from `c`; before the first evaluation it returns
nothing. -/
theorem C05_region_query_exact {ft : Functype} {n w : Nat} (hn : 0 < n) (hw : 0 < w)
    {h : History (XVal ℝ)} (points : List (Fin n → ℝ)) {evs : List (Nat × List (XVal ℝ))}
    (ht : Trace ft n w h (points.map finRow) evs) (c : Fin n → ℝ) (r : ℝ) :
    ∃ is, h.getXIndicesInRegion (inBall (List.ofFn c) r) = .ok is ∧
      is.Pairwise (· < ·) ∧
      (evs = [] → is = []) ∧
      (evs ≠ [] → ∀ i, i ∈ is ↔ ∃ x, points[i]? = some x ∧
        Real.sqrt (∑ j, (x j - c j) ^ 2) ≤ r) := by
  have hr := trace_rep hn hw ht
  by_cases hne : evs = []
  · refine ⟨[], ?_, List.Pairwise.nil, fun _ => rfl, fun h => absurd hne h⟩
    unfold History.getXIndicesInRegion
    rw [if_pos (by rw [History.getNFun, hr.nfun, hne]; rfl)]
  · have hpts : points.map finRow ≠ [] := by
      intro h0
      obtain ⟨e, he⟩ := List.exists_mem_of_ne_nil _ hne
      have := hr.idx e he
      rw [h0] at this; simp at this
    obtain ⟨m, hm, htake⟩ := rep_xs_some hr hpts
    let mask := (points.map finRow).map (inBall (List.ofFn c) r)
    refine ⟨((List.range mask.length).zip mask).filterMap
      (fun p => if p.2 then some p.1 else none), ?_, ?_, fun h => absurd h hne, fun _ i => ?_⟩
    · unfold History.getXIndicesInRegion
      rw [if_neg (by rw [History.getNFun, hr.nfun]; simpa using hne)]
      unfold History.getAllXs
      rw [hm]; simp only; rw [htake]
    · have hsub : List.Sublist (((List.range mask.length).zip mask).filterMap
          (fun p => if p.2 then some p.1 else none)) (List.range mask.length) := by
        have : ∀ (l : List Nat) (b : List Bool), List.Sublist
            ((l.zip b).filterMap (fun p => if p.2 then some p.1 else none)) l := by
          intro l
          induction l with
          | nil => intro b; simp
          | cons a l ih =>
            intro b
            cases b with
            | nil => simp
            | cons t b =>
              rw [List.zip_cons_cons]
              cases t
              · simpa using (ih b).cons a
              · simpa using (ih b).cons_cons a
        exact this _ _
      exact List.pairwise_lt_range.sublist hsub
    · simp only [List.mem_filterMap]
      constructor
      · rintro ⟨⟨k, b⟩, hmem, hk⟩
        cases b
        · simp at hk
        · simp at hk
          subst hk
          obtain ⟨q, hq, hqe⟩ := List.getElem_of_mem hmem
          simp at hqe hq
          obtain ⟨h1, h2⟩ := hqe
          subst h1
          have hq' : q < points.length := by simpa [mask] using hq
          refine ⟨points[q], List.getElem?_eq_getElem hq', ?_⟩
          rw [← inBall_finRow]
          simpa [mask] using h2
      · rintro ⟨x, hx, hd⟩
        obtain ⟨hi, rfl⟩ := List.getElem?_eq_some_iff.1 hx
        refine ⟨(i, true), ?_, rfl⟩
        rw [← inBall_finRow] at hd
        rw [List.mem_iff_getElem]
        refine ⟨i, by simpa [mask] using hi, ?_⟩
        simpa [mask] using hd

end C05

section C06
variable {V : Type} [FloatLike V]

/-- C06, proved for calls whose indices are not negative (partial: see
`C06_violated_by_negative_index` for the other calls). If `add_evals` raises, the object
is unchanged, so every later read and every later operation behaves as if the call had not been
made. -/
theorem C06_failed_add_evals_atomic_partial {ft : Functype} {d w : Nat} (hd : 0 < d) (hw : 0 < w)
    {h h' : History V} {xs : List (List V)} {evs : List (Nat × List V)}
    (ht : Trace ft d w h xs evs) (is : List Nat) (es : List (EvalOut V)) (e : Err)
    (hraise : h.addEvals (is.map Int.ofNat) es = (h', .error e)) : h' = h :=
  addEvals_error_eq (trace_rep hd hw ht) is hraise

/-- C06, `add_xs`: if it raises, the object is unchanged. -/
theorem C06_failed_add_xs_atomic (h h' : History V) (arg : XsArg V) (e : Err)
    (hraise : h.addXs arg = (h', .error e)) : h' = h :=
  addXs_error_eq hraise

/-- A history with two one-dimensional points and one evaluation of the first point. -/
def c06History : History (XVal ℚ) :=
  (History.init .scalar).run
    [.addXs (.many [[.fin 0], [.fin 1]]), .addEvals [0] [.sc (.fin 10)]]

/-- The same history after a call of `add_evals` with a negative index, which raises `KeyError`. -/
def c06Broken : History (XVal ℚ) := (c06History.addEvals [0, -1] [.sc (.fin 20), .sc (.fin 30)]).1

-- the call with index -1 raises KeyError
example : (c06History.addEvals [0, -1] [.sc (.fin 20), .sc (.fin 30)]).2 = .error .keyError := by
  decide +kernel

-- the hypothesis of the partial theorem is met: an unknown index raises
example : (c06History.addEvals ([0, 7].map Int.ofNat) [.sc (.fin 20), .sc (.fin 30)]).2
    = .error .valueError := by decide +kernel

/-- C06 is false of the code: after an `add_evals` call that raised (index -1), a later evaluation
of point 1 is also reported for point 0. -/
theorem C06_violated_by_negative_index :
    ((c06History.addEvals [1] [.sc (.fin 40)]).1.getFval 0 = .ok [.fin 10]) ∧
    ((c06Broken.addEvals [1] [.sc (.fin 40)]).1.getFval 0 = .ok [.fin 10, .fin 40]) := by
  constructor <;> decide +kernel

end C06

section C07
variable {V : Type} [FloatLike V]

/-- C07 (averages), for index lists without repetition: row `k` belongs to the `k`-th index
in both arrays. Partial: with repeated indices the rows do not line up, see
`C07_violated_by_repeated_index`. -/
theorem C07_model_data_averaged_partial {ft : Functype} {d w : Nat} (hd : 0 < d) (hw : 0 < w)
    {h : History V} {xs : List (List V)} {evs : List (Nat × List V)}
    (ht : Trace ft d w h xs evs) (hne : evs ≠ []) (is : List Nat) (hnd : is.Nodup)
    (his : ∀ i ∈ is, i < xs.length) :
    ∃ rx rf, h.getModelDataAveraged (is.map Int.ofNat) = .ok (rx, rf) ∧
      rx.length = is.length ∧ rf.length = is.length ∧
      ∀ k (hk : k < is.length), rx[k]? = xs[is[k]]? ∧
        rf[k]? = some ((List.range w).map fun j =>
          if submittedFor evs is[k] = [] then FloatLike.nan
          else FloatLike.divNat (((submittedFor evs is[k]).map fun r => r.getD j 0).sum)
            (submittedFor evs is[k]).length) := by
  have hr := trace_rep hd hw ht
  have hxne : xs ≠ [] := by
    intro h0
    obtain ⟨e, he⟩ := List.exists_mem_of_ne_nil _ hne
    have := hr.idx e he
    rw [h0] at this; simp at this
  obtain ⟨m, hm, hmw, -⟩ := rep_fvecs_some hr hne
  have hrx : (is.filterMap fun i => xs[i]?) = is.pmap (fun i hi => xs[i]'hi) his := by
    clear hnd
    induction is with
    | nil => rfl
    | cons i is ih =>
      rw [List.filterMap_cons_some (b := xs[i]'(his i List.mem_cons_self)),
        ih (fun j hj => his j (List.mem_cons_of_mem _ hj))]
      · rfl
      · exact List.getElem?_eq_getElem _
  refine ⟨is.pmap (fun i hi => xs[i]'hi) his, is.map fun i => History.columnMean w (submittedFor evs i),
    ?_, by simp, by simp, ?_⟩
  · unfold History.getModelDataAveraged
    rw [rep_getXs hr is hxne his, rep_getFvecs hr hne is his, dictFromKeys_nodup, hrx]
    · simp [bind, Except.bind, pure, Except.pure, hm, hmw]
    · simpa [List.map_map, Function.comp_def] using hnd
  · intro k hk
    constructor
    · rw [List.getElem?_eq_getElem (by simpa using hk), List.getElem_pmap,
        List.getElem?_eq_getElem]
    · rw [List.getElem?_eq_getElem (by simpa using hk), List.getElem_map]
      simp [History.columnMean]

/-- The mean of finite evaluations is the arithmetic mean: the entry in
`C07_model_data_averaged_partial` has the expected value. -/
theorem C07_mean_of_finite_values {K : Type} [Field K] [LinearOrder K] [IsStrictOrderedRing K]
    (vals : List K) (hne : vals ≠ []) :
    (FloatLike.divNat (vals.map fun a => (XVal.fin a : XVal K)).sum vals.length : XVal K)
      = .fin (vals.sum / vals.length) := by
  have : (vals.map fun a => (XVal.fin a : XVal K)).sum = .fin vals.sum := by
    clear hne
    induction vals with
    | nil => rfl
    | cons a l ih => simp only [List.map_cons, List.sum_cons, ih, XVal.fin_add_fin]
  rw [this]
  simp [FloatLike.divNat, hne]

/-- C07 (all evaluations), for index lists without repetition: each vector is repeated once for each
of its evaluations, in the same order. -/
theorem C07_model_data_full_partial {ft : Functype} {d w : Nat} (hd : 0 < d) (hw : 0 < w)
    {h : History V} {xs : List (List V)} {evs : List (Nat × List V)}
    (ht : Trace ft d w h xs evs) (hne : evs ≠ []) (is : List Nat) (hnd : is.Nodup) (hne' : is ≠ [])
    (his : ∀ i ∈ is, i < xs.length) :
    ∃ rx rf, h.getModelDataFull (is.map Int.ofNat) = .ok (rx, rf) ∧
      rx.zip rf = is.flatMap (fun i => (submittedFor evs i).map fun f => (xs.getD i [], f)) ∧
      rx.length = rf.length := by
  have hr := trace_rep hd hw ht
  have hxne : xs ≠ [] := by
    intro h0
    obtain ⟨e, he⟩ := List.exists_mem_of_ne_nil _ hne
    have := hr.idx e he
    rw [h0] at this; simp at this
  have hrx : (is.filterMap fun i => xs[i]?) = is.map fun i => xs.getD i [] := by
    clear hnd hne'
    induction is with
    | nil => rfl
    | cons i is ih =>
      have hi := his i List.mem_cons_self
      rw [List.filterMap_cons_some (b := xs.getD i []),
        ih (fun j hj => his j (List.mem_cons_of_mem _ hj))]
      · rfl
      · simp [List.getD, List.getElem?_eq_getElem hi]
  refine ⟨is.flatMap fun i => List.replicate (submittedFor evs i).length (xs.getD i []),
    is.flatMap fun i => submittedFor evs i, ?_, ?_, ?_⟩
  · unfold History.getModelDataFull
    rw [rep_getXs hr is hxne his, rep_getFvecs hr hne is his, dictFromKeys_nodup, hrx]
    · have hemp : (is.map fun i => (i, submittedFor evs i)).isEmpty = false := by
        cases is <;> simp at hne' ⊢
      simp only [bind, Except.bind, hemp, pure, Except.pure]
      simp only [History.npRepeat, List.length_map, if_true, List.map_map]
      have : ∀ l : List Nat, List.flatMap (fun p => List.replicate p.2 p.1)
          ((l.map fun i => xs.getD i []).zip
            (l.map ((fun p => p.2.length) ∘ fun i => (i, submittedFor evs i))))
          = l.flatMap fun i => List.replicate (submittedFor evs i).length (xs.getD i []) := by
        intro l
        induction l with
        | nil => rfl
        | cons a l ih => simp only [List.map_cons, List.zip_cons_cons, List.flatMap_cons, ih]; rfl
      have := this is
      simp only [List.getD_eq_getElem?_getD] at this
      simp [this, List.flatMap_map]
    · simpa [List.map_map, Function.comp_def] using hnd
  · clear hrx his hnd hne'
    induction is with
    | nil => rfl
    | cons i is ih =>
      simp only [List.flatMap_cons]
      rw [List.zip_append (by simp), ih]
      congr 1
      generalize submittedFor evs i = l
      induction l with
      | nil => rfl
      | cons a l ih2 => rw [List.length_cons, List.replicate_succ, List.zip_cons_cons, ih2]; rfl
  · simp [List.length_flatMap]

/-- The keys of a dict are different. -/
theorem dictFromKeys_keys_nodup {α : Type} (l : List (Nat × α)) : ((dictFromKeys l).map Prod.fst).Nodup := by
  induction l with
  | nil => simp [dictFromKeys]
  | cons a l ih =>
    rw [dictFromKeys, List.map_cons, List.nodup_cons]
    refine ⟨?_, (List.Sublist.map _ List.filter_sublist).nodup ih⟩
    intro h
    obtain ⟨p, hp, h1⟩ := List.mem_map.1 h
    simpa [h1] using (List.mem_filter.1 hp).2

theorem dictFromKeys_length_le {α : Type} (l : List (Nat × α)) : (dictFromKeys l).length ≤ l.length := by
  induction l with
  | nil => simp [dictFromKeys]
  | cons a l ih =>
    rw [dictFromKeys, List.length_cons, List.length_cons]
    exact Nat.succ_le_succ ((List.length_filter_le _ _).trans ih)

/-- A repeated key is stored once. -/
theorem dictFromKeys_length_lt {α : Type} (l : List (Nat × α)) (h : ¬(l.map Prod.fst).Nodup) :
    (dictFromKeys l).length < l.length := by
  refine lt_of_le_of_ne (dictFromKeys_length_le l) fun heq => h ?_
  have hsub : ∀ l : List (Nat × α), (dictFromKeys l).Sublist l := by
    intro l
    induction l with
    | nil => simp [dictFromKeys]
    | cons a l ih => exact (List.filter_sublist.trans ih).cons_cons a
  rw [← (hsub l).eq_of_length heq]
  exact dictFromKeys_keys_nodup l

/-- C07, the other case: if an index is repeated, the averaged data have fewer rows of values than vectors. Without
averaging the call raises `ValueError`, except if all indices are the same: then the vectors are repeated more often than
there are evaluations. Together with the two theorems above: the rows line up exactly if no index is
repeated (or a single point has no evaluations). -/
theorem C07_violated_whenever_repeated {ft : Functype} {d w : Nat} (hd : 0 < d) (hw : 0 < w)
    {h : History V} {xs : List (List V)} {evs : List (Nat × List V)}
    (ht : Trace ft d w h xs evs) (hne : evs ≠ []) (is : List Nat) (hdup : ¬is.Nodup)
    (his : ∀ i ∈ is, i < xs.length) :
    (∃ rx rf, h.getModelDataAveraged (is.map Int.ofNat) = .ok (rx, rf) ∧ rx.length = is.length ∧
      rf.length < is.length) ∧
    (h.getModelDataFull (is.map Int.ofNat) = .error .valueError ∨
      ∃ i rx rf, (∀ j ∈ is, j = i) ∧ h.getModelDataFull (is.map Int.ofNat) = .ok (rx, rf) ∧
        rf = submittedFor evs i ∧ rx.length = is.length * rf.length) := by
  have hr := trace_rep hd hw ht
  have hxne : xs ≠ [] := by
    intro h0
    obtain ⟨e, he⟩ := List.exists_mem_of_ne_nil _ hne
    have := hr.idx e he
    rw [h0] at this; simp at this
  have hrx : (is.filterMap fun i => xs[i]?) = is.map fun i => xs.getD i [] := by
    clear hdup
    induction is with
    | nil => rfl
    | cons i is ih =>
      have hi := his i List.mem_cons_self
      rw [List.filterMap_cons_some (b := xs.getD i []),
        ih (fun j hj => his j (List.mem_cons_of_mem _ hj))]
      · rfl
      · simp [List.getD, List.getElem?_eq_getElem hi]
  have hlt := dictFromKeys_length_lt (is.map fun i => (i, submittedFor evs i))
    (by simpa [List.map_map, Function.comp_def] using hdup)
  have hmem : ∀ j ∈ is, ∃ p ∈ dictFromKeys (is.map fun i => (i, submittedFor evs i)), p.1 = j := by
    have : ∀ l : List (Nat × List (List V)), ∀ q ∈ l, ∃ p ∈ dictFromKeys l, p.1 = q.1 := by
      intro l
      induction l with
      | nil => simp
      | cons a l ih =>
        intro q hq
        rw [dictFromKeys]
        by_cases hqa : q.1 = a.1
        · exact ⟨_, List.mem_cons_self, hqa.symm⟩
        · rcases List.mem_cons.1 hq with rfl | hq
          · exact absurd rfl hqa
          · obtain ⟨p, hp, h1⟩ := ih q hq
            exact ⟨p, List.mem_cons_of_mem _ (List.mem_filter.2 ⟨hp, by simpa [h1] using hqa⟩), h1⟩
    exact fun j hj => this _ _ (List.mem_map_of_mem hj)
  have hval : ∀ p ∈ dictFromKeys (is.map fun i => (i, submittedFor evs i)), p.2 = submittedFor evs p.1 := by
    have : ∀ l : List (Nat × List (List V)), ∀ p ∈ dictFromKeys l, p ∈ l := by
      intro l
      induction l with
      | nil => simp [dictFromKeys]
      | cons a l ih =>
        intro p hp
        rw [dictFromKeys] at hp
        rcases List.mem_cons.1 hp with rfl | hp
        · exact List.mem_cons_self
        · exact List.mem_cons_of_mem _ (ih p (List.mem_filter.1 hp).1)
    intro p hp
    obtain ⟨i, -, rfl⟩ := List.mem_map.1 (this _ p hp)
    rfl
  constructor
  · refine ⟨is.map fun i => xs.getD i [], (dictFromKeys (is.map fun i => (i, submittedFor evs i))).map fun p =>
        History.columnMean ((h.fvecs.map Buf.width).getD 0) p.2, ?_, ?_, ?_⟩
    · unfold History.getModelDataAveraged
      rw [rep_getXs hr is hxne his, rep_getFvecs hr hne is his, hrx]
      rfl
    · simp
    · simpa using hlt
  · generalize hd : dictFromKeys (is.map fun i => (i, submittedFor evs i)) = dict at hlt hmem hval
    have hfull : h.getModelDataFull (is.map Int.ofNat) =
        (if dict.isEmpty then .error .valueError else
          (History.npRepeat (is.map fun i => xs.getD i []) (dict.map fun p => p.2.length)).map
            fun xs => (xs, dict.flatMap fun p => p.2)) := by
      unfold History.getModelDataFull
      rw [rep_getXs hr is hxne his, rep_getFvecs hr hne is his, hrx, hd]
      cases dict <;> rfl
    rw [hfull]
    match dict, hlt, hmem, hval with
    | [], _, _, _ => exact Or.inl rfl
    | [p], hlt, hmem, hval =>
      have hall : ∀ j ∈ is, j = p.1 := fun j hj => by
        obtain ⟨q, hq, rfl⟩ := hmem j hj
        rw [List.mem_singleton.1 hq]
      refine Or.inr ⟨p.1, is.flatMap fun i => List.replicate p.2.length (xs.getD i []), p.2, hall, ?_,
        hval p List.mem_cons_self, ?_⟩
      · have : ¬(is.map fun i => xs.getD i []).length = ([p].map fun p => p.2.length).length := by
          simp only [List.length_map, List.length_cons, List.length_nil] at hlt ⊢
          omega
        simp only [List.isEmpty_cons, Bool.false_eq_true, if_false, History.npRepeat, if_neg this]
        simp [Except.map, List.flatMap_map]
      · simp [List.length_flatMap]
    | p :: q :: rest, hlt, _, _ =>
      refine Or.inl ?_
      have : ¬(is.map fun i => xs.getD i []).length = ((p :: q :: rest).map fun p => p.2.length).length := by
        simp only [List.length_map, List.length_cons] at hlt ⊢
        omega
      simp only [List.isEmpty_cons, Bool.false_eq_true, if_false, History.npRepeat, if_neg this]
      rfl

/-- C07 is false of the code for repeated indices: two vectors but only one row of values. -/
theorem C07_violated_by_repeated_index :
    c06History.getModelDataAveraged [0, 0] = .ok ([[.fin 0], [.fin 0]], [[.fin 10]]) ∧
    c06History.getModelDataFull [0, 0] = .ok ([[.fin 0], [.fin 0]], [[.fin 10]]) ∧
    c06History.getModelDataFull [0, 1, 0] = .error .valueError := by
  refine ⟨?_, ?_, ?_⟩ <;> decide +kernel

end C07

end Tranquilo
