import Verif.Model.WrapCriterion
import Verif.Lemmas.HistoryReads
import Mathlib.Data.List.Perm.Basic

/-!
# Properties C08 - C10: evaluating the criterion
-/

namespace Tranquilo

variable {K : Type} [Field K] [LinearOrder K] [IsStrictOrderedRing K]

/-- What has to be recorded for one result of a scalar criterion: an exception and NaN count as
`+inf`, everything else is kept. -/
def recordedScalar : RawEval K → XVal K
  | .exc => .pinf
  | .sc .nan => .pinf
  | .sc v => v
  | .vec _ => .nan

/-- What has to be recorded for a vector result. -/
def recordedVector : RawEval K → List (XVal K)
  | .vec vs => vs.map fun v => if v = .nan then .pinf else v
  | _ => []

/-- The points at which the request asks for evaluations, with multiplicity. -/
def requestedPoints (request : List (Nat × Nat)) : List Nat :=
  request.flatMap fun p => List.replicate p.2 p.1

theorem npRepeat_request {β : Type} (g : Nat → β) (request : List (Nat × Nat)) :
    History.npRepeat (request.map fun p => g p.1) (request.map Prod.snd)
      = .ok ((requestedPoints request).map g) := by
  unfold History.npRepeat
  rw [if_pos (by simp)]
  congr 1
  unfold requestedPoints
  induction request with
  | nil => rfl
  | cons p l ih =>
    simp only [List.map_cons, List.zip_cons_cons, List.flatMap_cons, ih, List.map_append,
      List.map_replicate]

theorem length_requestedPoints (request : List (Nat × Nat)) :
    (requestedPoints request).length = (request.map Prod.snd).sum := by
  unfold requestedPoints
  induction request with
  | nil => rfl
  | cons p l ih => simp [List.flatMap_cons, ih]

theorem mem_requestedPoints {request : List (Nat × Nat)} {n : Nat}
    (h : ∀ p ∈ request, p.1 < n) : ∀ i ∈ requestedPoints request, i < n := by
  intro i hi
  unfold requestedPoints at hi
  obtain ⟨p, hp, hi⟩ := List.mem_flatMap.1 hi
  rw [List.eq_of_mem_replicate hi]
  exact h p hp

/-- The wrapped criterion calls the batch evaluator with the requested points and forwards the
results to `add_evals`. -/
theorem wrapper_eq {ft : Functype} {d w : Nat} {h : History (XVal K)}
    {xs : List (List (XVal K))} {evs} (hr : Rep ft d w h xs evs)
    (request : List (Nat × Nat)) (hne : request ≠ []) (hreq : ∀ p ∈ request, p.1 < xs.length)
    (batch : BatchEvaluator K) (nCores : Int) :
    wrapperCriterion h batch nCores (request.map fun p => ((p.1 : Int), p.2)) =
      (let args := (requestedPoints request).map fun i => xs.getD i []
       let cores : Int := min nCores args.length
       let res := h.addEvals ((requestedPoints request).map Int.ofNat)
          ((batch args cores).map clipEval)
       (res.1, res.2, some ⟨args, cores⟩)) := by
  have hxne : xs ≠ [] := by
    rintro rfl
    obtain ⟨p, hp⟩ := List.exists_mem_of_ne_nil _ hne
    have := hreq p hp
    simp at this
  unfold wrapperCriterion
  rw [if_neg (by simpa using hne)]
  simp only [List.map_map]
  have h1 : h.getXs (request.map (Prod.fst ∘ fun p : Nat × Nat => ((p.1 : Int), p.2)))
      = .ok (request.map fun p => xs.getD p.1 []) := by
    have := rep_getXs hr (request.map Prod.fst) hxne (by
      intro i hi
      obtain ⟨p, hp, rfl⟩ := List.mem_map.1 hi
      exact hreq p hp)
    rw [List.map_map] at this
    rw [show (Prod.fst ∘ fun p : Nat × Nat => ((p.1 : Int), p.2)) = Int.ofNat ∘ Prod.fst from rfl,
      this]
    congr 1
    clear this hne
    induction request with
    | nil => rfl
    | cons p l ih =>
      have hp := hreq p List.mem_cons_self
      rw [List.map_cons, List.filterMap_cons_some (b := xs.getD p.1 []),
        ih (fun q hq => hreq q (List.mem_cons_of_mem _ hq))]
      · rfl
      · simp [List.getD, List.getElem?_eq_getElem hp]
  rw [h1]
  simp only
  rw [show (Prod.snd ∘ fun p : Nat × Nat => ((p.1 : Int), p.2)) = Prod.snd from rfl]
  rw [npRepeat_request (fun i => xs.getD i [])]
  simp only
  have h2 := npRepeat_request (fun i => Int.ofNat i) request
  rw [show (Prod.fst ∘ fun p : Nat × Nat => ((p.1 : Int), p.2)) = (fun p => Int.ofNat p.1) from rfl,
    h2]

/-- C08. For a scalar criterion: the batch evaluator is called exactly once, with
exactly the requested points, each as often as requested; nothing raises, whatever the results are;
and afterwards the history contains in addition exactly one evaluation for each of these
points. `results` are arbitrary, one per argument. -/
theorem C08_scalar_request_carried_out {d : Nat} (hd : 0 < d) {h : History (XVal K)}
    {xs : List (List (XVal K))} {evs : List (Nat × List (XVal K))}
    (ht : Trace .scalar d 1 h xs evs)
    (request : List (Nat × Nat)) (hne : request ≠ []) (hreq : ∀ p ∈ request, p.1 < xs.length)
    (batch : BatchEvaluator K) (nCores : Int)
    (results : List (RawEval K))
    (hbatch : batch ((requestedPoints request).map fun i => xs.getD i [])
      (min nCores (requestedPoints request).length) = results)
    (hlen : results.length = (requestedPoints request).length)
    (hscalar : ∀ r ∈ results, ∀ vs, r ≠ .vec vs) :
    ∃ h', wrapperCriterion h batch nCores (request.map fun p => ((p.1 : Int), p.2))
        = (h', .ok (), some ⟨(requestedPoints request).map (fun i => xs.getD i []),
            min nCores (requestedPoints request).length⟩) ∧
      Trace .scalar d 1 h' xs
        (evs ++ (requestedPoints request).zip (results.map fun r => [recordedScalar r])) := by
  have hr := trace_rep hd Nat.one_pos ht
  rw [wrapper_eq hr request hne hreq]
  simp only [List.length_map, hbatch]
  have hclip : results.map clipEval = (results.map recordedScalar).map EvalOut.sc := by
    rw [List.map_map]
    apply List.map_congr_left
    intro r hmem
    have := hscalar r hmem
    cases r with
    | exc => rfl
    | sc v => cases v <;> rfl
    | vec vs => exact absurd rfl (this vs)
  have hsub : Submission (V := XVal K) .scalar 1 (results.map clipEval)
      (results.map fun r => [recordedScalar r]) := by
    rw [hclip]
    have := Submission.scalars (ft := .scalar) (w := 1) (results.map recordedScalar) rfl rfl
    simpa [List.map_map, Function.comp_def] using this
  by_cases hnil : requestedPoints request = []
  · have hadd : h.addEvals ((requestedPoints request).map Int.ofNat) (results.map clipEval)
        = (h, .ok ()) := by rw [hnil]; simp [History.addEvals]
    refine ⟨h, by rw [hadd], ?_⟩
    exact Trace.addEvals (requestedPoints request) ht hsub hadd
  · have hrne : (results.map fun r => [recordedScalar r]) ≠ [] := by
      intro h0
      rw [List.map_eq_nil_iff] at h0
      rw [h0] at hlen
      exact hnil (List.eq_nil_of_length_eq_zero hlen.symm)
    obtain ⟨hmat, hdim⟩ := evalsToMat_submission hsub hrne Nat.one_pos
    obtain ⟨h', h1, -⟩ := addEvals_core hr (requestedPoints request) (results.map clipEval)
      (mem_requestedPoints hreq) hnil 1 _ _ hmat (by simpa using hlen.symm) (fun _ => ⟨rfl, rfl⟩)
      (mapM_broadcast_eq 1 _ hdim) rfl rfl hdim
    exact ⟨h', by rw [h1], Trace.addEvals (requestedPoints request) ht hsub h1⟩

/-- C08, C09 for vector valued criteria that do not raise: same statement; NaN entries are
recorded as `+inf`. Missing for the full claim: criteria that raise, see `C09_violated_*`. -/
theorem C08_vector_request_carried_out_partial {ft : Functype} (hft : ft ≠ .scalar) {d w : Nat}
    (hd : 0 < d) (hw : 0 < w) {h : History (XVal K)}
    {xs : List (List (XVal K))} {evs : List (Nat × List (XVal K))}
    (ht : Trace ft d w h xs evs)
    (request : List (Nat × Nat)) (hne : request ≠ []) (hreq : ∀ p ∈ request, p.1 < xs.length)
    (batch : BatchEvaluator K) (nCores : Int)
    (results : List (RawEval K))
    (hbatch : batch ((requestedPoints request).map fun i => xs.getD i [])
      (min nCores (requestedPoints request).length) = results)
    (hlen : results.length = (requestedPoints request).length)
    (hvector : ∀ r ∈ results, ∃ vs, r = .vec vs ∧ vs.length = w) :
    ∃ h', wrapperCriterion h batch nCores (request.map fun p => ((p.1 : Int), p.2))
        = (h', .ok (), some ⟨(requestedPoints request).map (fun i => xs.getD i []),
            min nCores (requestedPoints request).length⟩) ∧
      Trace ft d w h' xs
        (evs ++ (requestedPoints request).zip (results.map recordedVector)) := by
  have hr := trace_rep hd hw ht
  rw [wrapper_eq hr request hne hreq]
  simp only [List.length_map, hbatch]
  have hclip : results.map clipEval = (results.map recordedVector).map EvalOut.vec := by
    rw [List.map_map]
    apply List.map_congr_left
    intro r hmem
    obtain ⟨vs, rfl, -⟩ := hvector r hmem
    simp only [clipEval, Function.comp_apply, recordedVector, EvalOut.vec.injEq]
    apply List.map_congr_left
    intro v _
    cases v <;> simp [nanToInf]
  have hsub : Submission ft w (results.map clipEval) (results.map recordedVector) := by
    rw [hclip]
    apply Submission.vectors _ hft
    intro r hmem
    obtain ⟨q, hq, rfl⟩ := List.mem_map.1 hmem
    obtain ⟨vs, rfl, hv⟩ := hvector q hq
    simpa [recordedVector] using hv
  by_cases hnil : requestedPoints request = []
  · have hadd : h.addEvals ((requestedPoints request).map Int.ofNat) (results.map clipEval)
        = (h, .ok ()) := by rw [hnil]; simp [History.addEvals]
    refine ⟨h, by rw [hadd], ?_⟩
    exact Trace.addEvals (requestedPoints request) ht hsub hadd
  · have hrne : results.map recordedVector ≠ [] := by
      intro h0
      rw [List.map_eq_nil_iff] at h0
      rw [h0] at hlen
      exact hnil (List.eq_nil_of_length_eq_zero hlen.symm)
    obtain ⟨hmat, hdim⟩ := evalsToMat_submission hsub hrne hw
    obtain ⟨h', h1, -⟩ := addEvals_core hr (requestedPoints request) (results.map clipEval)
      (mem_requestedPoints hreq) hnil w _ _ hmat (by simpa using hlen.symm) (fun _ => ⟨rfl, rfl⟩)
      (mapM_broadcast_eq w _ hdim) rfl rfl hdim
    exact ⟨h', by rw [h1], Trace.addEvals (requestedPoints request) ht hsub h1⟩

/-- C08, counting form: the number of evaluations of point `i` grows by exactly the requested
number, and points that were not requested get none. -/
theorem C08_counts {d : Nat} (request : List (Nat × Nat)) (hkeys : (request.map Prod.fst).Nodup)
    (rows : List (List (XVal K))) (hlen : rows.length = (requestedPoints request).length)
    (evs : List (Nat × List (XVal K))) (i : Nat) :
    (submittedFor (evs ++ (requestedPoints request).zip rows) i).length
      = (submittedFor evs i).length + ((request.find? fun p => p.1 = i).map Prod.snd).getD 0 := by
  have hcount : ∀ (l : List Nat) (rows : List (List (XVal K))), rows.length = l.length →
      (submittedFor (l.zip rows) i).length = l.count i := by
    intro l
    induction l with
    | nil => intro rows _; rfl
    | cons a l ih =>
      intro rows hl
      cases rows with
      | nil => simp at hl
      | cons r rows =>
        have := ih rows (by simpa using hl)
        unfold submittedFor at this ⊢
        rw [List.zip_cons_cons, List.filter_cons, List.count_cons]
        by_cases ha : a = i <;> simp [ha] at this ⊢ <;> omega
  have happ : submittedFor (evs ++ (requestedPoints request).zip rows) i
      = submittedFor evs i ++ submittedFor ((requestedPoints request).zip rows) i := by
    simp [submittedFor]
  rw [happ, List.length_append, hcount _ _ hlen]
  congr 1
  clear hcount happ hlen
  unfold requestedPoints
  induction request with
  | nil => rfl
  | cons p l ih =>
    simp only [List.map_cons, List.nodup_cons] at hkeys
    rw [List.flatMap_cons, List.count_append, ih hkeys.2, List.find?_cons]
    by_cases hp : p.1 = i
    · subst hp
      have : (l.find? fun q => decide (q.1 = p.1)) = none := by
        rw [List.find?_eq_none]
        intro q hq
        simp only [decide_eq_true_eq]
        intro h0
        exact hkeys.1 (List.mem_map.2 ⟨q, hq, h0⟩)
      simp [this]
    · simp [hp, List.count_replicate]

/-- C09, scalar criteria: exceptions and NaN are recorded as `+inf`, other values unchanged, NaN is
never recorded. (That no exception escapes is part of `C08_scalar_request_carried_out`.) -/
theorem C09_recorded_scalar (r : RawEval K) (hr : ∀ vs, r ≠ .vec vs) :
    (r = .exc → recordedScalar r = .pinf) ∧
    (∀ v, r = .sc v → recordedScalar r = if v.isNan then .pinf else v) ∧
    recordedScalar r ≠ .nan := by
  cases r with
  | exc => simp [recordedScalar]
  | sc v => cases v <;> simp [recordedScalar, XVal.isNan]
  | vec vs => exact absurd rfl (hr vs)

/-- C09 for a vector valued criterion and a single failing evaluation after the first one
succeeded: a vector of `+inf` is recorded. -/
theorem C09_single_failure_vector_partial {ft : Functype} (hft : ft ≠ .scalar) {d w : Nat}
    (hd : 0 < d) (hw : 0 < w) {h : History (XVal K)}
    {xs : List (List (XVal K))} {evs : List (Nat × List (XVal K))}
    (ht : Trace ft d w h xs evs) (hevs : evs ≠ []) (i : Nat) (hi : i < xs.length)
    (batch : BatchEvaluator K) (nCores : Int)
    (hbatch : batch [xs.getD i []] (min nCores 1) = [.exc]) :
    ∃ h', wrapperCriterion h batch nCores [((i : Int), 1)]
        = (h', .ok (), some ⟨[xs.getD i []], min nCores 1⟩) ∧
      Trace ft d w h' xs (evs ++ [(i, List.replicate w .pinf)]) := by
  have hr := trace_rep hd hw ht
  have := wrapper_eq hr [(i, 1)] (by simp) (by simpa using hi) batch nCores
  simp only [requestedPoints, List.map_cons, List.map_nil, List.flatMap_cons, List.flatMap_nil,
    List.replicate_one, List.append_nil, List.length_cons, List.length_nil] at this
  rw [this]
  simp only [zero_add, Nat.cast_one, hbatch, List.map_cons, List.map_nil]
  have hagg : ft.aggregateRow [(.pinf : XVal K)] = ft.aggregateRow (List.replicate w .pinf) := by
    have hsum : ∀ n : Nat, (List.replicate (n + 1) (.pinf : XVal K)).sum = .pinf := by
      intro n
      induction n with
      | zero => rfl
      | succ n ih => rw [List.replicate_succ, List.sum_cons, ih]; rfl
    obtain ⟨n, rfl⟩ : ∃ n, w = n + 1 := ⟨w - 1, by omega⟩
    cases ft with
    | scalar => simp [Functype.aggregateRow, List.replicate_succ]
    | likelihood => rw [Functype.aggregateRow, Functype.aggregateRow, hsum]; rfl
    | leastSquares =>
      rw [Functype.aggregateRow, Functype.aggregateRow, List.map_replicate,
        show (.pinf * .pinf : XVal K) = .pinf from rfl, hsum]; rfl
  have hmat : evalsToMat ft [EvalOut.sc (.pinf : XVal K)] = .ok ⟨1, [[.pinf]]⟩ := by
    cases ft <;> simp_all [evalsToMat, allScalars]
  have hb : [[(.pinf : XVal K)]].mapM (broadcastRow w) = .ok [List.replicate w .pinf] := by
    by_cases hw1 : w = 1
    · subst hw1; rfl
    · have : broadcastRow w [(.pinf : XVal K)] = .ok (List.replicate w .pinf) := by
        unfold broadcastRow
        rw [if_neg (by simpa using fun h => hw1 h.symm)]
      rw [List.mapM_cons, this]; rfl
  have hbuf : h.fvecs ≠ none := by
    rcases hr.hfvecs with ⟨_, hnil⟩ | ⟨m, hm, _⟩
    · simp at hnil; exact absurd hnil hevs
    · rw [hm]; simp
  obtain ⟨h', h1, -⟩ := addEvals_core hr [i] [.sc .pinf] (by simpa using hi) (by simp) 1 [[.pinf]]
    [List.replicate w .pinf] hmat rfl (fun hn => absurd hn hbuf) hb rfl (by simpa using hagg)
    (by simp)
  have hex : h.addEvals [Int.ofNat i] [clipEval .exc] = (h', .ok ()) := h1
  refine ⟨h', by rw [hex], ?_⟩
  have hex' : h.addEvals [(i : Int)] [.sc .pinf] = (h', .ok ()) := h1
  exact Trace.addFailedEval i .pinf ht hft hevs hagg hex'

/-- What a vector valued criterion with `w` entries should leave in the history: `w` times `+inf` for an
exception, `+inf` in the place of NaN. -/
def recordedFailing (w : Nat) : RawEval K → List (XVal K)
  | .exc => List.replicate w .pinf
  | r => recordedVector r

theorem evalsToMat_with_exc {ft : Functype} (hft : ft ≠ .scalar) {w : Nat} (results : List (RawEval K))
    (hres : ∀ r ∈ results, r = .exc ∨ ∃ vs, r = .vec vs ∧ vs.length = w)
    (hexc : .exc ∈ results) (hlen : 2 ≤ results.length) :
    evalsToMat ft (results.map clipEval) = .error .valueError ∨
      ∃ m, evalsToMat ft (results.map clipEval) = .ok m ∧ m.rows.length = 1 := by
  have hv : allVectors (results.map clipEval) = none := by
    clear hres hlen
    induction results with
    | nil => cases hexc
    | cons r l ih =>
      cases r with
      | exc => rfl
      | sc v => rfl
      | vec vs =>
        rcases List.mem_cons.1 hexc with h | h
        · cases h
        · rw [List.map_cons, clipEval, allVectors, ih h]; rfl
  unfold evalsToMat
  rw [hv]
  cases hs : allScalars (results.map clipEval) with
  | none => exact .inl rfl
  | some vs =>
    cases ft with
    | scalar => exact absurd rfl hft
    | likelihood =>
      dsimp only
      split
      · exact .inl rfl
      · exact .inr ⟨_, rfl, rfl⟩
    | leastSquares =>
      dsimp only
      split
      · exact .inl rfl
      · exact .inr ⟨_, rfl, rfl⟩

/-- C08, C09 for vector valued criteria after the first successful evaluation, complete: the batch evaluator is
called with the requested points in any case. If an evaluation raises and there is at least one other evaluation
in the batch, the wrapped criterion raises `ValueError` and nothing is recorded. Otherwise everything is recorded;
a failing evaluation as a vector of `+inf`. -/
theorem C09_vector_request_partial {ft : Functype} (hft : ft ≠ .scalar) {d w : Nat}
    (hd : 0 < d) (hw : 0 < w) {h : History (XVal K)}
    {xs : List (List (XVal K))} {evs : List (Nat × List (XVal K))}
    (ht : Trace ft d w h xs evs) (hevs : evs ≠ [])
    (request : List (Nat × Nat)) (hne : request ≠ []) (hreq : ∀ p ∈ request, p.1 < xs.length)
    (batch : BatchEvaluator K) (nCores : Int)
    (results : List (RawEval K))
    (hbatch : batch ((requestedPoints request).map fun i => xs.getD i [])
      (min nCores (requestedPoints request).length) = results)
    (hlen : results.length = (requestedPoints request).length)
    (hres : ∀ r ∈ results, r = .exc ∨ ∃ vs, r = .vec vs ∧ vs.length = w) :
    ∃ h' out, wrapperCriterion h batch nCores (request.map fun p => ((p.1 : Int), p.2))
        = (h', out, some ⟨(requestedPoints request).map (fun i => xs.getD i []),
            min nCores (requestedPoints request).length⟩) ∧
      (.exc ∈ results ∧ 2 ≤ results.length → out = .error .valueError ∧ h' = h) ∧
      (¬ (.exc ∈ results ∧ 2 ≤ results.length) → out = .ok () ∧
        Trace ft d w h' xs
          (evs ++ (requestedPoints request).zip (results.map (recordedFailing w)))) := by
  have hr := trace_rep hd hw ht
  by_cases hbad : .exc ∈ results ∧ 2 ≤ results.length
  · refine ⟨h, .error .valueError, ?_, fun _ => ⟨rfl, rfl⟩, fun h => absurd hbad h⟩
    rw [wrapper_eq hr request hne hreq]
    simp only [List.length_map, hbatch]
    have hadd : h.addEvals ((requestedPoints request).map Int.ofNat) (results.map clipEval)
        = (h, .error .valueError) := by
      unfold History.addEvals
      rw [hr.ft_eq]
      split
      · rfl
      rw [if_neg (by rw [List.length_map, ← hlen]; omega)]
      rcases evalsToMat_with_exc hft results hres hbad.1 hbad.2 with h1 | ⟨m, h1, h2⟩
      · rw [h1]
      · rw [h1]
        dsimp only
        rw [if_pos (by rw [List.length_map, ← hlen, h2]; omega)]
    rw [hadd]
  · by_cases hexc : .exc ∈ results
    · have h1 : results = [.exc] := by
        have : ¬ 2 ≤ results.length := fun h => hbad ⟨hexc, h⟩
        match results, hexc, this with
        | [r], hexc, _ => rw [List.mem_singleton] at hexc; rw [← hexc]
        | r :: r2 :: l, _, h => simp at h
      rw [h1] at hlen hbatch
      obtain ⟨i, hi⟩ := List.length_eq_one_iff.1 hlen.symm
      have hix : i < xs.length := mem_requestedPoints hreq i (by rw [hi]; simp)
      rw [hi] at hbatch ⊢
      simp only [List.map_cons, List.map_nil, List.length_cons, List.length_nil, zero_add,
        Nat.cast_one] at hbatch ⊢
      obtain ⟨h', h2, h3⟩ := C09_single_failure_vector_partial hft hd hw ht hevs i hix batch nCores hbatch
      refine ⟨h', .ok (), ?_, fun h => absurd h hbad, fun _ => ⟨rfl, ?_⟩⟩
      · rw [← h2, wrapper_eq hr request hne hreq, show [((i : Int), 1)] =
          ([(i, 1)] : List (Nat × Nat)).map fun p => ((p.1 : Int), p.2) from rfl,
          wrapper_eq hr [(i, 1)] (by simp) (by simpa using hix), hi]
        rfl
      · rw [h1]; exact h3
    · have hvec : ∀ r ∈ results, ∃ vs, r = .vec vs ∧ vs.length = w := by
        intro r hmem
        rcases hres r hmem with rfl | h
        · exact absurd hmem hexc
        · exact h
      obtain ⟨h', h2, h3⟩ := C08_vector_request_carried_out_partial hft hd hw ht request hne hreq batch nCores
        results hbatch hlen hvec
      refine ⟨h', .ok (), h2, fun h => absurd h hbad, fun _ => ⟨rfl, ?_⟩⟩
      have : results.map (recordedFailing w) = results.map recordedVector := by
        apply List.map_congr_left
        intro r hmem
        obtain ⟨vs, rfl, -⟩ := hvec r hmem
        rfl
      rw [this]
      exact h3

/-- A least squares history with two points. -/
def c09History : History (XVal ℚ) :=
  (History.init .leastSquares).run [.addXs (.many [[.fin 0], [.fin 1]])]

/-- C09 is false of the code for vector valued criteria: if two evaluations of a batch raise, or one
raises and the other succeeds, the wrapped criterion itself raises `ValueError`. -/
theorem C09_violated_vector_batch :
    (wrapperCriterion c09History (fun args _ => args.map fun _ => .exc) 1 [(0, 1), (1, 1)]).2.1
      = .error .valueError ∧
    (wrapperCriterion c09History
      (fun args _ => args.mapIdx fun k _ => if k = 0 then .exc else .vec [.fin 1, .fin 2])
      1 [(0, 1), (1, 1)]).2.1 = .error .valueError := by
  constructor <;> decide +kernel

/-- C08 is false of the code for vector valued criteria: a request for one evaluation at each of two points calls the
user's function at both, but nothing is recorded, because one of the two evaluations raises. -/
theorem C08_violated_vector_batch :
    let out := wrapperCriterion c09History
      (fun args _ => args.mapIdx fun k _ => if k = 0 then .exc else .vec [.fin 1, .fin 2]) 1 [(0, 1), (1, 1)]
    (out.2.2.map fun call => call.arguments) = some [[.fin 0], [.fin 1]] ∧ out.1.getNFun = 0 := by
  constructor <;> decide +kernel

/-- C09 is false of the code for vector valued criteria: if the very first evaluation raises, the
width of the history is fixed to one, and the next successful evaluation raises `ValueError`. -/
theorem C09_violated_first_evaluation :
    let h₁ := (wrapperCriterion c09History (fun args _ => args.map fun _ => .exc) 1 [(0, 1)])
    h₁.2.1 = .ok () ∧
    (wrapperCriterion h₁.1 (fun args _ => args.map fun _ => .vec [.fin 1, .fin 2]) 1
      [(1, 1)]).2.1 = .error .valueError := by
  constructor <;> decide +kernel

/-- Filling slots in any order. -/
theorem parallelBatch_get (criterion : List (XVal K) → RawEval K) (order : List Nat)
    (arguments : List (List (XVal K))) (slots : List (Option (RawEval K)))
    (hl : slots.length = arguments.length) (k : Nat) (hk : k < arguments.length) :
    (order.foldl (finishTask criterion arguments) slots)[k]? =
      if k ∈ order then some (some (criterion arguments[k])) else slots[k]? := by
  induction order generalizing slots with
  | nil => simp
  | cons t order ih =>
    rw [List.foldl_cons, finishTask]
    cases ht : arguments[t]? with
    | none =>
      simp only
      rw [ih slots hl]
      have : t ≠ k := by
        rintro rfl
        rw [List.getElem?_eq_getElem hk] at ht; simp at ht
      simp [this.symm]
    | some x =>
      simp only
      rw [ih _ (by simpa using hl)]
      by_cases hko : k ∈ order
      · simp [hko]
      · simp only [hko, if_false, List.mem_cons, or_false]
        by_cases htk : k = t
        · subst htk
          have : x = arguments[k] := by
            rw [List.getElem?_eq_getElem hk] at ht; simpa using ht.symm
          simp [this, hl, hk]
        · simp [htk, List.getElem?_set, Ne.symm htk]

/-- C10. Whatever the order in which the workers finish (each task exactly once), the batch result is
the list of the criterion values in task order. Hence two schedules give the same history. -/
theorem C10_schedule_independent (criterion : List (XVal K) → RawEval K)
    (arguments : List (List (XVal K))) (order : List Nat)
    (horder : order.Perm (List.range arguments.length)) :
    parallelBatch criterion order arguments = arguments.map fun x => some (criterion x) := by
  apply List.ext_getElem?
  intro k
  by_cases hk : k < arguments.length
  · unfold parallelBatch
    rw [parallelBatch_get criterion order arguments _ (by simp) k hk]
    rw [if_pos (by rw [horder.mem_iff]; simpa using hk)]
    simp [hk]
  · have hlen : (parallelBatch criterion order arguments).length = arguments.length := by
      have : ∀ (o : List Nat) (s : List (Option (RawEval K))), (o.foldl
          (finishTask criterion arguments) s).length = s.length := by
        intro o
        induction o with
        | nil => intro s; rfl
        | cons t o ih =>
          intro s
          rw [List.foldl_cons, ih, finishTask]
          split <;> simp
      unfold parallelBatch
      rw [this]; simp
    rw [List.getElem?_eq_none (by omega), List.getElem?_eq_none (by simp; omega)]

/-- C10, number of workers: never more than tasks, never more than allowed, and at least one if there
is at least one task and at least one core. -/
theorem C10_worker_count {h : History (XVal K)} (batch : BatchEvaluator K) (nCores : Int)
    (request : List (Int × Nat)) (h' : History (XVal K)) (res : Except Err Unit)
    (call : BatchCall K)
    (hcall : wrapperCriterion h batch nCores request = (h', res, some call)) :
    call.nCores ≤ call.arguments.length ∧ call.nCores ≤ nCores ∧
      (1 ≤ nCores → call.arguments ≠ [] → 1 ≤ call.nCores) := by
  have hc : call.nCores = min nCores call.arguments.length := by
    unfold wrapperCriterion at hcall
    split at hcall
    · simp at hcall
    simp only at hcall
    split at hcall
    · simp at hcall
    split at hcall
    · simp at hcall
    split at hcall <;>
    · simp only [Prod.mk.injEq, Option.some.injEq] at hcall
      rw [← hcall.2.2]
  rw [hc]
  refine ⟨min_le_right _ _, min_le_left _ _, fun h1 h2 => ?_⟩
  have : 0 < call.arguments.length := List.length_pos_iff.2 h2
  omega

/-- C10: with counts that are all zero the number of workers is zero (the code passes `n_cores=0` to
the batch evaluator in this corner case). -/
theorem C10_zero_workers_possible :
    ((wrapperCriterion c09History (fun _ _ => []) 4 [(0, 0)]).2.2.map BatchCall.nCores)
      = some 0 := by decide +kernel

/-- Which batch evaluators are accepted, and which one is used: the joblib based one if nothing or
`"joblib"` is given, the pathos based one for `"pathos"`, and the user's own function if a function is
given. Other strings and other types are rejected. -/
theorem C10_batch_evaluator_choice (a : BatchArg) :
    (processBatchEvaluator a = .error .typeError ↔ a = .other) ∧
    (processBatchEvaluator a = .error .valueError ↔
      ∃ s, a = .str s ∧ s ≠ "joblib" ∧ s ≠ "pathos") ∧
    (processBatchEvaluator a = .ok .joblib ↔ a = .none ∨ a = .str "joblib") ∧
    (processBatchEvaluator a = .ok .pathos ↔ a = .str "pathos") ∧
    (processBatchEvaluator a = .ok .user ↔ a = .callable) := by
  cases a with
  | str s =>
    by_cases h1 : s = "joblib"
    · simp [processBatchEvaluator, h1]
    · by_cases h2 : s = "pathos" <;> simp [processBatchEvaluator, h1, h2]
  | _ => simp [processBatchEvaluator]

section examples
/-- Non-vacuity for C08/C09: a request with repetitions, an exception and a NaN. -/
example : ∃ h : History (XVal ℚ), Trace .scalar 1 1 h ([] ++ [[.fin 0], [.fin 1]]) [] ∧
    (∀ p ∈ [(1, 2), (0, 1)], p.1 < ([] ++ [[(.fin 0 : XVal ℚ)], [.fin 1]]).length) ∧
    (requestedPoints [(1, 2), (0, 1)]) = [1, 1, 0] ∧
    ([RawEval.exc, .sc .nan, .sc (.fin (3 : ℚ))].map recordedScalar) = [.pinf, .pinf, .fin 3] :=
  ⟨_, Trace.addXs [[XVal.fin 0], [XVal.fin 1]] Trace.new (by simp) rfl, by decide, by decide, by decide⟩

/-- Non-vacuity for `C09_vector_request_partial`: a history with one evaluation of width two, and batches with one
failing evaluation, with two successful ones, and with both. -/
example : ∃ h : History (XVal ℚ), Trace .leastSquares 1 2 h ([] ++ [[.fin 0], [.fin 1]])
      ([] ++ [0].zip [[.fin 1, .fin 2]]) ∧
    (∀ p ∈ [(1, 2), (0, 1)], p.1 < ([] ++ [[(.fin 0 : XVal ℚ)], [.fin 1]]).length) ∧
    (∀ r ∈ [RawEval.exc, .vec [.nan, .fin (3 : ℚ)], .exc], r = .exc ∨ ∃ vs, r = .vec vs ∧ vs.length = 2) ∧
    ([RawEval.exc, .vec [.nan, .fin (3 : ℚ)]].map (recordedFailing 2)) =
      [[.pinf, .pinf], [.pinf, .fin 3]] := by
  obtain ⟨h', -, h2⟩ := C08_vector_request_carried_out_partial (K := ℚ) (ft := .leastSquares) (w := 2)
    (by decide) Nat.one_pos Nat.two_pos
    (Trace.addXs [[XVal.fin 0], [XVal.fin 1]] Trace.new (by simp) rfl) [(0, 1)] (by simp) (by decide)
    (fun _ _ => [.vec [.fin 1, .fin 2]]) 1 [.vec [.fin 1, .fin 2]] rfl rfl (by simp)
  refine ⟨h', h2, by decide, ?_, by decide⟩
  intro r hr
  simp only [List.mem_cons, List.not_mem_nil, or_false] at hr
  rcases hr with rfl | rfl | rfl
  · exact .inl rfl
  · exact .inr ⟨_, rfl, rfl⟩
  · exact .inl rfl

example : ([2, 0, 1] : List Nat).Perm (List.range 3) := by decide
end examples

end Tranquilo
