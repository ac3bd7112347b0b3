import Verif.Props.History
import Verif.Props.WrapCriterion
import Verif.Props.MainLoopWitness
import Verif.Spec.Subsolver
import Verif.Lemmas.MainLoopRaise

/-!
# Property C104: the optimizer can treat the history as an append only log

The main loop and the acceptance deciders are modelled over `Log` (`Model/Log.lean`): a list of points and a
list of recorded values. The program works on a `History` object with over-allocated buffers and an index
mapper (`Model/History.lean`), and evaluates the criterion through `wrapper_criterion`
(`Model/WrapCriterion.lean`). Here both are connected: in every run all calls on the object succeed, and all
that is ever read from it is what the log says.
-/

namespace Tranquilo

variable {K : Type} [Field K] [LinearOrder K] [IsStrictOrderedRing K] {n : Nat} {VM SM : Type}

/-! ## Specification -/

/-- The criterion of the user: its result at the `k`-th evaluation of the run. It may be noisy and may raise. -/
abbrev UserCriterion (K : Type) := Nat → List (XVal K) → RawEval K

/-- What one result is recorded as: see `recordedScalar` and `recordedVector`. -/
def recordedRow : Functype → RawEval K → List (XVal K)
  | .scalar, r => [recordedScalar r]
  | _, r => recordedVector r

/-- The result fits to the function type: a number or an exception for scalar criteria, a vector with `w`
entries for the others. -/
def Answers (ft : Functype) (w : Nat) (r : RawEval K) : Prop :=
  match ft with
  | .scalar => w = 1 ∧ ∀ vs, r ≠ .vec vs
  | _ => ∃ vs, r = .vec vs ∧ vs.length = w

/-- A batch evaluator that evaluates its arguments, after `k` evaluations have been made before. -/
def batchOf (criterion : UserCriterion K) (k : Nat) : BatchEvaluator K :=
  fun args _ => args.mapIdx fun j x => criterion (k + j) x

/-- The value that the optimizer sees. -/
def oracleOf (ft : Functype) (criterion : UserCriterion K) : Oracle K n :=
  fun k x => ft.aggregateRow (recordedRow ft (criterion k (finRow x)))

/-- `CallsOn criterion nCores h h'`: the object `h` became `h'` by calls of `add_xs` and of the wrapped criterion
that returned normally. The keys of an evaluation request are distinct, because it is a dict. -/
inductive CallsOn (n : Nat) (criterion : UserCriterion K) (nCores : Int) (h : History (XVal K)) :
    History (XVal K) → Prop
  | refl : CallsOn n criterion nCores h h
  | addXs {h' h'' : History (XVal K)} (rows : List (Vec K n)) (out : IdxOut) :
      CallsOn n criterion nCores h h' → h'.addXs (.many (rows.map finRow)) = (h'', .ok out) →
      CallsOn n criterion nCores h h''
  | evaluate {h' h'' : History (XVal K)} (request : List (Int × Nat)) (call : Option (BatchCall K)) :
      CallsOn n criterion nCores h h' → (request.map Prod.fst).Nodup →
      wrapperCriterion h' (batchOf criterion h'.n_fun) nCores request = (h'', .ok (), call) →
      CallsOn n criterion nCores h h''

/-- All reads of the optimizer from the object `h` give what the log `l` contains. -/
structure Agrees (ft : Functype) (criterion : UserCriterion K) (nrm : Vec K n → K) (h : History (XVal K))
    (l : Log K n) : Prop where
  nXs : h.n_xs = l.xs.length
  nFun : h.n_fun = l.nFun
  xs : l.xs ≠ [] → ∀ is : List Nat, (∀ i ∈ is, i < l.xs.length) →
    h.getXs (is.map Int.ofNat) = .ok ((l.getXs is).map finRow)
  fvals : l.evals ≠ [] → ∀ i < l.xs.length, h.getFval i = .ok (l.fvals i)
  nEvals : l.evals ≠ [] → ∀ is : List Nat, is.Nodup → (∀ i ∈ is, i < l.xs.length) →
    h.getNEvals (is.map Int.ofNat) = .ok (is.map fun i => (i, (l.fvals i).length))
  region : ∀ (center : Vec K n) (radius : K),
    h.getXIndicesInRegion (inBall (List.ofFn center) radius) = .ok (l.indicesInRegion nrm center radius)
  /-- the vectors that models are fitted to are determined by the log -/
  fvecs : l.evals ≠ [] → ∀ i < l.xs.length, ∀ x, l.xs[i]? = some x →
    h.getFvec i = .ok ((l.evals.zipIdx.filter fun p => p.1.1 = i).map fun p =>
      recordedRow ft (criterion p.2 (finRow x)))

/-! ## The relation between object and log -/

/-- The evaluations that were submitted to the object, with all entries. -/
def recordedEvals (ft : Functype) (criterion : UserCriterion K) (l : Log K n) : List (Nat × List (XVal K)) :=
  l.evals.mapIdx fun j p => (p.1, recordedRow ft (criterion j ((l.xs.map finRow).getD p.1 [])))

/-- The object `h` stores the log `l`. -/
structure Stores (ft : Functype) (w : Nat) (criterion : UserCriterion K) (h : History (XVal K)) (l : Log K n) :
    Prop where
  trace : Trace ft n w h (l.xs.map finRow) (recordedEvals ft criterion l)
  values : (recordedEvals ft criterion l).map (fun p => (p.1, ft.aggregateRow p.2)) = l.evals

variable {ft : Functype} {w : Nat} {criterion : UserCriterion K} {h : History (XVal K)} {l : Log K n}

omit [IsStrictOrderedRing K] in
theorem length_finRow (x : Vec K n) : (finRow x).length = n := by simp [finRow]

theorem Stores.idx (hn : 0 < n) (hw : 0 < w) (hs : Stores ft w criterion h l) :
    ∀ p ∈ l.evals, p.1 < l.xs.length := by
  intro p hp
  rw [← hs.values] at hp
  obtain ⟨q, hq, rfl⟩ := List.mem_map.1 hp
  simpa using (trace_rep hn hw hs.trace).idx q hq

omit [IsStrictOrderedRing K] in
theorem recordedEvals_addXs (hidx : ∀ p ∈ l.evals, p.1 < l.xs.length) (rows : List (Vec K n)) :
    recordedEvals ft criterion (l.addXs rows).1 = recordedEvals ft criterion l := by
  unfold recordedEvals Log.addXs
  apply List.ext_getElem (by simp)
  intro j h1 h2
  have hj : j < l.evals.length := by simpa using h2
  have hp := hidx _ (List.getElem_mem hj)
  simp only [List.getElem_mapIdx, List.map_append, List.getD_eq_getElem?_getD]
  rw [List.getElem?_append_left (by simpa using hp)]

omit [IsStrictOrderedRing K] in
theorem newEvals_eq_mapIdx (oracle : Oracle K n) (xs : List (Vec K n)) (is : List Nat)
    (his : ∀ i ∈ is, i < xs.length) (k : Nat) (g : Nat → Nat → XVal K)
    (hg : ∀ k i x, xs[i]? = some x → g k i = oracle k x) :
    Log.newEvals oracle xs k is = is.mapIdx fun j i => (i, g (k + j) i) := by
  induction is generalizing k with
  | nil => rfl
  | cons i is ih =>
    have hi := his i (by simp)
    rw [Log.newEvals, List.getElem?_eq_getElem hi, List.mapIdx_cons]
    simp only
    rw [ih (fun j hj => his j (by simp [hj])), hg (k + 0) i _ (List.getElem?_eq_getElem hi)]
    congr 2
    funext j i
    rw [show k + 1 + j = k + (j + 1) by omega]

/-- Adding points. -/
theorem Stores.addXs (hn : 0 < n) (hw : 0 < w) (hs : Stores ft w criterion h l) (rows : List (Vec K n)) :
    ∃ h', h.addXs (.many (rows.map finRow)) = (h', .ok (.many (l.addXs rows).2)) ∧
      Stores ft w criterion h' (l.addXs rows).1 := by
  have hr := trace_rep hn hw hs.trace
  have hidx := hs.idx hn hw
  have hdim : ∀ r ∈ rows.map finRow, r.length = n := by
    intro r hr
    obtain ⟨x, -, rfl⟩ := List.mem_map.1 hr
    exact length_finRow x
  have hok : ∃ h' out, h.addXs (.many (rows.map finRow)) = (h', .ok out) := by
    cases hrows : rows.map (finRow (K := K)) with
    | nil => exact ⟨_, _, rfl⟩
    | cons r rs =>
      rw [hrows] at hdim
      obtain ⟨m, h1, -⟩ := rep_addXs_mat hr (r :: rs) hdim
      have hall : (rs.all fun r' => decide (r'.length = r.length)) = true := by
        rw [List.all_eq_true]
        intro r' hr'
        simp [hdim r (by simp), hdim r' (by simp [hr'])]
      have hm : (XsArg.many (r :: rs)).toMat = .ok ⟨n, r :: rs⟩ := by
        rw [← hdim r (by simp)]
        simp only [XsArg.toMat, hall, if_true]
      refine ⟨{ h with
        xs := some m, mapper := h.mapper ++ List.replicate (r :: rs).length [],
        n_xs := h.n_xs + (r :: rs).length }, .many (List.range' h.n_xs (r :: rs).length), ?_⟩
      unfold History.addXs
      rw [hm]
      simp only
      rw [if_neg (by rw [if_neg (by omega)]; simp), h1, if_neg (by omega)]
  obtain ⟨h', out, hh⟩ := hok
  obtain ⟨hout, -⟩ := rep_addXs_many hr hn _ hdim hh
  have hout' : out = .many (l.addXs rows).2 := by
    rw [hout]
    simp [Log.addXs, List.range'_eq_map_range]
  refine ⟨h', by rw [hh, hout'], ?_, ?_⟩
  · have := Trace.addXs (rows.map finRow) hs.trace hdim hh
    rw [recordedEvals_addXs hidx]
    simpa [Log.addXs] using this
  · rw [recordedEvals_addXs hidx]
    exact hs.values

/-- Adding one point. -/
theorem Stores.addX (hn : 0 < n) (hw : 0 < w) (hs : Stores ft w criterion h l) (x : Vec K n) :
    ∃ h', h.addXs (.single (finRow x)) = (h', .ok (.one (l.addX x).2)) ∧
      h.addXs (.many [finRow x]) = (h', .ok (.many [(l.addX x).2])) ∧
      Stores ft w criterion h' (l.addX x).1 := by
  obtain ⟨h', h1, h2⟩ := hs.addXs hn hw [x]
  have hmany : h.addXs (.many [finRow x]) = (h', .ok (.many [(l.addX x).2])) := by
    simpa [Log.addXs, Log.addX] using h1
  refine ⟨h', ?_, hmany, h2⟩
  have hr := trace_rep hn hw hs.trace
  unfold History.addXs at hmany ⊢
  have hlen := length_finRow x
  simp only [XsArg.toMat, List.all_nil, if_true, hlen] at hmany ⊢
  rw [if_neg (by rw [if_neg (by omega)]; simp)] at hmany ⊢
  split at hmany
  · simp at hmany
  · rename_i heq
    simp only [Prod.mk.injEq] at hmany
    simp only [heq, Prod.mk.injEq]
    refine ⟨hmany.1, ?_⟩
    rw [hr.nxs]
    simp [Log.addX]

/-- Evaluating. -/
theorem Stores.evaluate (hn : 0 < n) (hw : 0 < w) (hs : Stores ft w criterion h l)
    (hans : ∀ k x, Answers ft w (criterion k x)) (nCores : Int) (request : List (Nat × Nat))
    (hreq : ∀ p ∈ request, p.1 < l.xs.length) :
    ∃ h' call, wrapperCriterion h (batchOf criterion h.n_fun) nCores
        (request.map fun p => ((p.1 : Int), p.2)) = (h', .ok (), call) ∧
      Stores ft w criterion h' (l.evaluate (oracleOf ft criterion) request) := by
  have hr := trace_rep hn hw hs.trace
  by_cases hne : request = []
  · subst hne
    exact ⟨h, none, by simp [wrapperCriterion], by simpa [Log.evaluate] using hs⟩
  have hreq' : ∀ p ∈ request, p.1 < (l.xs.map finRow).length := by simpa using hreq
  have hnfun : h.n_fun = l.evals.length := by
    rw [hr.nfun]; simp [recordedEvals]
  set is := requestedPoints request with his
  have hisv : ∀ i ∈ is, i < l.xs.length := mem_requestedPoints hreq
  set results := batchOf criterion h.n_fun (is.map fun i => (l.xs.map finRow).getD i [])
    (min nCores is.length) with hres
  have hresl : results.length = is.length := by simp [hres, batchOf]
  have hmem : ∀ r ∈ results, Answers ft w r := by
    intro r hr
    rw [hres, batchOf, List.mem_mapIdx] at hr
    obtain ⟨k, hk, rfl⟩ := hr
    exact hans _ _
  have hwrap : ∃ h' call, wrapperCriterion h (batchOf criterion h.n_fun) nCores
        (request.map fun p => ((p.1 : Int), p.2)) = (h', .ok (), call) ∧
      Trace ft n w h' (l.xs.map finRow)
        (recordedEvals ft criterion l ++ is.zip (results.map (recordedRow ft))) := by
    have ht := hs.trace
    cases ft with
    | scalar =>
      obtain rfl : w = 1 := (hans 0 []).1
      obtain ⟨h', h1, h2⟩ := C08_scalar_request_carried_out hn ht request hne hreq'
        (batchOf criterion h.n_fun) nCores results hres.symm hresl fun r hr => (hmem r hr).2
      exact ⟨h', _, h1, h2⟩
    | likelihood =>
      obtain ⟨h', h1, h2⟩ := C08_vector_request_carried_out_partial (by decide) hn hw ht request hne hreq'
        (batchOf criterion h.n_fun) nCores results hres.symm hresl hmem
      exact ⟨h', _, h1, h2⟩
    | leastSquares =>
      obtain ⟨h', h1, h2⟩ := C08_vector_request_carried_out_partial (by decide) hn hw ht request hne hreq'
        (batchOf criterion h.n_fun) nCores results hres.symm hresl hmem
      exact ⟨h', _, h1, h2⟩
  obtain ⟨h', call, h1, h2⟩ := hwrap
  have hnew : Log.newEvals (oracleOf ft criterion) l.xs l.evals.length is
      = is.mapIdx fun j i => (i, ft.aggregateRow (recordedRow ft
          (criterion (l.evals.length + j) ((l.xs.map finRow).getD i [])))) := by
    refine newEvals_eq_mapIdx _ _ _ hisv _ (fun k i => ft.aggregateRow (recordedRow ft
      (criterion k ((l.xs.map finRow).getD i [])))) ?_
    intro k i x hx
    simp [oracleOf, List.getD_eq_getElem?_getD, hx]
  have hevs : recordedEvals ft criterion (l.evaluate (oracleOf ft criterion) request)
      = recordedEvals ft criterion l ++ is.zip (results.map (recordedRow ft)) := by
    rw [Log.evaluate_eq]
    change recordedEvals ft criterion { l with evals := l.evals ++ Log.newEvals _ l.xs l.evals.length is } = _
    rw [hnew]
    unfold recordedEvals
    simp only
    rw [List.mapIdx_append]
    congr 1
    apply List.ext_getElem
    · simp [hresl]
    · intro j j1 j2
      simp [hres, batchOf, hnfun, Nat.add_comm]
  refine ⟨h', call, h1, ?_, ?_⟩
  · rw [hevs, Log.evaluate_xs]
    exact h2
  · rw [hevs, List.map_append, hs.values, Log.evaluate_eq]
    simp only
    congr 1
    change _ = Log.newEvals _ l.xs l.evals.length is
    rw [hnew]
    apply List.ext_getElem
    · simp [hresl]
    · intro j j1 j2
      simp [hres, batchOf, hnfun]

/-! ## Reading -/

theorem inBall_eq (nrm : Vec K n → K) (hnrm : ∀ v, 0 ≤ nrm v ∧ nrm v * nrm v = ∑ j, v j * v j)
    (c x : Vec K n) (r : K) :
    inBall (List.ofFn c) r (finRow x) = decide (nrm (fun j => x j - c j) ≤ r) := by
  have hsum : ∀ v : List K, (v.map fun a => (XVal.fin a : XVal K)).sum = .fin v.sum := by
    intro v
    induction v with
    | nil => rfl
    | cons a v ih => simp only [List.map_cons, List.sum_cons, ih, XVal.fin_add_fin]
  have hmap : (List.zip (finRow x) (List.ofFn c)).map (fun p => (p.1 - .fin p.2) * (p.1 - .fin p.2))
      = (List.ofFn fun j => (x j - c j) * (x j - c j)).map fun a => (XVal.fin a : XVal K) := by
    apply List.ext_getElem
    · simp [finRow]
    · intro k h1 h2
      simp [finRow]
  unfold inBall
  rw [hmap, hsum, List.sum_ofFn, Bool.eq_iff_iff]
  obtain ⟨h0, h1⟩ := hnrm fun j => x j - c j
  simp only [Bool.and_eq_true, decide_eq_true_eq, XVal.fin_le_fin, ← h1]
  constructor
  · rintro ⟨hr, hle⟩
    exact abs_le_of_sq_le_sq' (by rw [pow_two, pow_two]; exact hle) hr |>.2
  · intro hle
    exact ⟨h0.trans hle, mul_self_le_mul_self h0 hle⟩

theorem filterMap_mask {α : Type} (f : α → Bool) (xs : List α) (k : Nat) :
    ((List.range' k xs.length).zip (xs.map f)).filterMap (fun p => if p.2 then some p.1 else none)
      = (List.range' k xs.length).filter fun i =>
          match xs[i - k]? with
          | some x => f x
          | none => false := by
  induction xs generalizing k with
  | nil => rfl
  | cons x xs ih =>
    rw [List.length_cons, List.range'_succ, List.map_cons, List.zip_cons_cons, List.filterMap_cons,
      List.filter_cons, ih (k + 1)]
    have hrest : (List.range' (k + 1) xs.length).filter (fun i =>
          match xs[i - (k + 1)]? with
          | some x => f x
          | none => false)
        = (List.range' (k + 1) xs.length).filter (fun i =>
          match (x :: xs)[i - k]? with
          | some x => f x
          | none => false) := by
      apply List.filter_congr
      intro i hi
      have := (List.mem_range'_1.1 hi).1
      rw [show i - k = (i - (k + 1)) + 1 by omega, List.getElem?_cons_succ]
    rw [hrest]
    cases hf : f x <;> simp [hf]

/-- C104, reading: an object that stores the log agrees with it in all reads. -/
theorem Stores.agrees (hn : 0 < n) (hw : 0 < w) (nrm : Vec K n → K)
    (hnrm : ∀ v, 0 ≤ nrm v ∧ nrm v * nrm v = ∑ j, v j * v j) (hs : Stores ft w criterion h l) :
    Agrees ft criterion nrm h l := by
  have hr := trace_rep hn hw hs.trace
  have hlen : (recordedEvals ft criterion l).length = l.evals.length := by simp [recordedEvals]
  have hne : l.evals ≠ [] → recordedEvals ft criterion l ≠ [] := by
    intro h0 h1
    rw [h1] at hlen
    exact h0 (List.eq_nil_of_length_eq_zero hlen.symm)
  have hsub : ∀ i, (submittedFor (recordedEvals ft criterion l) i).map ft.aggregateRow = l.fvals i := by
    intro i
    unfold Log.fvals
    rw [← hs.values, List.filter_map]
    simp [submittedFor, Function.comp_def]
  refine ⟨by simpa using hr.nxs, by rw [hr.nfun, hlen]; rfl, ?_, ?_, ?_, ?_, ?_⟩
  · intro hx is his
    rw [rep_getXs hr is (by simpa using hx) (by simpa using his)]
    unfold Log.getXs
    rw [List.map_filterMap]
    simp
  · intro h0 i hi
    rw [rep_getFval hr (hne h0) i (by simpa using hi), hsub]
  · intro h0 is hnd his
    unfold History.getNEvals
    rw [rep_getFvals hr (hne h0) is (by simpa using his), dictFromKeys_nodup]
    · simp only [hsub]
      simp [bind, Except.bind, pure, Except.pure]
    · simpa [List.map_map, Function.comp_def] using hnd
  · intro c r
    unfold History.getXIndicesInRegion Log.indicesInRegion
    by_cases h0 : l.evals = []
    · rw [if_pos (by rw [History.getNFun, hr.nfun, hlen, h0]; rfl), if_pos h0]
    · rw [if_neg (by rw [History.getNFun, hr.nfun, hlen]; simpa using h0), if_neg h0]
      have hx : l.xs ≠ [] := by
        rintro h1
        obtain ⟨p, hp⟩ := List.exists_mem_of_ne_nil _ h0
        have := hs.idx hn hw p hp
        rw [h1] at this
        simp at this
      obtain ⟨m, hm, htake⟩ := rep_xs_some hr (by simpa using hx)
      unfold History.getAllXs
      rw [hm]
      simp only
      rw [htake]
      have hmask : (l.xs.map finRow).map (inBall (List.ofFn c) r)
          = l.xs.map fun x => decide (nrm (fun j => x j - c j) ≤ r) := by
        rw [List.map_map]
        exact List.map_congr_left fun x _ => inBall_eq nrm hnrm c x r
      rw [hmask, List.length_map, List.range_eq_range',
        filterMap_mask (fun x => decide (nrm (fun j => x j - c j) ≤ r)) l.xs 0]
      congr 1
      apply List.filter_congr
      intro i _
      rw [Nat.sub_zero]
      cases l.xs[i]? <;> rfl
  · intro h0 i hi x hx
    rw [rep_getFvec hr (hne h0) i (by simpa using hi)]
    unfold submittedFor recordedEvals
    rw [List.mapIdx_eq_zipIdx_map, List.filter_map, List.map_map]
    congr 1
    apply List.map_congr_left
    intro p hp
    have hpi : p.1.1 = i := by simpa using (List.mem_filter.1 hp).2
    simp [Function.comp_def, hpi, List.getD_eq_getElem?_getD, hx]

/-! ## Whole runs -/

omit [IsStrictOrderedRing K] in
theorem CallsOn.trans {nCores : Int} {h1 h2 h3 : History (XVal K)}
    (h12 : CallsOn n criterion nCores h1 h2) (h23 : CallsOn n criterion nCores h2 h3) :
    CallsOn n criterion nCores h1 h3 := by
  induction h23 with
  | refl => exact h12
  | addXs rows out _ hh ih => exact ih.addXs rows out hh
  | evaluate request call _ hd hh ih => exact ih.evaluate request call hd hh

theorem Grows.callsOn (hn : 0 < n) (hw : 0 < w) (hans : ∀ k x, Answers ft w (criterion k x)) (nCores : Int)
    {P : Vec K n → Prop} {l' : Log K n} (hg : Grows (oracleOf ft criterion) P l l')
    (hs : Stores ft w criterion h l) :
    ∃ h', CallsOn n criterion nCores h h' ∧ Stores ft w criterion h' l' := by
  induction hg with
  | refl => exact ⟨h, .refl, hs⟩
  | add rows hP _ ih =>
    obtain ⟨h', hc, hs'⟩ := ih
    obtain ⟨h'', h1, h2⟩ := hs'.addXs hn hw rows
    exact ⟨h'', hc.addXs rows _ h1, h2⟩
  | eval req hv hd _ ih =>
    obtain ⟨h', hc, hs'⟩ := ih
    obtain ⟨h'', call, h1, h2⟩ := hs'.evaluate hn hw hans nCores req hv
    refine ⟨h'', hc.evaluate _ call ?_ h1, h2⟩
    rw [List.map_map]
    have : (Prod.fst ∘ fun p : Nat × Nat => ((p.1 : Int), p.2)) = (fun i : Nat => (i : Int)) ∘ Prod.fst := rfl
    rw [this, ← List.map_map]
    exact hd.map fun a b hab => by simpa using hab

theorem stores_init (ft : Functype) (w : Nat) (criterion : UserCriterion K) :
    Stores ft w criterion (History.init ft) (⟨[], []⟩ : Log K n) :=
  ⟨by simpa [recordedEvals] using Trace.new, by simp [recordedEvals]⟩

/-- C104, single calls. A new object stores the empty log. If an object stores a log, all reads agree with the log;
`add_xs` and the wrapped criterion return normally, `add_xs` with the indices that the log assigns; and
afterwards the object stores the new log. -/
theorem C104_calls (hn : 0 < n) (hw : 0 < w) (nrm : Vec K n → K)
    (hnrm : ∀ v, 0 ≤ nrm v ∧ nrm v * nrm v = ∑ j, v j * v j)
    (hans : ∀ k x, Answers ft w (criterion k x)) :
    Stores ft w criterion (History.init ft) (⟨[], []⟩ : Log K n) ∧
    ∀ (h : History (XVal K)) (l : Log K n), Stores ft w criterion h l →
      Agrees ft criterion nrm h l ∧
      (∀ rows : List (Vec K n), ∃ h', h.addXs (.many (rows.map finRow)) = (h', .ok (.many (l.addXs rows).2)) ∧
        Stores ft w criterion h' (l.addXs rows).1) ∧
      (∀ x : Vec K n, ∃ h', h.addXs (.single (finRow x)) = (h', .ok (.one (l.addX x).2)) ∧
        Stores ft w criterion h' (l.addX x).1) ∧
      (∀ (nCores : Int) (request : List (Nat × Nat)), (∀ p ∈ request, p.1 < l.xs.length) →
        ∃ h' call, wrapperCriterion h (batchOf criterion h.n_fun) nCores
            (request.map fun p => ((p.1 : Int), p.2)) = (h', .ok (), call) ∧
          Stores ft w criterion h' (l.evaluate (oracleOf ft criterion) request)) := by
  refine ⟨stores_init ft w criterion, fun h l hs => ⟨hs.agrees hn hw nrm hnrm, fun rows => hs.addXs hn hw rows,
    fun x => ?_, fun nCores request hreq => hs.evaluate hn hw hans nCores request hreq⟩⟩
  obtain ⟨h', h1, -, h2⟩ := hs.addX hn hw x
  exact ⟨h', h1, h2⟩

/-- C104, whole runs. There is a sequence of objects, starting with a new one, such that each results from the
one before by calls that return normally, and the object after `k` iterations agrees in all reads with the log
after `k` iterations. -/
theorem C104_whole_run [FloorRing K] (hn : 0 < n) (hw : 0 < w) 
    (hans : ∀ k x, Answers ft w (criterion k x)) (nCores : Int)
    (c : Config K) (comp : Components K n VM SM)
    (hnrm : ∀ v, 0 ≤ comp.nrm v ∧ comp.nrm v * comp.nrm v = ∑ j, v j * v j) (hf : FilterSelects comp)
    (horacle : comp.oracle = oracleOf ft criterion) (x : Vec K n) (radius : K) (bounds : Bounds K n) :
    ∃ hs : Nat → History (XVal K), CallsOn n criterion nCores (History.init ft) (hs 0) ∧
      (∀ k, CallsOn n criterion nCores (hs k) (hs (k + 1))) ∧
      (∀ k, Agrees ft criterion comp.nrm (hs k) (iterates c comp (startRun c comp x radius bounds) k).log) ∧
      ∃ k, Agrees ft criterion comp.nrm (hs k) (tranquilo c comp x radius bounds).log := by
  set r0 := startRun c comp x radius bounds with hr0
  have hrun : ∀ k, RunOk comp bounds (iterates c comp r0 k) := by
    intro k
    induction k with
    | zero => exact startRun_ok c comp x radius bounds
    | succ k ih => exact iteration_ok c comp hf bounds k _ ih
  have hstart : ∃ h, CallsOn n criterion nCores (History.init ft) h ∧ Stores ft w criterion h r0.log := by
    have hg : Grows (oracleOf ft criterion) (fun _ => True) (⟨[], []⟩ : Log K n) r0.log := by
      have := (Grows.refl (oracle := oracleOf ft criterion) (P := fun _ => True)
        (h := (⟨[], []⟩ : Log K n))).addX (x := x) trivial
      have := this.eval [(0, if 1 < c.nEvalsAtStart then
        (nextMultiple (K := K) c.nEvalsAtStart c.batchSize).toNat else 1)] (by simp [Log.addX]) (by simp)
      rw [← horacle] at this ⊢
      exact this
    exact hg.callsOn hn hw hans nCores (stores_init ft w criterion)
  have hstep : ∀ k h, Stores ft w criterion h (iterates c comp r0 k).log →
      ∃ h', CallsOn n criterion nCores h h' ∧ Stores ft w criterion h' (iterates c comp r0 (k + 1)).log := by
    intro k h hs
    have hg := iteration_grows c comp hf k (iterates c comp r0 k) (hrun k).point
    rw [horacle] at hg
    exact hg.callsOn hn hw hans nCores hs
  obtain ⟨h0, hc0, hs0⟩ := hstart
  choose! next hnext using hstep
  let hs : Nat → History (XVal K) := fun k => Nat.rec h0 (fun k h => next k h) k
  have hstores : ∀ k, Stores ft w criterion (hs k) (iterates c comp r0 k).log := by
    intro k
    induction k with
    | zero => exact hs0
    | succ k ih => exact (hnext k _ ih).2
  have hagree : ∀ k, Agrees ft criterion comp.nrm (hs k) (iterates c comp r0 k).log :=
    fun k => (hstores k).agrees hn hw comp.nrm hnrm
  refine ⟨hs, hc0, fun k => (hnext k _ (hstores k)).1, hagree, ?_⟩
  obtain ⟨m, -, hm, -⟩ := tranquilo_iterates c comp x radius bounds
  exact ⟨m, hm ▸ hagree m⟩

/-- C104 for the version of the loop in which components may raise: if the run returns, its history is
the content of an object that was reached by calls that returned normally. -/
theorem C104_returned_history [FloorRing K] (hn : 0 < n) (hw : 0 < w) 
    (hans : ∀ k x, Answers ft w (criterion k x)) (nCores : Int)
    (c : Config K) (ce : ComponentsR K n VM SM)
    (hnrm : ∀ v, 0 ≤ ce.nrm v ∧ ce.nrm v * ce.nrm v = ∑ j, v j * v j) (cp : Components K n VM SM) (hreal : Realizes ce cp)
    (hf : FilterSelects cp) (horacle : ce.oracle = oracleOf ft criterion) (x : Vec K n) (radius : K)
    (bounds : Bounds K n) (r : Run K n VM SM) (hr : tranquiloR c ce x radius bounds = .ok r) :
    ∃ h, CallsOn n criterion nCores (History.init ft) h ∧ Agrees ft criterion ce.nrm h r.log := by
  have ho : cp.oracle = oracleOf ft criterion := by rw [← horacle, hreal.oracle]
  obtain ⟨hs, h0, h1, -, k, hk⟩ := C104_whole_run hn hw hans nCores c cp
    (by rw [hreal.nrm]; exact hnrm) hf ho x radius bounds
  rw [tranquiloR_ok hreal hr, hreal.nrm] at hk
  refine ⟨hs k, ?_, hk⟩
  clear hk
  induction k with
  | zero => exact h0
  | succ k ih => exact ih.trans (h1 k)

/-! ## Concrete cases -/

/-- A noisy scalar criterion with one parameter that raises at every third evaluation. -/
def failingCriterion : UserCriterion ℚ := fun k x =>
  if k % 3 = 2 then .exc else .sc (x.headD 0 * x.headD 0 + .fin k)

/-- A least squares criterion with one parameter and two residuals. -/
def residualCriterion : UserCriterion ℚ := fun _ x => .vec [x.headD 0, .fin 1]

theorem toy_norm (v : Vec ℚ 1) : 0 ≤ |v 0| ∧ |v 0| * |v 0| = ∑ j, v j * v j :=
  ⟨abs_nonneg _, by simp [abs_mul_abs_self]⟩

/-- A run with a criterion that is noisy and raises: hypotheses of `C104_whole_run`. -/
example := C104_whole_run (ft := .scalar) (w := 1) (criterion := failingCriterion) Nat.one_pos Nat.one_pos
  (by
    intro k x
    refine ⟨rfl, ?_⟩
    intro vs
    unfold failingCriterion
    split <;> simp) 4 (toyConfig 3 100 2 (.classic 0))
  { toyComponents toyStep toySample with oracle := oracleOf .scalar failingCriterion } toy_norm
  (toy_filter toyStep toySample) rfl (fun _ => 1) 1 noBounds

/-- The same for least squares. -/
example := C104_whole_run (ft := .leastSquares) (w := 2) (criterion := residualCriterion) Nat.one_pos
  Nat.two_pos (fun _ _ => ⟨_, rfl, rfl⟩) 4 (toyConfig 3 100 2 (.noisy 0 2 2 1 5))
  { toyComponents toyStep toySample with oracle := oracleOf .leastSquares residualCriterion } toy_norm
  (toy_filter toyStep toySample) rfl (fun _ => 1) 1 noBounds

end Tranquilo
