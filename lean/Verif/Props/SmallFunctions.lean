import Verif.Model.Small
import Verif.Model.BuiltinRun
import Verif.Lemmas.Steps
import Verif.Props.BuiltinRun

/-!
# C125, C126: the legend of the diagnostic plot, and the check for second order terms
-/

namespace Tranquilo

/-! ## C125 -/

section legend

variable {N : Type} [DecidableEq N]

theorem cleanLegendFrom_spec (seen : List N) (traces : List (Trace2d N)) (i : Nat) :
    (cleanLegendFrom seen traces)[i]? = (traces[i]?).map fun t =>
      ⟨t.name, t.showlegend && decide (t.name ∉ seen) &&
        decide (t.name ∉ (traces.take i).map Trace2d.name)⟩ := by
  induction traces generalizing seen i with
  | nil => simp [cleanLegendFrom]
  | cons t rest ih =>
    unfold cleanLegendFrom
    by_cases h : t.name ∈ seen
    · rw [if_pos h]
      cases i with
      | zero => simp [h]
      | succ i =>
        rw [List.getElem?_cons_succ, ih, List.getElem?_cons_succ]
        cases hr : rest[i]? with
        | none => rfl
        | some u =>
          simp only [Option.map_some, List.take_succ_cons, List.map_cons, List.mem_cons, not_or]
          by_cases hu : u.name = t.name
          · have hs : u.name ∈ seen := hu ▸ h
            simp [hs]
          · simp [hu]
    · rw [if_neg h]
      cases i with
      | zero => simp [h]
      | succ i =>
        rw [List.getElem?_cons_succ, ih, List.getElem?_cons_succ]
        cases hr : rest[i]? with
        | none => rfl
        | some u =>
          simp only [Option.map_some, List.take_succ_cons, List.map_cons, List.mem_cons, not_or]
          by_cases hu : u.name = t.name
          · simp [hu]
          · simp [hu]

/-- C125: a trace stays in the legend if it was shown there before and no earlier trace has its name. Order, number
and names of the traces do not change. -/
theorem C125_legend (traces : List (Trace2d N)) :
    (cleanLegend traces).map Trace2d.name = traces.map Trace2d.name ∧
    ∀ (i : Nat) (t : Trace2d N), traces[i]? = some t →
      ∃ t', (cleanLegend traces)[i]? = some t' ∧ t'.name = t.name ∧
        (t'.showlegend = true ↔ t.showlegend = true ∧
          ∀ (j : Nat) (u : Trace2d N), j < i → traces[j]? = some u → u.name ≠ t.name) := by
  constructor
  · apply List.ext_getElem?
    intro i
    rw [List.getElem?_map, List.getElem?_map, cleanLegend, cleanLegendFrom_spec]
    cases traces[i]? <;> rfl
  · intro i t ht
    have hget : (cleanLegend traces)[i]? = some ⟨t.name, t.showlegend && decide (t.name ∉ ([] : List N)) &&
        decide (t.name ∉ (traces.take i).map Trace2d.name)⟩ := by
      rw [cleanLegend, cleanLegendFrom_spec, ht]; rfl
    refine ⟨_, hget, rfl, ?_⟩
    simp only [Bool.and_eq_true, decide_eq_true_eq, List.not_mem_nil, not_false_eq_true, and_true]
    refine and_congr_right fun _ => ?_
    constructor
    · intro h j u hj hu hname
      refine h (List.mem_map.2 ⟨u, ?_, hname⟩)
      rw [List.mem_iff_getElem?]
      exact ⟨j, by rw [List.getElem?_take_of_lt hj, hu]⟩
    · intro h hmem
      obtain ⟨u, hu, hname⟩ := List.mem_map.1 hmem
      obtain ⟨j, hj⟩ := List.mem_iff_getElem?.1 hu
      have hlt : j < i := by
        by_contra hge
        rw [List.getElem?_take_eq_none (not_lt.1 hge)] at hj
        cases hj
      rw [List.getElem?_take_of_lt hlt] at hj
      exact h j u hlt hj hname

/-- C125: no two entries of the legend have the same name. -/
theorem C125_names_once (traces : List (Trace2d N)) (i j : Nat) (t u : Trace2d N)
    (ht : (cleanLegend traces)[i]? = some t) (hu : (cleanLegend traces)[j]? = some u)
    (hts : t.showlegend = true) (hus : u.showlegend = true) (hname : t.name = u.name) : i = j := by
  have key : ∀ (i j : Nat) (t u : Trace2d N), (cleanLegend traces)[i]? = some t →
      (cleanLegend traces)[j]? = some u → u.showlegend = true → t.name = u.name → ¬ i < j := by
    intro i j t u ht hu hus hname hlt
    have hi : ∃ t0, traces[i]? = some t0 := by
      rw [cleanLegend, cleanLegendFrom_spec] at ht
      cases h : traces[i]? with
      | none => rw [h] at ht; cases ht
      | some t0 => exact ⟨t0, rfl⟩
    have hj : ∃ u0, traces[j]? = some u0 := by
      rw [cleanLegend, cleanLegendFrom_spec] at hu
      cases h : traces[j]? with
      | none => rw [h] at hu; cases hu
      | some u0 => exact ⟨u0, rfl⟩
    obtain ⟨t0, ht0⟩ := hi
    obtain ⟨u0, hu0⟩ := hj
    obtain ⟨t1, h1, h2, -⟩ := (C125_legend traces).2 i t0 ht0
    obtain ⟨u1, h3, h4, h5⟩ := (C125_legend traces).2 j u0 hu0
    rw [ht] at h1; cases h1
    rw [hu] at h3; cases h3
    exact (h5.1 hus).2 i t0 hlt ht0 (by rw [← h2, ← h4, hname])
  rcases Nat.lt_trichotomy i j with h | h | h
  · exact absurd h (key i j t u ht hu hus hname)
  · exact h
  · exact absurd h (key j i u t hu ht hts hname.symm)

/-- C125: a name that occurs is in the legend if and only if its first trace was to be shown there. -/
theorem C125_name_shown (traces : List (Trace2d N)) (i : Nat) (t : Trace2d N) (ht : traces[i]? = some t)
    (hfirst : ∀ (j : Nat) (u : Trace2d N), j < i → traces[j]? = some u → u.name ≠ t.name) :
    (∃ (k : Nat) (u : Trace2d N), (cleanLegend traces)[k]? = some u ∧ u.showlegend = true ∧ u.name = t.name)
      ↔ t.showlegend = true := by
  constructor
  · rintro ⟨k, u, hu, hus, hname⟩
    have hk : ∃ u0, traces[k]? = some u0 := by
      rw [cleanLegend, cleanLegendFrom_spec] at hu
      cases h : traces[k]? with
      | none => rw [h] at hu; cases hu
      | some u0 => exact ⟨u0, rfl⟩
    obtain ⟨u0, hu0⟩ := hk
    obtain ⟨u1, h3, h4, h5⟩ := (C125_legend traces).2 k u0 hu0
    rw [hu] at h3; cases h3
    obtain ⟨h6, h7⟩ := h5.1 hus
    rcases Nat.lt_trichotomy i k with h | h | h
    · exact absurd (by rw [← h4, hname]) (h7 i t h ht)
    · subst h
      rw [hu0] at ht; cases ht
      exact h6
    · exact absurd (by rw [← h4, hname]) (hfirst k u0 h hu0)
  · intro hs
    obtain ⟨t', h1, h2, h3⟩ := (C125_legend traces).2 i t ht
    exact ⟨i, t', h1, h3.2 ⟨hs, hfirst⟩, h2⟩

/-- Two columns with the traces of the sample, of the criterion and of the clusters: every name stays once. -/
example : (cleanLegend [⟨"new", true⟩, ⟨"new ", false⟩, ⟨"s=1*n", true⟩, ⟨"s=1*n", false⟩,
    ⟨"existing", true⟩, ⟨"new", true⟩, ⟨"new ", false⟩, ⟨"s=1*n", true⟩]).map Trace2d.showlegend
      = [true, false, true, false, true, false, false, false] := by decide

end legend

/-! ## C126 -/

section second

variable {K : Type} [Field K] [LinearOrder K] {n m N : Nat}

/-- Specification: the model has square terms. -/
def HasSquareTerms (v : VectorModel K n m) : Prop := ∃ h, v.squareTerms = some h

/-- C126: names and models are told apart; everything else raises a `TypeError`. -/
theorem C126_check (s : ScalarModel K n) (v : VectorModel K n m) (name : String) :
    isSecondOrder (.name name : ModelOrInfo K n m) = .ok (decide (name = "quadratic")) ∧
    (isSecondOrder (.scalar s : ModelOrInfo K n m) = .ok true ↔ ∃ h, s.squareTerms = some h) ∧
    (isSecondOrder (.scalar s : ModelOrInfo K n m) = .ok false →
      ∀ x, s.predict x = dot x s.linearTerms + s.intercept) ∧
    (isSecondOrder (.vector v) = .ok true ↔ HasSquareTerms v) ∧
    isSecondOrder (.other : ModelOrInfo K n m) = .error .typeError := by
  refine ⟨rfl, ?_, ?_, ?_, rfl⟩
  · cases h : s.squareTerms <;> simp [isSecondOrder, h]
  · cases h : s.squareTerms <;> simp [isSecondOrder, h, ScalarModel.predict]
  · cases h : v.squareTerms <;> simp [isSecondOrder, h, HasSquareTerms]

theorem modelOfCoef_secondOrder (mt : ModelType) (coef : Fin m → Vec K (nCols n mt)) (shift scale : Vec K n) :
    isSecondOrder (.vector (modelOfCoef mt coef shift scale)) =
      isSecondOrder (.name mt.name : ModelOrInfo K n m) := by
  cases mt <;> simp [isSecondOrder, modelOfCoef, ModelType.name]

theorem add_secondOrder {a b v : VectorModel K n m} (h : a.add b = .ok v) :
    isSecondOrder (.vector v) = isSecondOrder (.vector a) := by
  unfold VectorModel.add at h
  split at h
  · cases h
  · split at h
    · cases h
    · obtain ⟨sq, h1, h⟩ := bindOk h
      cases h
      cases ha : a.squareTerms <;> cases hb : b.squareTerms <;> rw [ha, hb] at h1 <;> cases h1 <;>
        simp [isSecondOrder, ha]

/-- C126: moving a model to another region keeps the answer. -/
theorem C126_move (cr : K → K) (v : VectorModel K n m) (new : Region K n) :
    isSecondOrder (.vector (v.move cr new)) = isSecondOrder (.vector v) := by
  cases h : v.squareTerms <;>
    simp [isSecondOrder, VectorModel.move, VectorModel.scaleBy, VectorModel.shiftBy, h]

/-- C126: a fitted model has second order terms if and only if its model type says so, with and without
residualizing. -/
theorem C126_fit (b : BuiltinSettings K n m) (region : Region K n) (old v : VectorModel K n m)
    (xs : Fin N → Vec K n) (y : Fin N → Fin m → XVal K) (h : builtinFitTemplate b region old xs y = .ok v) :
    isSecondOrder (.vector v) = isSecondOrder (.name b.modelType.name : ModelOrInfo K n m) := by
  unfold builtinFitTemplate at h
  split at h
  · cases h
  · obtain ⟨coef, -, h⟩ := bindOk h
    split at h
    · rw [add_secondOrder h, modelOfCoef_secondOrder]
    · cases h
      exact modelOfCoef_secondOrder _ _ _ _

/-- C126: the scalar models that the solvers receive always have second order terms, whatever was fitted. -/
theorem C126_aggregate (name : String) (v : VectorModel K n m) (s : ScalarModel K n)
    (h : aggregate name v = .ok s) : isSecondOrder (.scalar s : ModelOrInfo K n m) = .ok true := by
  have hw : ∀ terms, isSecondOrder (.scalar (aggregateWith v terms) : ModelOrInfo K n m) = .ok true :=
    fun _ => rfl
  unfold aggregate at h
  split at h
  · unfold aggregatorIdentity at h
    split at h
    · cases h; exact hw _
    · cases h
  · split at h
    · unfold aggregatorSum at h
      split at h
      · cases h
      · cases h; exact hw _
    · split at h
      · cases h; exact hw _
      · split at h
        · cases h; exact hw _
        · cases h

/-- C126 over whole runs with the built in components: the model of every state has second order terms. -/
theorem C126_states [IsStrictOrderedRing K] [FloorRing K] (c : Config K) (b : BuiltinSettings K n m)
    (x : Vec K n) (radius : K) (bounds : Bounds K n) (r : Run K n (VectorModel K n m) (ScalarModel K n))
    (h : tranquiloR c (builtinComponents b) x radius bounds = .ok r) :
    ∀ s ∈ r.states, ∃ h, s.model.squareTerms = some h := by
  have key : ∀ (v : VectorModel K n m) (s : ScalarModel K n), aggregate b.aggregator v = .ok s → ∃ h, s.squareTerms = some h := by
    intro v s hs
    exact ((C126_check s v "").2.1).1 (C126_aggregate _ v s hs)
  refine tranquiloR_invariant (P := fun r => ∀ s ∈ r.states, ∃ h, s.model.squareTerms = some h) ?_ ?_ h
  · intro r0 h0 s hs
    unfold startRunR at h0
    obtain ⟨sm, h1, h0⟩ := bindOk h0
    cases h0
    rw [List.mem_singleton] at hs
    subst hs
    exact key _ _ h1
  · intro it r r' hp hit s hs
    unfold iterationR at hit
    obtain ⟨p, h1, hit⟩ := bindOk hit
    obtain ⟨sigma, h2, hit⟩ := bindOk hit
    obtain ⟨d, h3, hit⟩ := bindOk hit
    obtain ⟨next, h4, hit⟩ := bindOk hit
    cases hit
    have hst : (endIterationR c (builtinComponents b) r.state (stateR r.state r.nEvals p.1 p.2 d.2)
        (r.states ++ [stateR r.state r.nEvals p.1 p.2 d.2]) d.1 d.2 next).states
        = r.states ++ [stateR r.state r.nEvals p.1 p.2 d.2] := by
      unfold endIterationR
      dsimp only
      split
      · rfl
      · split <;> rfl
    rw [hst, List.mem_append, List.mem_singleton] at hs
    rcases hs with hs | rfl
    · exact hp s hs
    · obtain ⟨-, log', is, vm, -, h5⟩ := buildPhaseR_solved h1
      exact key _ _ h5

/-- Runs that meet the hypothesis exist for all safe settings and start vectors in the bounds, whatever the criterion. -/
example [IsStrictOrderedRing K] [FloorRing K] {c : Config K} {b : BuiltinSettings K n m} {bounds : Bounds K n}
    (h : SafeSettings c b bounds) (hcfg : SafeConfig c bounds) (x : Vec K n) (hx : InBounds bounds x)
    (radius : K) (hrad : 0 < radius) :
    ∃ r, tranquiloR c (builtinComponents b) x radius bounds = .ok r ∧
      ∀ s ∈ r.states, ∃ h, s.model.squareTerms = some h := by
  obtain ⟨r, hr, -⟩ := C98_builtin_run_partial h hcfg x hx radius hrad
  exact ⟨r, hr, C126_states c b x radius bounds r hr⟩

/-- A linear model of three residuals; the aggregator for least squares adds second order terms. -/
def linearExample : VectorModel ℚ 2 3 := ⟨fun _ => 1, fun _ _ => 2, none, fun _ => 0, fun _ => 1⟩

example : isSecondOrder (.vector linearExample) = .ok false ∧
    ∃ s, aggregate "least_squares_linear" linearExample = .ok s ∧
      isSecondOrder (.scalar s : ModelOrInfo ℚ 2 3) = .ok true := by
  have h : ∃ s, aggregate "least_squares_linear" linearExample = .ok s := ⟨_, rfl⟩
  obtain ⟨s, hs⟩ := h
  exact ⟨rfl, s, hs, C126_aggregate _ _ s hs⟩

end second

end Tranquilo
