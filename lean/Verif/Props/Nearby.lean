import Verif.Spec.Nearby
import Verif.Props.Limits
import Verif.Props.MainLoopRaise

/-!
# C135: runs evaluate only near the current point, and how far they get
-/

namespace Tranquilo

variable {K : Type} [Field K] [LinearOrder K] [IsStrictOrderedRing K] [FloorRing K] {n : Nat} {VM SM : Type}

omit [IsStrictOrderedRing K] [FloorRing K] in
/-- The distance of points that are reached in two steps. -/
theorem IsNorm.via {nrm : Vec K n → K} (h : IsNorm nrm) (a b y : Vec K n) :
    nrm (fun i => y i - a i) ≤ nrm (fun i => b i - a i) + nrm (fun i => y i - b i) := by
  refine le_of_eq_of_le ?_ (h.add _ _)
  congr 1
  funext i
  ring

omit [FloorRing K] in
theorem mem_alphaGrid {b : Nat} {a : K} (h : a ∈ alphaGrid (K := K) b) : 0 ≤ a ∧ a ≤ 8 := by
  unfold alphaGrid at h
  obtain ⟨k, hk, rfl⟩ := List.mem_map.1 h
  have hk' : k < 3 := by
    have := List.mem_range.1 hk
    omega
  constructor
  · positivity
  · have : k = 0 ∨ k = 1 ∨ k = 2 := by omega
    rcases this with rfl | rfl | rfl <;> norm_num

/-- The points of the line search. -/
theorem lineSearchXs_near {nrm : Vec K n → K} (hn : IsNorm nrm) {cr : K → K} {sample : Sampler K n} {q : K}
    {rf reach : K} (hrf : 0 ≤ rf) (hreach : 8 ≤ reach ∧ 1 + rf ≤ reach) {batch : Nat} {cx : Vec K n} {cur : Current K n}
    {h : Log K n} (hc : cur.trustregion.center = cur.x) (hr : 0 ≤ cur.trustregion.radius)
    (hcx : WithinRadii nrm q cur.trustregion cx)
    (hs : ∀ log (region : Region K n) k xs, region.bounds = cur.trustregion.bounds → 0 ≤ region.radius →
      ∀ y ∈ sample log region k xs, WithinRadii nrm q region y) (hq : 0 ≤ q) :
    ∀ y ∈ lineSearchXs nrm cr sample rf batch cx cur h, WithinRadii nrm (reach * q) cur.trustregion y := by
  intro y hy
  have hqr : 0 ≤ q * cur.trustregion.radius := mul_nonneg hq hr
  rcases List.mem_append.1 hy with hy | hy
  · split_ifs at hy
    · obtain ⟨a, ha, rfl⟩ := List.mem_map.1 hy
      obtain ⟨h0, h8⟩ := mem_alphaGrid ha
      unfold WithinRadii at hcx ⊢
      have e : (fun i => cur.x i + a * (cx i - cur.x i) - cur.trustregion.center i)
          = fun i => a * (cx i - cur.trustregion.center i) := by
        funext i
        rw [hc]
        ring
      rw [e, hn.smul a h0, mul_assoc]
      exact (mul_le_mul_of_nonneg_left hcx h0).trans (mul_le_mul_of_nonneg_right (h8.trans hreach.1) hqr)
    · cases hy
  · have key : ∀ np l, y ∈ speculativeSample nrm sample cx cur.trustregion np h l rf →
        WithinRadii nrm (reach * q) cur.trustregion y := by
      intro np l hy
      have := hs _ { cur.trustregion with center := cx, radius := rf * cur.trustregion.radius } _ _ rfl
        (mul_nonneg hrf hr) y hy
      unfold WithinRadii at this hcx ⊢
      dsimp only at this
      have h2 := hn.via cur.trustregion.center cx y
      have h3 : (1 + rf) * (q * cur.trustregion.radius) ≤ reach * (q * cur.trustregion.radius) :=
        mul_le_mul_of_nonneg_right hreach.2 hqr
      rw [mul_assoc]
      linarith
    split_ifs at hy <;> first | exact key _ _ hy | cases hy

omit [FloorRing K] in
theorem Reach.one_le {c : Config K} {bounds : Bounds K n} {reach : K} (h : Reach c bounds reach) : 1 ≤ reach := by
  rcases h with ⟨-, rfl⟩ | ⟨-, h, -⟩
  · exact le_rfl
  · linarith

/-- The points of an iteration. -/
theorem iterPoint_near {c : Config K} {comp : Components K n VM SM} {bounds : Bounds K n} {q reach : K}
    (hn : IsNorm comp.nrm) (hf : FilterSelects comp) (hq : 0 ≤ q) (hreach : Reach c bounds reach)
    (hs : ∀ it round log (region : Region K n) k xs, region.bounds = bounds → InBounds bounds region.center →
      0 ≤ region.radius → ∀ y ∈ comp.sample it round log region k xs,
        InBounds bounds y ∧ WithinRadii comp.nrm q region y)
    (hsol : ∀ m (region : Region K n), region.bounds = bounds → InBounds bounds region.center → 0 ≤ region.radius →
      InBounds bounds (comp.solve m region).x ∧ WithinRadii comp.nrm q region (comp.solve m region).x)
    {it : Nat} {r : Run K n VM SM} (hr : RunOk comp bounds r) (hx : InBounds bounds r.state.x)
    (hrad : 0 ≤ r.state.trustregion.radius) {y : Vec K n} (hy : IterPoint c comp it r y) :
    InBounds bounds y ∧ WithinRadii comp.nrm (reach * q) r.state.trustregion y := by
  have hqr : 0 ≤ q * r.state.trustregion.radius := mul_nonneg hq hrad
  have hce : InBounds bounds r.state.trustregion.center := by
    rw [hr.center]
    exact hx
  have hone : ∀ z, InBounds bounds z ∧ WithinRadii comp.nrm q r.state.trustregion z →
      InBounds bounds z ∧ WithinRadii comp.nrm (reach * q) r.state.trustregion z := by
    rintro z ⟨hb, hz⟩
    refine ⟨hb, ?_⟩
    unfold WithinRadii at hz ⊢
    have := mul_le_mul_of_nonneg_right hreach.one_le hqr
    rw [mul_assoc]
    linarith
  have hsub : InBounds bounds (theBuild c comp it r).sub.x ∧
      WithinRadii comp.nrm q r.state.trustregion (theBuild c comp it r).sub.x := by
    have hok := buildPhase_ok c comp it r.state r.log r.nEvals hf hr.point
    have hco : (theBuild c comp it r).sub = comp.solve (theBuild c comp it r).model r.state.trustregion := by
      have : theBuild c comp it r = buildModel comp r.state (theBuild c comp it r).log
        (theBuild c comp it r).modelXs (theBuild c comp it r).modelIndices := hok.coherent
      rw [this]
      rfl
    rw [hco]
    exact hsol _ _ hr.bounds hce hrad
  rcases hy with ⟨round, log, k, xs, hy⟩ | rfl | ⟨m, rf, hd, hb1, hy⟩
  · exact hone _ (hs it round log r.state.trustregion k xs hr.bounds hce hrad y hy)
  · exact hone _ hsub
  · rcases hreach with ⟨h | h, -⟩ | ⟨hno, h8, h⟩
    · exact absurd hd (h m rf)
    · exact absurd h hb1
    · exact ⟨hno y, lineSearchXs_near hn (h m rf hd).1 ⟨h8, (h m rf hd).2⟩ hr.center hrad hsub.2
        (fun log region k xs hb h0 y hy =>
          (hs it 0 log region k xs (hb.trans hr.bounds) (hno _) h0 y hy).2) hq y hy⟩

theorem near_aux {c : Config K} {comp : Components K n VM SM} {bounds : Bounds K n} {q reach : K}
    (hn : IsNorm comp.nrm) (hf : FilterSelects comp) (hq : 0 ≤ q) (hreach : Reach c bounds reach)
    (hlim : RadiusLimitsOk c.radius)
    (hs : ∀ it round log (region : Region K n) k xs, region.bounds = bounds → InBounds bounds region.center →
      0 ≤ region.radius → ∀ y ∈ comp.sample it round log region k xs,
        InBounds bounds y ∧ WithinRadii comp.nrm q region y)
    (hsol : ∀ m (region : Region K n), region.bounds = bounds → InBounds bounds region.center → 0 ≤ region.radius →
      InBounds bounds (comp.solve m region).x ∧ WithinRadii comp.nrm q region (comp.solve m region).x)
    (x : Vec K n) (hx : InBounds bounds x) (radius : K) (hr0 : 0 ≤ radius) :
    ∀ y ∈ (tranquilo c comp x radius bounds).log.xs, InBounds bounds y ∧
      (∃ s ∈ (tranquilo c comp x radius bounds).states, WithinRadii comp.nrm (reach * q) s.trustregion y) ∧
      comp.nrm (fun i => y i - x i) ≤ reach * q * sumRadii (tranquilo c comp x radius bounds).states := by
  have hrq : 0 ≤ reach * q := mul_nonneg (zero_le_one.trans hreach.one_le) hq
  refine (tranquilo_induction c comp x radius bounds
    (fun r => RunOk comp bounds r ∧ 0 ≤ r.state.trustregion.radius ∧ r.states ≠ [] ∧ ∀ y ∈ r.log.xs,
      InBounds bounds y ∧ (∃ s ∈ r.states, WithinRadii comp.nrm (reach * q) s.trustregion y) ∧
      comp.nrm (fun i => y i - x i) ≤ reach * q * sumRadii r.states)
    ⟨startRun_ok c comp x radius bounds, hr0, by simp [startRun], ?_⟩ ?_).2.2.2
  · intro y hy
    have : y = x := by simpa [startRun] using hy
    subst this
    refine ⟨hx, ⟨_, List.mem_singleton_self _, ?_⟩, ?_⟩
    · show comp.nrm (fun i => y i - y i) ≤ reach * q * radius
      simp only [sub_self, hn.zero]
      exact mul_nonneg hrq hr0
    · simp [sub_self, hn.zero, sumRadii, startRun]
  · rintro it r ⟨hr, hrad, hne, hin⟩
    have hg := iteration_grows c comp hf it r hr.point
    have hstates : (iteration c comp it r).states = r.states ++ [theState c comp it r] := by
      rw [iteration_eq]
    have hsum : sumRadii (iteration c comp it r).states = sumRadii r.states + r.state.trustregion.radius := by
      unfold sumRadii
      rw [hstates, List.tail_append_of_ne_nil hne, List.map_append, List.sum_append]
      simp [theState]
    have hcur : InBounds bounds r.state.x ∧ comp.nrm (fun i => r.state.x i - x i) ≤ reach * q * sumRadii r.states := by
      obtain ⟨hi, he⟩ := List.getElem?_eq_some_iff.1 hr.point
      rw [← he]
      exact ⟨(hin _ (List.getElem_mem hi)).1, (hin _ (List.getElem_mem hi)).2.2⟩
    refine ⟨iteration_ok c comp hf bounds it r hr, theRadius_nonneg c comp hlim hn.nonneg it r, by simp [hstates], ?_⟩
    rw [hsum, mul_add, hstates]
    have hpos : 0 ≤ reach * q * r.state.trustregion.radius := mul_nonneg hrq hrad
    refine (hg.mono (Q := fun y => InBounds bounds y ∧ (∃ s ∈ r.states ++ [theState c comp it r],
        WithinRadii comp.nrm (reach * q) s.trustregion y) ∧
      comp.nrm (fun i => y i - x i) ≤ reach * q * sumRadii r.states + reach * q * r.state.trustregion.radius)
      ?_).points ?_
    · intro y hy
      obtain ⟨hb, hw⟩ := iterPoint_near hn hf hq hreach hs hsol hr hcur.1 hrad hy
      refine ⟨hb, ⟨theState c comp it r, by simp, hw⟩, ?_⟩
      have h2 := hn.via x r.state.x y
      unfold WithinRadii at hw
      rw [hr.center] at hw
      linarith [hcur.2]
    · intro y hy
      obtain ⟨hb, ⟨s, hs1, hs2⟩, h⟩ := hin y hy
      exact ⟨hb, ⟨s, List.mem_append_left _ hs1, hs2⟩, by linarith⟩

/-- C135. If sampler and solver stay within `q` radii of the center, then every evaluated point is within `reach * q`
radii of the center of one of the trust regions, where `reach` is one without line search and at least eight and at
least one plus the factor of the speculative sample with it; and the distance of every evaluated point from the start is
at most `reach * q` times the sum of the radii of the iterations. -/
theorem C135_evaluations_stay_near {c : Config K} {ce : ComponentsR K n VM SM} {bounds : Bounds K n} {q reach : K}
    (hn : IsNorm ce.nrm) (hf : FilterSelectsR ce) (hq : 0 ≤ q) (hreach : Reach c bounds reach)
    (hlim : RadiusLimitsOk c.radius) (hnear : StaysNear ce bounds q) {x : Vec K n} (hx : InBounds bounds x) {radius : K}
    (hr0 : 0 ≤ radius) {r : Run K n VM SM} (hr : tranquiloR c ce x radius bounds = .ok r) :
    ∀ y ∈ r.log.xs, (∃ s ∈ r.states, WithinRadii ce.nrm (reach * q) s.trustregion y) ∧
      ce.nrm (fun i => y i - x i) ≤ reach * q * sumRadii r.states := by
  have hcenter : ∀ region : Region K n, 0 ≤ region.radius → WithinRadii ce.nrm q region region.center := by
    intro region h
    unfold WithinRadii
    simp only [sub_self, hn.zero]
    exact mul_nonneg hq h
  have h := near_aux (comp := ce.total (fallbackComponents ce r.state.model)) (bounds := bounds) hn
    (total_filterSelects _ hf) hq hreach hlim ?_ ?_ x hx radius hr0
  · rw [tranquiloR_ok (ce.total_realizes _) hr] at h
    exact fun y hy => (h y hy).2
  · intro it round log region k xs hb hin h0 y hy
    simp only [ComponentsR.total, fallbackComponents] at hy
    cases hs : ce.sample it round log region k xs with
    | ok ys =>
      rw [hs] at hy
      exact hnear.sample it round log region k xs ys hb hin h0 hs y hy
    | error e =>
      rw [hs] at hy
      rw [List.eq_of_mem_replicate hy]
      exact ⟨hin, hcenter region h0⟩
  · intro m region hb hin h0
    simp only [ComponentsR.total, fallbackComponents]
    cases hs : ce.solve m region with
    | ok sub => exact hnear.solve m region sub hb hin h0 hs
    | error e => exact ⟨hin, hcenter region h0⟩

omit [FloorRing K] in
theorem sumRadii_le {states : List (LoopState K n VM SM)} {top : K} (h : ∀ s ∈ states, s.trustregion.radius ≤ top) :
    sumRadii states ≤ ((states.length - 1 : Nat) : K) * top := by
  unfold sumRadii
  have := List.sum_le_card_nsmul (states.tail.map fun s => s.trustregion.radius) top (by
    intro a ha
    obtain ⟨s, hs, rfl⟩ := List.mem_map.1 ha
    exact h s (List.mem_of_mem_tail hs))
  simpa [nsmul_eq_mul] using this

/-- C135: with radii up to `top`, no evaluated point is farther from the start than the number of iterations times `top`,
times the factors of the line search and of the solver. -/
theorem C135_distance_from_start {c : Config K} {ce : ComponentsR K n VM SM} {bounds : Bounds K n} {q reach : K}
    (hn : IsNorm ce.nrm) (hf : FilterSelectsR ce) (hq : 0 ≤ q) (hreach : Reach c bounds reach)
    (hlim : RadiusLimitsOk c.radius) (hnear : StaysNear ce bounds q) {x : Vec K n} (hx : InBounds bounds x) {radius : K}
    (hr0 : 0 ≤ radius) {r : Run K n VM SM} (hr : tranquiloR c ce x radius bounds = .ok r) {top : K}
    (htop : ∀ s ∈ r.states, s.trustregion.radius ≤ top) :
    ∀ y ∈ r.log.xs, ce.nrm (fun i => y i - x i) ≤ reach * q * (((r.states.length - 1 : Nat) : K) * top) := by
  intro y hy
  refine (C135_evaluations_stay_near hn hf hq hreach hlim hnear hx hr0 hr y hy).2.trans ?_
  exact mul_le_mul_of_nonneg_left (sumRadii_le htop) (mul_nonneg (zero_le_one.trans hreach.one_le) hq)

/-! ## A run that attains the bounds -/

/-- Components that make steps of one radius downwards. -/
def stepComponents : ComponentsR ℚ 1 ℚ ℚ :=
  { toyComponentsR (fun _ v => .fin (v 0)) with
    sample := fun _ _ _ region k _ => .ok (List.replicate k fun i => region.center i + region.radius)
    solve := fun _ region => .ok { x := fun i => region.center i - region.radius, expectedImprovement := 1 } }

/-- The points and the radii of the iterations of a run. -/
def pointsAndRadii (r : Except Err (Run ℚ 1 ℚ ℚ)) : Option (List ℚ × List ℚ) :=
  match r with
  | .ok r => some (r.log.xs.map fun v => v 0, r.states.map fun s => s.trustregion.radius)
  | .error _ => none

/-- The hypotheses of `C135_evaluations_stay_near` hold for these components. -/
example : IsNorm stepComponents.nrm ∧ FilterSelectsR stepComponents ∧ StaysNear stepComponents noBounds 1 ∧
    RadiusLimitsOk (toyConfig 3 100 2 (.classic 0)).radius ∧
    Reach (toyConfig 3 100 2 (.classic 0)) noBounds 1 ∧ Reach (toyConfig 1 100 4 (.lineSearch 0 1)) noBounds 8 := by
  have hno : ∀ y, InBounds noBounds y := fun y i => ⟨(fun _ h => by cases h), (fun _ h => by cases h)⟩
  refine ⟨⟨?_, ?_, ?_, ?_⟩, ?_, ⟨?_, ?_⟩, ⟨?_, ?_, ?_⟩, .inl ⟨.inl ?_, rfl⟩, .inr ⟨hno, le_rfl, ?_⟩⟩
  · simp [stepComponents, toyComponentsR]
  · exact fun v => abs_nonneg _
  · exact fun v w => abs_add_le _ _
  · intro a ha v
    show |a * v 0| = a * |v 0|
    rw [abs_mul, abs_of_nonneg ha]
  · intro state log target ne l r hr
    have : r = keepAll (l.map Prod.fst) (l.map Prod.snd) := by
      simpa [stepComponents, toyComponentsR, eq_comm] using hr
    exact ⟨l, List.subset_cons_self _ _, this⟩
  · intro it round log region k xs ys hb hc hr hys y hy
    have : ys = List.replicate k fun i => region.center i + region.radius := by
      simpa [stepComponents, eq_comm] using hys
    rw [this] at hy
    rw [List.eq_of_mem_replicate hy]
    refine ⟨hno _, ?_⟩
    show |region.center 0 + region.radius - region.center 0| ≤ 1 * region.radius
    rw [add_sub_cancel_left, abs_of_nonneg hr, one_mul]
  · intro m region sub hb hc hr hsub
    have : sub = { x := fun i => region.center i - region.radius, expectedImprovement := 1 } := by
      simpa [stepComponents, eq_comm] using hsub
    subst this
    refine ⟨hno _, ?_⟩
    show |region.center 0 - region.radius - region.center 0| ≤ 1 * region.radius
    rw [sub_sub_cancel_left, abs_neg, abs_of_nonneg hr, one_mul]
  · norm_num [toyConfig, RadiusOptions.default]
  · norm_num [toyConfig, RadiusOptions.default]
  · intro q hq
    simp [toyConfig, RadiusOptions.default] at hq
  · intro m rf h
    cases h
  · intro m rf h
    cases h
    norm_num

/-- C135: the bounds are attained. After three iterations with radii 1, 2 and 4 the run is at distance 7 from the start;
and the line search evaluates a point that is eight radii away from the center. -/
theorem C135_bounds_are_attained :
    pointsAndRadii (tranquiloR (toyConfig 3 100 2 (.classic 0)) stepComponents (fun _ => 0) 1 noBounds)
      = some ([0, 1, 1, -1, -3, -7], [1, 1, 2, 4]) ∧
    pointsAndRadii (tranquiloR (toyConfig 1 100 4 (.lineSearch 0 1)) stepComponents (fun _ => 0) 1 noBounds)
      = some ([0, 1, 1, 1, 1, -1, -2, -4, -8], [1, 1]) := by
  constructor <;> decide +kernel

end Tranquilo
