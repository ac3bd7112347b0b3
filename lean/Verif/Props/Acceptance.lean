import Verif.Lemmas.Acceptance
import Verif.Spec.Region
import Mathlib.Tactic.Positivity
import Mathlib.Tactic.NormNum

/-!
# Properties C11 - C17: acceptance decisions
-/

namespace Tranquilo

variable {K : Type} [Field K] [LinearOrder K] [IsStrictOrderedRing K] {n : Nat}

/-! ## C11 -/

/-- C11, classic decider: a step is accepted iff the (one) value found at the new point is finite and
improves the current value by at least `min_improvement`; then the new state is the candidate with its
value. `h` is the history before the step; the criterion is called once. -/
theorem C11_classic_accepts_iff_improved (nrm : Vec K n → K) (oracle : Oracle K n) (m : K)
    (sub : SubSolution K n) (old : Current K n) (h : Log K n) (hw : h.WF) :
    let v := oracle h.evals.length sub.x
    let res := (acceptClassic nrm oracle m sub old h).2
    (res.accepted = true ↔ ImprovesBy m old.fval v) ∧
    (res.accepted = true → res.x = sub.x ∧ res.fval = v ∧ res.index = h.xs.length) := by
  intro v res
  have hres : res = _ := congrArg Prod.snd (acceptSimple_one nrm oracle m sub old h hw)
  have hs := finish_spec nrm sub.x v h.xs.length
    (calculateRho (-(v - old.fval)) sub.expectedImprovement)
    (decide (XVal.fin m ≤ -(v - old.fval))) old 1
  rw [hres]
  refine ⟨?_, fun hacc => ?_⟩
  · rw [hs.1, ← improves_iff, decide_eq_true_eq, and_comm]
  · have := hs.2.1 hacc
    exact ⟨this.1, this.2.1, this.2.2.1⟩

theorem C11_classic_never_worse (nrm : Vec K n → K) (oracle : Oracle K n) (m : K) (hm : 0 ≤ m)
    (sub : SubSolution K n) (old : Current K n) (h : Log K n) (hw : h.WF)
    (hacc : (acceptClassic nrm oracle m sub old h).2.accepted = true) :
    (acceptClassic nrm oracle m sub old h).2.fval ≤ old.fval := by
  obtain ⟨h1, h2⟩ := C11_classic_accepts_iff_improved nrm oracle m sub old h hw
  rw [(h2 hacc).2.1]
  exact improves_le hm (h1.1 hacc)

/-! ## C14 -/

/-- C14, thresholds: for a nonnegative expected improvement, any threshold and a finite actual
improvement. -/
theorem C14_threshold (actual expected t : K) (he : 0 ≤ expected) :
    XVal.fin t ≤ calculateRho (.fin actual) expected ↔
      t * expected ≤ actual ∧ ¬ (expected = 0 ∧ actual = 0) := by
  unfold calculateRho XVal.divBy
  by_cases h0 : expected = 0
  · subst h0
    by_cases ha : 0 < actual
    · simp [ha, ha.le, ha.ne']
    · simp only [true_and, XVal.fin_lt_fin, ha, if_false, if_true, XVal.fin_le_ninf, false_iff,
        mul_zero, not_and, not_not]
      exact fun h => le_antisymm (not_lt.1 ha) h
  · have hp : 0 < expected := lt_of_le_of_ne he (Ne.symm h0)
    simp only [h0, false_and, if_false, XVal.fin_le_fin, not_false_eq_true, and_true]
    rw [le_div_iff₀ hp]

/-- C14, sign. -/
theorem C14_sign (actual expected : K) (he : 0 ≤ expected) :
    XVal.fin 0 < calculateRho (.fin actual) expected ↔ 0 < actual := by
  unfold calculateRho XVal.divBy
  by_cases h0 : expected = 0
  · subst h0
    by_cases ha : 0 < actual
    · simp [ha]
    · simp [ha]
  · have hp : 0 < expected := lt_of_le_of_ne he (Ne.symm h0)
    simp only [h0, false_and, if_false, XVal.fin_lt_fin]
    exact div_pos_iff_of_pos_right hp

omit [IsStrictOrderedRing K] in
/-- C14, a step with zero expected improvement never has a finite rho. -/
theorem C14_zero_expected (actual : XVal K) :
    (XVal.fin 0 < actual → calculateRho actual 0 = .pinf) ∧
    (¬ (XVal.fin 0 < actual) → calculateRho actual 0 = .ninf) := by
  constructor <;> intro h <;> simp [calculateRho, h]

omit [IsStrictOrderedRing K] in
/-- C14, infinite values: an infinite current value gives `rho = +inf`. -/
theorem C14_infinite_start (a expected : K) (he : 0 ≤ expected) :
    calculateRho (-(.fin a - .pinf)) expected = .pinf := by
  unfold calculateRho
  by_cases h0 : expected = 0
  · rw [if_pos ⟨h0, trivial⟩]
  · rw [if_neg (by simp [h0]), if_neg h0]
    have : 0 < expected := lt_of_le_of_ne he (Ne.symm h0)
    show XVal.divBy .pinf expected = _
    simp [XVal.divBy, this]

/-- C14, signs in general: rho is positive if and only if the actual and the expected improvement have the
same sign, also for infinite actual improvements; with zero expected improvement the actual one decides. -/
theorem C14_sign_general (actual : XVal K) (expected : K) :
    XVal.fin 0 < calculateRho actual expected ↔
      (XVal.fin 0 < actual ∧ 0 ≤ expected) ∨ (actual < XVal.fin 0 ∧ expected < 0) := by
  unfold calculateRho XVal.divBy
  rcases lt_trichotomy expected 0 with h | h | h
  · cases actual <;> simp [h, h.ne, h.not_ge, h.not_gt, div_pos_iff]
  · subst h
    cases actual <;> simp
    split <;> simp_all
  · cases actual <;> simp [h, h.ne', h.le, h.not_gt, div_pos_iff]

/-! ## C15, and C11 for the line search -/

section lineSearch

variable (nrm : Vec K n → K) (cr : K → K) (oracle : Oracle K n) (sample : Sampler K n)
  (radiusFactor m : K) (b : Nat) (sub : SubSolution K n) (old : Current K n) (h : Log K n)

omit [IsStrictOrderedRing K] in
theorem lineSearchPoints_length (hb : 2 ≤ b) (hs : ∀ l r k xs, (sample l r k xs).length = k) :
    (lineSearchPoints nrm cr sample radiusFactor b sub old h).length = b := by
  have hg : (alphaGrid (K := K) b).length = min b 4 - 1 := by simp [alphaGrid]
  unfold lineSearchPoints lineSearchXs speculativeSample
  simp only [List.length_cons, List.length_append]
  by_cases hbd : isOnBorder nrm cr old.trustregion sub.x (1 / 10) = true
  · simp only [hbd, if_true]
    have h1 : (sampleOnLine old.x sub.x (alphaGrid b)).length = min b 4 - 1 := by
      simp [sampleOnLine, hg]
    split
    · rw [hs, h1]; omega
    · rw [h1, List.length_nil]; omega
  · simp only [hbd]
    simp only [Bool.false_eq_true, if_false, List.length_nil]
    split
    · rw [hs]; omega
    · simp; omega

/-- C15, first half: with `batch_size = b >= 2` exactly `b` points are added to the history, the first
one being the candidate, and each of them is evaluated exactly once and nothing else is evaluated. -/
theorem C15_line_search_spends_one_batch (hb : 2 ≤ b)
    (hs : ∀ l r k xs, (sample l r k xs).length = k) :
    ∃ pts : List (Vec K n), pts.length = b ∧ pts[0]? = some sub.x ∧
      (acceptLineSearch nrm cr oracle sample radiusFactor m b sub old h).1 =
        { xs := h.xs ++ pts
          evals := h.evals ++ pts.mapIdx
            fun j x => (h.xs.length + j, oracle (h.evals.length + j) x) } :=
  ⟨lineSearchPoints nrm cr sample radiusFactor b sub old h,
    lineSearchPoints_length nrm cr sample radiusFactor b sub old h hb hs, rfl,
    lineSearch_log nrm cr oracle sample radiusFactor m b sub old h (by omega)⟩

/-- C15, second half: an accepted value belongs to one of the evaluations just made and no other new
evaluation has a smaller value. `C11` for the line search: it improves by at least `min_improvement`.
(`acceptLineSearch … = (h', res)`; the evaluations just made are the ones in `h'` behind those of
`h`.) -/
theorem C15_accepts_the_best (hb : 2 ≤ b) (hw : h.WF) (h' : Log K n) (res : AcceptanceResult K n)
    (hres : acceptLineSearch nrm cr oracle sample radiusFactor m b sub old h = (h', res))
    (hacc : res.accepted = true) :
    (res.index, res.fval) ∈ h'.evals.drop h.evals.length ∧ h'.xs[res.index]? = some res.x ∧
    (∀ p ∈ h'.evals.drop h.evals.length, p.2 ≠ .nan → res.fval ≤ p.2) ∧
    ImprovesBy m old.fval res.fval := by
  obtain ⟨j, x, v, acc, rho, hjx, hv, hacc', hrho, hdec, hnan, hbest⟩ :=
    lineSearch_best nrm cr oracle sample radiusFactor m b sub old h (by omega) hw
  have hlog := lineSearch_log nrm cr oracle sample radiusFactor m b sub old h (by omega)
  rw [hres] at hdec hlog
  simp only at hdec hlog
  have hs := finish_spec nrm x v (h.xs.length + j) rho acc old 1
  rw [← hdec] at hs
  obtain ⟨hs1, hs2, -⟩ := hs
  obtain ⟨hx, hf, hi, -⟩ := hs2 hacc
  obtain ⟨ha, hfin⟩ := hs1.1 hacc
  have hvn : v ≠ .nan := by intro he; rw [he] at hfin; simp at hfin
  rw [hlog, hx, hf, hi]
  simp only [List.drop_left]
  refine ⟨?_, by simp [List.getElem?_append_right, hjx], ?_, ?_⟩
  · rw [List.mem_mapIdx]
    obtain ⟨hj, hjx'⟩ := List.getElem?_eq_some_iff.1 hjx
    exact ⟨j, hj, by rw [hjx', hv]⟩
  · intro p hp hpn
    rw [List.mem_mapIdx] at hp
    obtain ⟨k, hk, rfl⟩ := hp
    exact hbest hvn k _ (List.getElem?_eq_getElem hk) hpn
  · rw [← improves_iff]
    exact ⟨hfin, hacc'.1 ha⟩

/-- C11 for the line search: an accepted value is finite and improves the current value by at least
`min_improvement`. -/
theorem C11_line_search_accepted_improved (hb : 2 ≤ b) (hw : h.WF) (h' : Log K n)
    (res : AcceptanceResult K n)
    (hres : acceptLineSearch nrm cr oracle sample radiusFactor m b sub old h = (h', res))
    (hacc : res.accepted = true) : ImprovesBy m old.fval res.fval :=
  (C15_accepts_the_best nrm cr oracle sample radiusFactor m b sub old h hb hw h' res hres hacc).2.2.2

/-- C11 for the line search, converse direction: if the candidate's value is not NaN, no new value is
`-inf`, and some new point improves by at least `min_improvement`, then the step is accepted. -/
theorem C11_line_search_accepts (hb : 2 ≤ b) (hw : h.WF) (h' : Log K n) (res : AcceptanceResult K n)
    (hres : acceptLineSearch nrm cr oracle sample radiusFactor m b sub old h = (h', res))
    (hc : oracle h.evals.length sub.x ≠ .nan)
    (hninf : ∀ p ∈ h'.evals.drop h.evals.length, p.2 ≠ .ninf)
    (himp : ∃ p ∈ h'.evals.drop h.evals.length, ImprovesBy m old.fval p.2) :
    res.accepted = true := by
  obtain ⟨j, x, v, acc, rho, hjx, hv, hacc', hrho, hdec, hnan, hbest⟩ :=
    lineSearch_best nrm cr oracle sample radiusFactor m b sub old h (by omega) hw
  have hlog := lineSearch_log nrm cr oracle sample radiusFactor m b sub old h (by omega)
  rw [hres] at hdec hlog
  simp only at hdec hlog
  rw [hlog] at hninf himp
  simp only [List.drop_left] at hninf himp
  have hs := finish_spec nrm x v (h.xs.length + j) rho acc old 1
  rw [← hdec] at hs
  obtain ⟨hj, hjx'⟩ := List.getElem?_eq_some_iff.1 hjx
  have hvn : v ≠ .nan := fun he => hc (hnan.1 he)
  have hvm : v ≠ .ninf := by
    have := hninf (h.xs.length + j, v) (by
      rw [List.mem_mapIdx]; exact ⟨j, hj, by rw [hjx', hv]⟩)
    exact this
  obtain ⟨p, hp, a, hpa, hold⟩ := himp
  rw [List.mem_mapIdx] at hp
  obtain ⟨k, hk, rfl⟩ := hp
  have hle := hbest hvn k _ (List.getElem?_eq_getElem hk) (by
    simp only at hpa; rw [hpa]; simp)
  simp only at hpa
  rw [hpa] at hle
  have himp : ImprovesBy m old.fval v := by
    cases hvc : v with
    | fin c =>
      rw [hvc] at hle
      simp only [XVal.fin_le_fin] at hle
      refine ⟨c, rfl, hold.imp id ?_⟩
      rintro ⟨b', hb1, hb2⟩
      exact ⟨b', hb1, by linarith⟩
    | pinf => rw [hvc] at hle; simp at hle
    | ninf => exact absurd hvc hvm
    | nan => exact absurd hvc hvn
  rw [hs.1, hacc']
  exact (improves_iff m old.fval v).2 himp |>.symm

end lineSearch

/-! ## C12, C13: all deciders -/

/-- The outcomes of the four acceptance deciders for all options. -/
inductive Decides [FloorRing K] (nrm : Vec K n → K) (oracle : Oracle K n) (sub : SubSolution K n)
    (old : Current K n) (h : Log K n) : Log K n → AcceptanceResult K n → Prop
  | classic (m : K) : Decides nrm oracle sub old h
      (acceptClassic nrm oracle m sub old h).1 (acceptClassic nrm oracle m sub old h).2
  | naive (m : K) : Decides nrm oracle sub old h
      (acceptNaiveNoisy nrm oracle m sub old h).1 (acceptNaiveNoisy nrm oracle m sub old h).2
  | noisy (m s z1 z2 : K) (n1 n2 : Nat) : Decides nrm oracle sub old h
      (acceptNoisy nrm oracle m s z1 z2 n1 n2 sub old h).1
      (acceptNoisy nrm oracle m s z1 z2 n1 n2 sub old h).2
  | lineSearch (cr : K → K) (sample : Sampler K n) (rf m : K) (b : Nat) : Decides nrm oracle sub old h
      (acceptLineSearch nrm cr oracle sample rf m b sub old h).1
      (acceptLineSearch nrm cr oracle sample rf m b sub old h).2

omit [IsStrictOrderedRing K] in
theorem acceptSimple_finish (nrm : Vec K n → K) (oracle : Oracle K n) (m : K) (ne : Nat)
    (sub : SubSolution K n) (old : Current K n) (h : Log K n) :
    ∃ cx ci rho acc ne', (acceptSimple nrm oracle m ne sub old h).1.xs[ci]? = some cx ∧
      h.xs.length ≤ ci ∧ (acceptSimple nrm oracle m ne sub old h).2
        = finishDecision nrm cx (XVal.mean ((acceptSimple nrm oracle m ne sub old h).1.fvals ci)) ci
          rho acc old ne' := by
  refine ⟨sub.x, h.xs.length, _, _, _, ?_, le_refl _, rfl⟩
  simp [acceptSimple, Log.addX]

/-- Every decider ends with the common last step; the candidate is a stored point and its value is the
mean of the values recorded for it. -/
theorem decides_finish [FloorRing K] {nrm : Vec K n → K} {oracle : Oracle K n} {sub : SubSolution K n}
    {old : Current K n} {h h' : Log K n} {res : AcceptanceResult K n} (hw : h.WF)
    (hd : Decides nrm oracle sub old h h' res) :
    ∃ cx ci rho acc ne, h'.xs[ci]? = some cx ∧ h.xs.length ≤ ci ∧
      res = finishDecision nrm cx (XVal.mean (h'.fvals ci)) ci rho acc old ne := by
  cases hd with
  | classic m =>
    exact acceptSimple_finish nrm oracle m 1 sub old h
  | naive m =>
    exact acceptSimple_finish nrm oracle m 10 sub old h
  | noisy m s z1 z2 n1 n2 =>
    refine ⟨sub.x, h.xs.length, _, _, _, ?_, le_refl _, rfl⟩
    simp [acceptNoisy, Log.addX]
  | lineSearch cr sample rf m b =>
    by_cases hb : b = 1
    · subst hb
      have he : acceptLineSearch nrm cr oracle sample rf m 1 sub old h
          = acceptSimple nrm oracle m 1 sub old h := by
        unfold acceptLineSearch acceptClassic; rw [if_pos rfl]
      rw [he]
      exact acceptSimple_finish nrm oracle m 1 sub old h
    · obtain ⟨j, x, v, acc, rho, hjx, hv, hacc', hrho, hdec, hnan, hbest⟩ :=
        lineSearch_best nrm cr oracle sample rf m b sub old h hb hw
      have hlog := lineSearch_log nrm cr oracle sample rf m b sub old h hb
      obtain ⟨hj, hjx'⟩ := List.getElem?_eq_some_iff.1 hjx
      have hval := lineSearch_value oracle h _ hw j hj
      rw [← hlog, hjx', ← hv] at hval
      refine ⟨x, h.xs.length + j, rho, acc, 1, ?_, Nat.le_add_right _ _, by rw [hval, hdec]⟩
      rw [hlog]
      simp [List.getElem?_append_right, hjx]

/-- C12: a rejected step changes neither the point nor its index nor its value, and its length is 0. -/
theorem C12_rejected_changes_nothing [FloorRing K] {nrm : Vec K n → K} (hn : nrm (fun _ => 0) = 0)
    {oracle : Oracle K n} {sub : SubSolution K n} {old : Current K n} {h h' : Log K n}
    {res : AcceptanceResult K n} (hw : h.WF) (hd : Decides nrm oracle sub old h h' res)
    (hrej : res.accepted = false) :
    res.x = old.x ∧ res.fval = old.fval ∧ res.index = old.index ∧ res.stepLength = 0 := by
  obtain ⟨cx, ci, rho, acc, ne, -, -, rfl⟩ := decides_finish hw hd
  obtain ⟨-, -, h3, -⟩ := finish_spec nrm cx (XVal.mean (h'.fvals ci)) ci rho acc old ne
  have := h3 hrej
  exact ⟨this.1, this.2.1, this.2.2.1, by rw [this.2.2.2, hn]⟩

/-- C12: the reported step lengths of every decision. The step length is the distance between the points
before and after the decision, the relative step length is its ratio to the radius (for the radius zero,
as numpy divides: infinite for a step, NaN without). -/
theorem C12_step_lengths [FloorRing K] {nrm : Vec K n → K} {oracle : Oracle K n} {sub : SubSolution K n}
    {old : Current K n} {h h' : Log K n} {res : AcceptanceResult K n} (hw : h.WF)
    (hd : Decides nrm oracle sub old h h' res) :
    res.stepLength = nrm (fun i => res.x i - old.x i) ∧
    (old.trustregion.radius ≠ 0 → ∃ q, res.relativeStepLength = .fin q ∧
      q * old.trustregion.radius = res.stepLength) ∧
    (old.trustregion.radius = 0 → (0 < res.stepLength → res.relativeStepLength = .pinf) ∧
      (res.stepLength = 0 → res.relativeStepLength = .nan)) := by
  obtain ⟨cx, ci, rho, acc, ne, -, -, rfl⟩ := decides_finish hw hd
  have h1 : ∀ cx ci fv rho acc,
      (getAcceptanceResult nrm cx fv ci rho acc old ne).stepLength =
        nrm (fun i => (getAcceptanceResult nrm cx fv ci rho acc old ne).x i - old.x i) ∧
      (getAcceptanceResult nrm cx fv ci rho acc old ne).relativeStepLength =
        XVal.divFin (getAcceptanceResult nrm cx fv ci rho acc old ne).stepLength old.trustregion.radius :=
    fun _ _ _ _ _ => ⟨rfl, rfl⟩
  have h2 : ∀ r : AcceptanceResult K n,
      r.stepLength = nrm (fun i => r.x i - old.x i) ∧
      r.relativeStepLength = XVal.divFin r.stepLength old.trustregion.radius →
      r.stepLength = nrm (fun i => r.x i - old.x i) ∧
      (old.trustregion.radius ≠ 0 → ∃ q, r.relativeStepLength = .fin q ∧
        q * old.trustregion.radius = r.stepLength) ∧
      (old.trustregion.radius = 0 → (0 < r.stepLength → r.relativeStepLength = .pinf) ∧
        (r.stepLength = 0 → r.relativeStepLength = .nan)) := by
    rintro r ⟨ha, hb⟩
    refine ⟨ha, fun hr => ⟨r.stepLength / old.trustregion.radius, ?_, div_mul_cancel₀ _ hr⟩,
      fun hr => ⟨fun hs => ?_, fun hs => ?_⟩⟩
    · rw [hb, XVal.divFin, if_neg hr]
    · rw [hb, XVal.divFin, if_pos hr, if_pos hs]
    · rw [hb, XVal.divFin, if_pos hr, hs, if_neg (lt_irrefl _), if_neg (lt_irrefl _)]
  apply h2
  unfold finishDecision
  split <;> exact h1 _ _ _ _ _

/-- C13, first half: an accepted point is one that was added in this step, its reported value is the
mean of the values recorded for it, and it is finite. -/
theorem C13_accepted_is_finite [FloorRing K] {nrm : Vec K n → K}
    {oracle : Oracle K n} {sub : SubSolution K n} {old : Current K n} {h h' : Log K n}
    {res : AcceptanceResult K n} (hw : h.WF) (hd : Decides nrm oracle sub old h h' res)
    (hacc : res.accepted = true) :
    (∃ a, res.fval = .fin a) ∧ res.fval = XVal.mean (h'.fvals res.index) ∧
      h'.xs[res.index]? = some res.x ∧ h.xs.length ≤ res.index := by
  obtain ⟨cx, ci, rho, acc, ne, hx, hle, rfl⟩ := decides_finish hw hd
  obtain ⟨h1, h2, -⟩ := finish_spec nrm cx (XVal.mean (h'.fvals ci)) ci rho acc old ne
  have h2 := h2 hacc
  rw [h2.1, h2.2.1, h2.2.2.1]
  exact ⟨(XVal.isFinite_iff _).1 (h1.1 hacc).2, rfl, hx, hle⟩

/-- C13, second half: if none of the new points has a finite mean value then the step is rejected and
`rho` is `-inf`. -/
theorem C13_nonfinite_rejected [FloorRing K] {nrm : Vec K n → K}
    {oracle : Oracle K n} {sub : SubSolution K n} {old : Current K n} {h h' : Log K n}
    {res : AcceptanceResult K n} (hw : h.WF) (hd : Decides nrm oracle sub old h h' res)
    (hall : ∀ i, h.xs.length ≤ i → ¬ ∃ a, XVal.mean (h'.fvals i) = .fin a) :
    res.accepted = false ∧ res.rho = .ninf := by
  obtain ⟨cx, ci, rho, acc, ne, hx, hle, rfl⟩ := decides_finish hw hd
  have hf : (XVal.mean (h'.fvals ci)).isFinite = false := by
    cases hc : (XVal.mean (h'.fvals ci)).isFinite
    · rfl
    · exact absurd ((XVal.isFinite_iff _).1 hc) (hall ci hle)
  obtain ⟨-, -, -, h4, -⟩ := finish_spec nrm cx (XVal.mean (h'.fvals ci)) ci rho acc old ne
  exact ⟨(h4 hf).1, (h4 hf).2.1⟩

/-- C13, the consequence for the region: after such a step (`rho = -inf`, and no increase of the number
of evaluations) the region shrinks by the shrinking factor, down to `min_radius`. -/
theorem C13_region_shrinks (o : RadiusOptions K) (radius step : K)
    (hratio : ∀ r, o.maxRadiusToStepRatio ≠ .fin r) (h0 : 0 ≤ radius) (hs : o.shrinkingFactor ≤ 1)
    (hmin : o.minRadius ≤ o.maxRadius) (hmax : radius ≤ o.maxRadius) :
    adjustRadius radius .ninf step o false = max (radius * o.shrinkingFactor) o.minRadius := by
  have h1 : radius * o.shrinkingFactor ≤ o.maxRadius :=
    (mul_le_of_le_one_right h0 hs).trans hmax
  unfold adjustRadius
  simp only [XVal.fin_le_ninf, false_and, if_false, false_or, Bool.false_eq_true]
  cases h : o.maxRadiusToStepRatio with
  | fin r => exact absurd h (hratio r)
  | _ => exact min_eq_left (max_le h1 hmin)

/-! ## C16 -/

/-- C16, the case in which the claim holds: if the candidate satisfies the bounds, the sampler only
returns points that satisfy the bounds of its region, and, in case the candidate lies on the border of
the region, the farthest point of the line search satisfies the bounds, then all points satisfy them.
Missing for the full claim: the code never clips the points on the line to the bounds, see the witness
below. -/
theorem C16_line_search_in_bounds_partial (nrm : Vec K n → K) (cr : K → K) (oracle : Oracle K n)
    (sample : Sampler K n) (rf m : K) (b : Nat) (hb : 2 ≤ b) (sub : SubSolution K n) (old : Current K n)
    (h : Log K n)
    (hs : ∀ l (r : Region K n) k xs, InBounds r.bounds r.center →
      ∀ y ∈ sample l r k xs, InBounds r.bounds y)
    (hx : InBounds old.trustregion.bounds old.x) (hc : InBounds old.trustregion.bounds sub.x)
    (hfar : isOnBorder nrm cr old.trustregion sub.x (1 / 10) = true →
      InBounds old.trustregion.bounds fun i => old.x i + 2 ^ (min b 4 - 1) * (sub.x i - old.x i)) :
    ∀ y ∈ (acceptLineSearch nrm cr oracle sample rf m b sub old h).1.xs.drop h.xs.length,
      InBounds old.trustregion.bounds y := by
  rw [lineSearch_log nrm cr oracle sample rf m b sub old h (by omega)]
  simp only [List.drop_left]
  intro y hy
  rcases List.mem_cons.1 hy with rfl | hy
  · exact hc
  unfold lineSearchXs at hy
  simp only at hy
  rcases List.mem_append.1 hy with hy | hy
  · split at hy
    · rename_i hbd
      have hf := hfar hbd
      simp only [sampleOnLine, alphaGrid, List.map_map, List.mem_map, List.mem_range,
        Function.comp_apply] at hy
      obtain ⟨k, hk, rfl⟩ := hy
      have h1 : (0 : K) ≤ 2 ^ (k + 1) := by positivity
      have h2 : (2 : K) ^ (k + 1) ≤ 2 ^ (min b 4 - 1) :=
        pow_le_pow_right₀ (by norm_num) (by omega)
      refine fun i => ⟨fun l hl => ?_, fun u hu => ?_⟩
      · have a1 := (hx i).1 l hl
        have a2 := (hf i).1 l hl
        simp only at a2 ⊢
        rcases le_total 0 (sub.x i - old.x i) with hd | hd
        · have := mul_nonneg h1 hd; linarith
        · have := mul_le_mul_of_nonpos_right h2 hd; linarith
      · have a1 := (hx i).2 u hu
        have a2 := (hf i).2 u hu
        simp only at a2 ⊢
        rcases le_total 0 (sub.x i - old.x i) with hd | hd
        · have := mul_le_mul_of_nonneg_right h2 hd; linarith
        · have := mul_nonpos_of_nonneg_of_nonpos h1 hd; linarith
    · simp at hy
  · generalize (if isOnBorder nrm cr old.trustregion sub.x (1 / 10) = true
      then sampleOnLine old.x sub.x (alphaGrid b) else []) = line at hy
    by_cases hk : 0 < b - 1 - line.length
    · rw [if_pos hk] at hy
      exact hs _ { old.trustregion with center := sub.x, radius := rf * old.trustregion.radius } _ _ hc
        y hy
    · rw [if_neg hk] at hy
      simp at hy

/-- The situation of the witness for C16. -/
def c16Region : Region ℚ 1 :=
  { center := fun _ => 0, radius := 1, bounds := ⟨fun _ => none, fun _ => some (3 / 2)⟩ }

/-- C16 is false of the code: one parameter with upper bound 3/2, current point 0, radius 1, candidate
1. Center and candidate are feasible, but the line search evaluates the criterion at 2. -/
theorem C16_violated_beyond_bound :
    InBounds c16Region.bounds (fun _ => (0 : ℚ)) ∧ InBounds c16Region.bounds (fun _ => (1 : ℚ)) ∧
    ∃ y ∈ (acceptLineSearch (fun x : Vec ℚ 1 => |x 0|) id (fun _ _ => .fin 0) (fun _ _ _ _ => []) 5 0 2
        ⟨fun _ => 1, 1⟩ ⟨c16Region, fun _ => 0, .fin 1, 0⟩ ⟨[fun _ => 0], [(0, .fin 1)]⟩).1.xs,
      ¬ InBounds c16Region.bounds y := by
  refine ⟨fun i => ⟨fun l hl => by simp [c16Region] at hl, fun u hu => ?_⟩,
    fun i => ⟨fun l hl => by simp [c16Region] at hl, fun u hu => ?_⟩, ?_⟩
  · simp only [c16Region, Option.some.injEq] at hu; rw [← hu]; norm_num
  · simp only [c16Region, Option.some.injEq] at hu; rw [← hu]; norm_num
  · have hbd : isOnBorder (fun x : Vec ℚ 1 => |x 0|) id c16Region (fun _ => 1) (1 / 10) = true := by
      decide +kernel
    refine ⟨fun _ => 0 + 2 ^ (0 + 1) * (1 - 0), ?_, ?_⟩
    · rw [lineSearch_log _ _ _ _ _ _ _ _ _ _ (by decide)]
      simp only [lineSearchPoints, lineSearchXs, hbd, if_true]
      simp [sampleOnLine, alphaGrid, List.range_succ]
    · intro hin
      have := (hin 0).2 (3 / 2) rfl
      norm_num at this

/-! ## C17 -/

/-- C17, accepted steps: the reported value is the mean of all evaluations recorded for the reported
point, the current point has been refreshed to the mean of all of its evaluations, and the former is
better than the latter by at least `min_improvement`. Missing for the full claim: rejected steps, see
the witness below. -/
theorem C17_accepted_partial [FloorRing K] (nrm : Vec K n → K) (oracle : Oracle K n) (m s z1 z2 : K)
    (nMin nMax : Nat) (sub : SubSolution K n) (old : Current K n) (h h' : Log K n) (hw : h.WF)
    (res : AcceptanceResult K n)
    (hres : acceptNoisy nrm oracle m s z1 z2 nMin nMax sub old h = (h', res))
    (hacc : res.accepted = true) :
    res.fval = XVal.mean (h'.fvals res.index) ∧ res.x = sub.x ∧
      ImprovesBy m (XVal.mean (h'.fvals old.index)) res.fval ∧
      ∃ l, h'.fvals old.index = h.fvals old.index ++ l := by
  have hd : Decides nrm oracle sub old h h' res := by
    have := Decides.noisy (nrm := nrm) (oracle := oracle) (sub := sub) (old := old) (h := h)
      m s z1 z2 nMin nMax
    rwa [hres] at this
  refine ⟨(C13_accepted_is_finite hw hd hacc).2.1, ?_⟩
  unfold acceptNoisy at hres
  simp only [Prod.mk.injEq] at hres
  obtain ⟨hh, hr⟩ := hres
  rw [hh] at hr
  have hs := finish_spec nrm sub.x (XVal.mean (h'.fvals h.xs.length)) h.xs.length
    (calculateRho (-(XVal.mean (h'.fvals h.xs.length) - XVal.mean (h'.fvals old.index)))
      sub.expectedImprovement)
    (decide (XVal.fin m ≤ -(XVal.mean (h'.fvals h.xs.length) - XVal.mean (h'.fvals old.index)))) old
    (getAcceptanceSampleSizes s ((h.addX sub.x).1.fvals old.index).length sub.expectedImprovement
      z1 z2 nMin nMax).2
  have hr' : res = _ := hr.symm
  rw [show (finishDecision nrm sub.x (XVal.mean (h'.fvals h.xs.length)) h.xs.length
    (calculateRho (-(XVal.mean (h'.fvals h.xs.length) - XVal.mean (h'.fvals old.index)))
      sub.expectedImprovement)
    (decide (XVal.fin m ≤ -(XVal.mean (h'.fvals h.xs.length) - XVal.mean (h'.fvals old.index)))) old
    (getAcceptanceSampleSizes s ((h.addX sub.x).1.fvals old.index).length sub.expectedImprovement
      z1 z2 nMin nMax).2) = res from hr] at hs
  obtain ⟨h1, h2⟩ := hs.1.1 hacc
  obtain ⟨hx, hf, -⟩ := hs.2.1 hacc
  refine ⟨hx, ?_, ?_⟩
  · rw [hf, ← improves_iff]
    exact ⟨h2, by simpa using h1⟩
  · rw [← hh]
    exact Log.fvals_evaluate_prefix _ _ _ _

/-- C17 is false for rejected steps: the current point (value 0 in the first evaluation) is
re-evaluated with result 10, so the mean of its evaluations is no longer 0, but the reported value after
the rejected step is still 0. -/
theorem C17_violated_by_rejected_step :
    let out := acceptNoisy (fun x : Vec ℚ 1 => |x 0|) (fun _ _ => .fin 10) 0 1 1 1 2 6
      ⟨fun _ => 1, 1⟩ ⟨⟨fun _ => 0, 1, ⟨fun _ => none, fun _ => none⟩⟩, fun _ => 0, .fin 0, 0⟩
      ⟨[fun _ => 0], [(0, .fin 0)]⟩
    out.2.accepted = false ∧ out.2.index = 0 ∧ out.2.fval = .fin 0 ∧
      XVal.mean (out.1.fvals 0) ≠ .fin 0 := by
  decide +kernel

/-! ## The hypotheses can be met -/

/-- The classic decider accepts a candidate that improves from 3 to 1. -/
example : (⟨[fun _ => 0], [(0, .fin 3)]⟩ : Log ℚ 1).WF ∧
    ImprovesBy (0 : ℚ) (.fin 3) (.fin 1) ∧
    (acceptClassic (fun x : Vec ℚ 1 => |x 0|) (fun _ _ => .fin 1) 0 ⟨fun _ => 1, 1⟩
      ⟨⟨fun _ => 0, 1, ⟨fun _ => none, fun _ => none⟩⟩, fun _ => 0, .fin 3, 0⟩
      ⟨[fun _ => 0], [(0, .fin 3)]⟩).2.accepted = true :=
  ⟨by intro p hp; simp at hp; subst hp; simp, ⟨1, rfl, Or.inr ⟨3, rfl, by norm_num⟩⟩, by decide +kernel⟩

/-- The line search with batch size 3 evaluates 1, 2, 4 and accepts the point 4. -/
example :
    let out := acceptLineSearch (fun x : Vec ℚ 1 => |x 0|) id (fun _ x => .fin (10 - x 0))
      (fun _ _ k _ => List.replicate k (fun _ => 0)) 5 0 3
      ⟨fun _ => 1, 1⟩ ⟨⟨fun _ => 0, 1, ⟨fun _ => none, fun _ => none⟩⟩, fun _ => 0, .fin 10, 0⟩
      ⟨[fun _ => 0], [(0, .fin 10)]⟩
    out.2.accepted = true ∧ out.2.fval = .fin 6 ∧ out.2.x 0 = 4 ∧ out.1.evals.length = 4 := by
  decide +kernel

/-- The noisy decider accepts, and all points of a step can have infinite values. -/
example :
    (acceptNoisy (fun x : Vec ℚ 1 => |x 0|) (fun _ x => .fin (10 - x 0)) 0 1 1 1 2 6
      ⟨fun _ => 1, 1⟩ ⟨⟨fun _ => 0, 1, ⟨fun _ => none, fun _ => none⟩⟩, fun _ => 0, .fin 10, 0⟩
      ⟨[fun _ => 0], [(0, .fin 10)]⟩).2.accepted = true ∧
    (acceptNoisy (fun x : Vec ℚ 1 => |x 0|) (fun _ _ => .pinf) 0 1 1 1 2 6
      ⟨fun _ => 1, 1⟩ ⟨⟨fun _ => 0, 1, ⟨fun _ => none, fun _ => none⟩⟩, fun _ => 0, .fin 10, 0⟩
      ⟨[fun _ => 0], [(0, .fin 10)]⟩).2.rho = .ninf := by
  decide +kernel

end Tranquilo
