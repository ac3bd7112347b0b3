import Verif.Model.BntrNp
import Verif.Props.SlowSolvers
import Verif.Props.Bntr
import Verif.Props.ConjugateGradient

/-!
# C73 for bntr: the version for numpy follows the version for numba
-/

namespace Tranquilo

variable {K : Type} [Field K] [LinearOrder K] [IsStrictOrderedRing K] {n : Nat}

/-- The text for the numbers of `bntr_fast.py` (lines 396, 941-961), as `bntr.py` has it. -/
def bntrMessage : Nat → String
  | 0 => "Continue iterating."
  | 1 => "Norm of the gradient is less than absolute_gradient_tolerance."
  | 2 => "Norm of the gradient relative to the criterion value is less than " ++
      "relative_gradient_tolerance."
  | 3 => "Norm of the gradient divided by norm of the gradient at the " ++
      "initial parameters is less than scaled_gradient_tolerance."
  | 4 => "Norm of the gradient divided by norm of the gradient at the " ++
      "initial parameters is less than scaled_gradient_tolerance."
  | 5 => "Criterion value is negative infinity."
  | _ => "Maximum number of iterations reached."

/-- If `fast` returns, then `slow` returns and the results are related. -/
def Follows {α β : Type} (P : α → β → Prop) (fast : Except Err α) (slow : Except Err β) : Prop :=
  ∀ a, fast = .ok a → ∃ b, slow = .ok b ∧ P a b

theorem Follows.bind {α β γ δ : Type} {P : α → β → Prop} {Q : γ → δ → Prop} {fast : Except Err α}
    {slow : Except Err β} {f : α → Except Err γ} {g : β → Except Err δ} (h : Follows P fast slow)
    (hf : ∀ a b, P a b → Follows Q (f a) (g b)) : Follows Q (fast >>= f) (slow >>= g) := by
  intro c hc
  cases ha : fast with
  | error e => rw [ha] at hc; cases hc
  | ok a =>
    obtain ⟨b, hb, hp⟩ := h a ha
    rw [ha] at hc
    obtain ⟨d, hd, hq⟩ := hf a b hp c hc
    exact ⟨d, by rw [hb]; exact hd, hq⟩

theorem Follows.ok {α β : Type} {P : α → β → Prop} {a : α} {b : β} (h : P a b) :
    Follows P (.ok a) (.ok b) := by
  intro c hc
  cases hc
  exact ⟨b, rfl, h⟩

theorem Follows.of_eq {α : Type} {fast slow : Except Err α} (h : slow = fast) :
    Follows (fun a b => b = a) fast slow := by
  intro a ha
  exact ⟨a, by rw [h, ha], rfl⟩

variable {l u : Vec K n}

omit [IsStrictOrderedRing K] in
theorem projectGradientNp_eq (x gr g : Vec K n) :
    projectGradientNp (activeSets x gr l u) g = projectGradient (activeBounds x gr l u).inactive g := by
  have hin := (C73_active_bounds l u x gr).2.2.1
  have key : ∀ idx : List (Fin n), idx = maskIndices (activeBounds x gr l u).inactive →
      setAt (fun _ => 0) idx (pickVec idx g) = projectGradient (activeBounds x gr l u).inactive g := by
    intro idx h; subst h; rfl
  exact key _ hin

omit [IsStrictOrderedRing K] in
theorem bntrConvergedNp_eq (root : K → K) (o : BntrOptions K) (x : Vec K n) (f : K)
    (g modelG l u : Vec K n) (converged : Bool) (reason : Nat) (niter : Option Nat) :
    bntrConvergedNp root o x f g modelG l u converged (bntrMessage reason) niter
      = ((bntrConverged root o x f g modelG l u converged reason niter).1,
        bntrMessage (bntrConverged root o x f g modelG l u converged reason niter).2) := by
  unfold bntrConvergedNp bntrConverged
  rw [C73_fischer_burmeister]
  dsimp only
  by_cases h1 : norm2 root (fbDirection root x g l u) < o.gtolAbs
  · simp only [if_pos h1]; rfl
  simp only [if_neg h1]
  by_cases h2 : f ≠ 0 ∧ |norm2 root (fbDirection root x g l u) / f| < o.gtolRel
  · simp only [if_pos h2]; rfl
  simp only [if_neg h2]
  by_cases h3 : norm2 root modelG ≠ 0 ∧
      norm2 root (fbDirection root x g l u) / norm2 root modelG < o.gtolScaled
  · simp only [if_pos h3]; rfl
  simp only [if_neg h3]
  by_cases h4 : norm2 root modelG ≠ 0 ∧ norm2 root (fbDirection root x g l u) = 0 ∧ o.gtolScaled = 0
  · simp only [if_pos h4]; rfl
  simp only [if_neg h4]
  by_cases h5 : niter = some o.maxiter
  · simp only [if_pos h5]; rfl
  · simp only [if_neg h5]

omit [IsStrictOrderedRing K] in
theorem gdStepNp_eq (hlu : ∀ i, l i ≤ u i) (eps f0 gradientNorm : K) (pg g : Vec K n) (h : Mat K n n)
    (mask : Fin n → Bool) (s : GdState K n) :
    gdStepNp eps f0 gradientNorm pg g h l u (maskIndices mask) s
      = gdStep eps f0 gradientNorm pg g h l u mask s := by
  simp only [gdStepNp, gdStep, C73_apply_bounds l u hlu]
  rfl

omit [IsStrictOrderedRing K] in
theorem gdLoopNp_eq (hlu : ∀ i, l i ≤ u i) (eps f0 gradientNorm : K) (pg g : Vec K n) (h : Mat K n n)
    (mask : Fin n → Bool) : ∀ k s, gdLoopNp eps f0 gradientNorm pg g h l u (maskIndices mask) k s
      = gdLoop eps f0 gradientNorm pg g h l u mask k s := by
  intro k
  induction k with
  | zero => intro s; rfl
  | succ k ih => intro s; simp only [gdLoopNp, gdLoop, gdStepNp_eq hlu, ih]

/-- States of the two versions that correspond to each other. -/
structure SameRun (l u : Vec K n) (s : BntrState K n) (t : BntrNpState K n) : Prop where
  x : t.x = s.x
  f : t.f = s.f
  gradient : t.gradient = s.gradient
  radius : t.radius = s.radius
  converged : t.converged = s.converged
  reason : t.reason = bntrMessage s.reason
  inBox : InBox l u s.x
  active : ∃ gr, t.active = activeSets s.x gr l u ∧ s.active = activeBounds s.x gr l u

theorem bntrPreliminary_follows (hlu : ∀ i, l i ≤ u i) (root : K → K) (eps : K) (o : BntrOptions K)
    (g : Vec K n) (h : Mat K n n) (x : Vec K n) (hx : InBox l u x) :
    Follows (SameRun l u) (bntrPreliminary root eps o g h l u x) (bntrPreliminaryNp root eps o g h l u x) := by
  unfold bntrPreliminary bntrPreliminaryNp
  have hin := (C73_active_bounds l u x g).2.2.1
  have hm : ("Continue iterating." : String) = bntrMessage 0 := rfl
  simp only [hm, bntrConvergedNp_eq, projectGradientNp_eq, hin, gradientDescentNp, gdLoopNp_eq hlu,
    C73_apply_bounds l u hlu]
  split
  · exact Follows.ok ⟨rfl, rfl, rfl, rfl, rfl, rfl, hx, g, rfl, rfl⟩
  · refine Follows.bind (Follows.of_eq rfl) fun d d' hd => ?_
    subst hd
    split
    · exact Follows.ok ⟨rfl, rfl, rfl, rfl, rfl, rfl, applyBounds_inBox l u _ hlu, _, rfl, rfl⟩
    · exact Follows.ok ⟨rfl, rfl, rfl, rfl, rfl, rfl, hx, g, rfl, rfl⟩

omit [IsStrictOrderedRing K] in
theorem freeStep_follows (root : K → K) {inner innerNp : InnerSolver K}
    (hinner : ∀ m g h r (l u : Vec K m), (∀ i, l i ≤ u i) →
      ∀ s, inner m g h r l u = .ok s → innerNp m g h r l u = .ok s)
    (hlu : ∀ i, l i ≤ u i) (g : Vec K n) (h : Mat K n n) (mask : Fin n → Bool) (radius : K) :
    Follows (fun a b => b = a) (freeStep root inner g h l u mask radius)
      (freeStepNp root innerNp g h l u (maskIndices mask) radius) := by
  have e : ∀ r, Follows (fun a b => b = a)
      (inner _ (maskVec mask g) (maskMat mask h) r (maskVec mask l) (maskVec mask u))
      (innerNp _ (pickVec (maskIndices mask) g) (pickMat (maskIndices mask) h) r
        (pickVec (maskIndices mask) l) (pickVec (maskIndices mask) u)) :=
    fun r s hs => ⟨s, hinner _ _ _ r _ _ (fun i => hlu _) s hs, rfl⟩
  unfold freeStepNp freeStep
  refine Follows.bind (e radius) fun s s' hs => ?_
  subst hs
  split
  · refine Follows.bind (e _) fun t t' ht => ?_
    subst ht
    split
    · intro c hc; cases hc
    · exact Follows.ok rfl
  · exact Follows.ok rfl

omit [IsStrictOrderedRing K] in
theorem active_nonempty_iff (x gr : Vec K n) :
    0 < (activeSets x gr l u).active.length
      ↔ (List.finRange n).any (fun i => !(activeBounds x gr l u).inactive i) = true := by
  rw [List.length_pos_iff_exists_mem, List.any_eq_true]
  refine exists_congr fun i => ?_
  simp only [activeSets, activeBounds, List.mem_filter, List.mem_finRange, true_and]
  generalize decide (x i ≤ l i) = a, decide (0 < gr i) = b, decide (u i ≤ x i) = c,
    decide (gr i < 0) = d, decide (l i = u i) = e
  revert a b c d e
  decide

/-- The candidate of the version for numba, in the form of `bntrCandidateNp`. -/
def bntrCandidate (root : K → K) (broadcast : Bool) (inner : InnerSolver K) (g : Vec K n) (h : Mat K n n)
    (l u x : Vec K n) (a : ActiveBounds n) (radius : K) : Except Err (Vec K n × K × K) := do
  let t ← trialStep root broadcast inner g h l u x a radius
  let step := boundedStep a l u x t.1
  .ok (step, predictedReduction g h a.inactive step t.1, t.2)

theorem bntrCandidate_aux (root : K → K) (broadcast : Bool) {inner innerNp : InnerSolver K}
    (hinner : ∀ m g h r (l u : Vec K m), (∀ i, l i ≤ u i) →
      ∀ s, inner m g h r l u = .ok s → innerNp m g h r l u = .ok s)
    (hlu : ∀ i, l i ≤ u i) (g : Vec K n) (h : Mat K n n) (x : Vec K n) (radius : K)
    (b : ActiveBounds n) (a : ActiveSets n) (hin : a.inactive = maskIndices b.inactive)
    (hact : 0 < a.active.length ↔ (List.finRange n).any (fun i => !b.inactive i) = true)
    (hstep : ∀ step : Vec K (maskIndices b.inactive).length,
      boundedStepNp a l u x (fun k => step (k.cast (by rw [hin]))) = boundedStep b l u x step) :
    Follows (fun a b => b = a) (bntrCandidate root broadcast inner g h l u x b radius)
      (bntrCandidateNp root innerNp g h l u x a radius) := by
  obtain ⟨lo, up, fi, ac, idx⟩ := a
  dsimp only at hin hact
  subst hin
  unfold bntrCandidate bntrCandidateNp
  refine Follows.bind (P := fun a b => b = a) ?_ fun t t' ht => ?_
  · unfold trialStep trialStepNp
    dsimp only
    split
    · split
      · rename_i h1
        rw [if_pos h1.1, C73_apply_bounds l u hlu]
        exact Follows.ok rfl
      · intro c hc; cases hc
    · exact freeStep_follows root hinner hlu g h b.inactive radius
  · subst ht
    have hs' : boundedStepNp ⟨lo, up, fi, ac, maskIndices b.inactive⟩ l u x t'.1
        = boundedStep b l u x t'.1 := hstep t'.1
    rw [hs']
    refine Follows.ok ?_
    dsimp only
    congr 2
    unfold predictedReductionNp predictedReduction
    dsimp only
    simp only [hact]
    rfl

theorem bntrCandidate_follows (root : K → K) (broadcast : Bool) {inner innerNp : InnerSolver K}
    (hinner : ∀ m g h r (l u : Vec K m), (∀ i, l i ≤ u i) →
      ∀ s, inner m g h r l u = .ok s → innerNp m g h r l u = .ok s)
    (hlu : ∀ i, l i ≤ u i) (g : Vec K n) (h : Mat K n n) (x gr : Vec K n) (hx : InBox l u x)
    (radius : K) :
    Follows (fun a b => b = a)
      (bntrCandidate root broadcast inner g h l u x (activeBounds x gr l u) radius)
      (bntrCandidateNp root innerNp g h l u x (activeSets x gr l u) radius) :=
  bntrCandidate_aux root broadcast hinner hlu g h x radius _ _ (C73_active_bounds l u x gr).2.2.1
    (active_nonempty_iff x gr) (C73_bounded_step l u x gr hx)

theorem cgUpdateRadiusNp_eq (eps f predicted actual stepNorm radius : K) :
    cgUpdateRadiusNp eps f predicted actual stepNorm radius
      = cgUpdateRadius eps f predicted actual stepNorm radius := rfl

theorem bntrTrial_eq (root : K → K) (eps : K) (broadcast : Bool) (inner : InnerSolver K)
    (o : BntrOptions K) (g : Vec K n) (h : Mat K n n) (niter : Nat) (s : BntrState K n) :
    bntrTrial root eps broadcast inner o g h l u niter s = (do
      let t ← bntrCandidate root broadcast inner s.gradient h l u s.x s.active s.radius
      let x := applyBounds l u fun i => s.x i + t.1 i
      let f := bntrCriterion x g h
      let r ← cgUpdateRadius eps f t.2.1 (s.f - f) t.2.2 s.radius
      if r.2 then
        let gradient : Vec K n := fun i => g i + matVec h x i
        let c := bntrConverged root o x f gradient g l u s.converged s.reason (some niter)
        .ok ({ x := x, f := f, gradient := gradient, radius := r.1, active := activeBounds x gradient l u
               converged := c.1, reason := c.2 }, true)
      else if r.1 = s.radius then .ok ({ s with converged := true }, false)
      else
        let c := bntrConverged root o s.x s.f s.gradient g l u s.converged s.reason (some niter)
        .ok ({ s with radius := r.1, converged := c.1, reason := c.2 }, false)) := by
  unfold bntrTrial bntrCandidate
  cases trialStep root broadcast inner s.gradient h l u s.x s.active s.radius <;> rfl

theorem bntrTrial_follows (root : K → K) (eps : K) (broadcast : Bool) {inner innerNp : InnerSolver K}
    (hinner : ∀ m g h r (l u : Vec K m), (∀ i, l i ≤ u i) →
      ∀ s, inner m g h r l u = .ok s → innerNp m g h r l u = .ok s)
    (hlu : ∀ i, l i ≤ u i) (o : BntrOptions K) (g : Vec K n) (h : Mat K n n) (niter : Nat)
    {s : BntrState K n} {t : BntrNpState K n} (hst : SameRun l u s t) :
    Follows (fun a b => SameRun l u a.1 b.1 ∧ b.2 = a.2)
      (bntrTrial root eps broadcast inner o g h l u niter s)
      (bntrTrialNp root eps innerNp o g h l u niter t) := by
  obtain ⟨gr, ha, hb⟩ := hst.active
  rw [bntrTrial_eq]
  unfold bntrTrialNp
  rw [hst.x, hst.gradient, hst.radius, hst.f, hst.converged, hst.reason, ha, hb]
  refine Follows.bind (bntrCandidate_follows root broadcast hinner hlu s.gradient h s.x gr hst.inBox
    s.radius) fun c c' hc => ?_
  subst hc
  dsimp only
  rw [C73_apply_bounds l u hlu, cgUpdateRadiusNp_eq]
  refine Follows.bind (Follows.of_eq rfl) fun r r' hr => ?_
  subst hr
  simp only [bntrConvergedNp_eq]
  split
  · exact Follows.ok ⟨⟨rfl, rfl, rfl, rfl, rfl, rfl, applyBounds_inBox l u _ hlu, _, rfl, rfl⟩, rfl⟩
  · split
    · exact Follows.ok ⟨⟨rfl, rfl, rfl, rfl, rfl, rfl, hst.inBox, gr, rfl, rfl⟩, rfl⟩
    · exact Follows.ok ⟨⟨rfl, rfl, rfl, rfl, rfl, rfl, hst.inBox, gr, rfl, rfl⟩, rfl⟩

/-- Related results of loops with a limit. -/
def SameOption {α β : Type} (P : α → β → Prop) : Option α → Option β → Prop
  | none, none => True
  | some a, some b => P a b
  | _, _ => False

theorem bntrInner_follows (root : K → K) (eps : K) (broadcast : Bool) {inner innerNp : InnerSolver K}
    (hinner : ∀ m g h r (l u : Vec K m), (∀ i, l i ≤ u i) →
      ∀ s, inner m g h r l u = .ok s → innerNp m g h r l u = .ok s)
    (hlu : ∀ i, l i ≤ u i) (o : BntrOptions K) (g : Vec K n) (h : Mat K n n) (niter : Nat) :
    ∀ fuel {s : BntrState K n} {t : BntrNpState K n}, SameRun l u s t →
    Follows (SameOption (SameRun l u))
      (bntrInner root eps broadcast inner o g h l u niter fuel s)
      (bntrInnerNp root eps innerNp o g h l u niter fuel t) := by
  intro fuel
  induction fuel with
  | zero => intro s t _; exact Follows.ok trivial
  | succ fuel ih =>
    intro s t hst
    unfold bntrInner bntrInnerNp
    refine Follows.bind (bntrTrial_follows root eps broadcast hinner hlu o g h niter hst)
      fun r r' hr => ?_
    rw [hr.2, hr.1.converged]
    split
    · exact Follows.ok hr.1
    · exact ih hr.1

theorem bntrOuter_follows (root : K → K) (eps : K) (broadcast : Bool) {inner innerNp : InnerSolver K}
    (hinner : ∀ m g h r (l u : Vec K m), (∀ i, l i ≤ u i) →
      ∀ s, inner m g h r l u = .ok s → innerNp m g h r l u = .ok s)
    (hlu : ∀ i, l i ≤ u i) (o : BntrOptions K) (g : Vec K n) (h : Mat K n n) (fuel : Nat) :
    ∀ k niter {s : BntrState K n} {t : BntrNpState K n}, SameRun l u s t →
    Follows (SameOption fun a b => SameRun l u a.1 b.1 ∧ b.2 = a.2)
      (bntrOuter root eps broadcast inner o g h l u fuel k niter s)
      (bntrOuterNp root eps innerNp o g h l u fuel k niter t) := by
  intro k
  induction k with
  | zero => intro niter s t hst; exact Follows.ok ⟨hst, rfl⟩
  | succ k ih =>
    intro niter s t hst
    unfold bntrOuter bntrOuterNp
    rw [hst.converged]
    split
    · exact Follows.ok ⟨hst, rfl⟩
    · refine Follows.bind (bntrInner_follows root eps broadcast hinner hlu o g h niter fuel hst)
        fun r r' hr => ?_
      cases r with
      | none =>
        cases r' with
        | none => exact Follows.ok trivial
        | some _ => exact hr.elim
      | some s' =>
        cases r' with
        | none => exact hr.elim
        | some t' => exact ih (niter + 1) hr

/-- The result of `bntr` that corresponds to a result of `bntr_fast`. -/
def BntrResult.withMessage (r : BntrResult K n) : BntrNpResult K n :=
  { x := r.x, criterion := r.criterion, nIterations := r.nIterations, success := r.success
    message := bntrMessage r.message }

/-- C73 for bntr: if `bntr_fast` returns, then `bntr` returns the same vector, criterion value, number of
iterations and flag, and the text of the same message; for all models, boxes and start vectors in the box,
for every inner solver whose version for
numpy returns what its version for numba returns. (`bntr_fast` may raise a `ZeroDivisionError` where `bntr` goes on
with infinite numbers; this is not compared.) -/
theorem C73_bntr (hlu : ∀ i, l i ≤ u i) (root : K → K) (eps : K) (broadcast : Bool)
    (inner innerNp : InnerSolver K)
    (hinner : ∀ m g h r (l u : Vec K m), (∀ i, l i ≤ u i) →
      ∀ s, inner m g h r l u = .ok s → innerNp m g h r l u = .ok s)
    (o : BntrOptions K) (fuel : Nat) (g : Vec K n) (h : Mat K n n) (x : Vec K n) (hx : InBox l u x)
    (r : Option (BntrResult K n))
    (hr : bntrFast root eps broadcast inner o fuel g h l u x = .ok r) :
    bntrNp root eps innerNp o fuel g h l u x = .ok (r.map BntrResult.withMessage) := by
  have key : Follows (fun a b => b = a.map BntrResult.withMessage)
      (bntrFast root eps broadcast inner o fuel g h l u x)
      (bntrNp root eps innerNp o fuel g h l u x) := by
    unfold bntrFast bntrNp
    refine Follows.bind (bntrPreliminary_follows hlu root eps o g h x hx) fun s t hst => ?_
    refine Follows.bind (bntrOuter_follows root eps broadcast hinner hlu o g h fuel _ 0 hst)
      fun q q' hq => ?_
    cases q with
    | none =>
      cases q' with
      | none => exact Follows.ok rfl
      | some _ => exact hq.elim
    | some a =>
      cases q' with
      | none => exact hq.elim
      | some b =>
        obtain ⟨h1, h2⟩ := hq
        obtain ⟨a1, a2⟩ := a
        obtain ⟨b1, b2⟩ := b
        dsimp only at h1 h2 ⊢
        refine Follows.ok ?_
        simp only [Option.map_some, BntrResult.withMessage, h1.x, h1.f, h1.converged, h1.reason, h2]
  obtain ⟨b, hb, hp⟩ := key r hr
  rw [hb, hp]

/-- C73 for bntr with the default inner solver. -/
theorem C73_bntr_cg (hlu : ∀ i, l i ≤ u i) (root : K → K) (eps gtolAbs gtolRel : K) (broadcast : Bool)
    (o : BntrOptions K) (fuel : Nat) (g : Vec K n) (h : Mat K n n) (x : Vec K n) (hx : InBox l u x)
    (r : Option (BntrResult K n))
    (hr : bntrFast root eps broadcast (innerCg root gtolAbs gtolRel) o fuel g h l u x = .ok r) :
    bntrNp root eps (innerCgNp root gtolAbs gtolRel) o fuel g h l u x
      = .ok (r.map BntrResult.withMessage) :=
  C73_bntr hlu root eps broadcast _ _
    (fun m g h r l u _ s hs => by
      simpa only [innerCg, innerCgNp, C73_conjugate_gradient] using hs) o fuel g h x hx r hr

/-- C73 for bntr with trsbox as inner solver. -/
theorem C73_bntr_trsbox [FloorSemiring K] (hlu : ∀ i, l i ≤ u i) (root : K → K) (eps : K)
    (broadcast : Bool) (o : BntrOptions K) (fuel : Nat) (g : Vec K n) (h : Mat K n n) (x : Vec K n)
    (hx : InBox l u x) (r : Option (BntrResult K n))
    (hr : bntrFast root eps broadcast (innerTrsbox root) o fuel g h l u x = .ok r) :
    bntrNp root eps (innerTrsboxNp root) o fuel g h l u x = .ok (r.map BntrResult.withMessage) :=
  C73_bntr hlu root eps broadcast _ _
    (fun m g h r l u hlu s hs => by
      simpa only [innerTrsbox, innerTrsboxNp, C73_trsbox root g h r l u hlu] using hs)
    o fuel g h x hx r hr

/-- C73 for Steihaug-Toint in one direction: what the version for numba returns, the version for numpy returns. -/
theorem C73_steihaug_returns_partial {root : K → K} (hroot : SqrtSpec root)
    (pinvMul : Mat K n n → Vec K n → Vec K n) (g : Vec K n) (h : Mat K n n) (radius : K) (x : Vec K n)
    (hx : minimizeStFast root pinvMul g h radius = .ok x) :
    minimizeSt root pinvMul g h radius = some x := by
  by_cases hcurv : quadForm h (matVec h (pinvMul h fun i => -(g i))) = 0
  · rcases Nat.eq_zero_or_pos n with rfl | hn
    · have : minimizeSt root pinvMul g h radius = some fun _ => 0 := by
        simp only [minimizeSt, Nat.zero_min, stLoop]
        congr 1
        exact Subsingleton.elim _ _
      rw [this]
      congr 1
      exact Subsingleton.elim _ _
    · rw [C73_steihaug_raises pinvMul g h radius hn hcurv] at hx
      cases hx
  · obtain ⟨y, h1, h2⟩ := C73_steihaug_partial hroot pinvMul g h radius hcurv
    rw [h2] at hx
    cases hx
    exact h1

/-- C73 for bntr with Steihaug-Toint as inner solver. -/
theorem C73_bntr_steihaug (hlu : ∀ i, l i ≤ u i) {root : K → K} (hroot : SqrtSpec root) (eps : K)
    (pinvMul : ∀ m, Mat K m m → Vec K m → Vec K m) (broadcast : Bool)
    (o : BntrOptions K) (fuel : Nat) (g : Vec K n) (h : Mat K n n) (x : Vec K n) (hx : InBox l u x)
    (r : Option (BntrResult K n))
    (hr : bntrFast root eps broadcast (innerSt root pinvMul) o fuel g h l u x = .ok r) :
    bntrNp root eps (innerStNp root pinvMul) o fuel g h l u x = .ok (r.map BntrResult.withMessage) :=
  C73_bntr hlu root eps broadcast _ _
    (fun m g h r l u _ s hs => by
      simp only [innerSt] at hs
      simp only [innerStNp, C73_steihaug_returns_partial hroot _ _ _ _ _ hs]) o fuel g h x hx r hr

/-- A run of the version for numba and the corresponding run of the version for numpy. -/
example : (bntrNp (fun _ => 1) 0 exInner exBntr 35 (fun _ : Fin 1 => -1 / 2)
      (fun _ _ => 1) (fun _ => -1) (fun _ => 1) (fun _ => 0)).toOption.map
        (fun r => r.map fun r => (r.x 0, r.criterion)) = some (some (1 / 2, -1 / 8)) := by
  decide +kernel

example : (∀ i : Fin 1, (fun _ => -1 : Vec ℚ 1) i ≤ (fun _ => 1 : Vec ℚ 1) i) ∧
    InBox (fun _ : Fin 1 => (-1 : ℚ)) (fun _ => 1) (fun _ => 0) := by
  constructor
  · intro i; norm_num
  · intro i; norm_num

end Tranquilo
