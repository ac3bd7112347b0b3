import Verif.Lemmas.PermuteBuiltin
import Verif.Lemmas.Bntr
import Verif.Props.ConjugateGradient

/-!
# Subsolvers with the parameters in another order

Vectors of free parameters have a length that is computed. Therefore the lemmas are about an
equivalence `e` between the index sets of vectors whose lengths need not be equal by definition.
-/

namespace Tranquilo

variable {K : Type} [Field K] [LinearOrder K] [IsStrictOrderedRing K] {n p q : Nat}

/-! ### Conjugate gradients -/

/-- A vector with other positions. -/
abbrev along (e : Fin p ≃ Fin q) (v : Vec K q) : Vec K p := fun i => v (e i)

/-- A matrix with other positions. -/
abbrev alongMat (e : Fin p ≃ Fin q) (h : Mat K q q) : Mat K p p := fun i j => h (e i) (e j)

omit [LinearOrder K] [IsStrictOrderedRing K] in
theorem dot_along (e : Fin p ≃ Fin q) (v w : Vec K q) : dot (along e v) (along e w) = dot v w :=
  Equiv.sum_comp e fun i => v i * w i

omit [LinearOrder K] [IsStrictOrderedRing K] in
theorem matVec_along (e : Fin p ≃ Fin q) (h : Mat K q q) (d : Vec K q) :
    matVec (alongMat e h) (along e d) = along e (matVec h d) :=
  funext fun i => Equiv.sum_comp e fun j => h (e i) j * d j

omit [LinearOrder K] [IsStrictOrderedRing K] in
theorem quadForm_along (e : Fin p ≃ Fin q) (h : Mat K q q) (d : Vec K q) :
    quadForm (alongMat e h) (along e d) = quadForm h d := by
  simp only [quadForm]
  rw [← Equiv.sum_comp e fun j => (∑ i, d i * h i j) * d j]
  refine Finset.sum_congr rfl fun j _ => ?_
  rw [← Equiv.sum_comp e fun i => d i * h i (e j)]

omit [LinearOrder K] [IsStrictOrderedRing K] in
theorem norm2_along (root : K → K) (e : Fin p ≃ Fin q) (v : Vec K q) :
    norm2 root (along e v) = norm2 root v := by
  simp only [norm2, dot_along]

omit [IsStrictOrderedRing K] in
theorem cgLoop_along (root : K → K) (e : Fin p ≃ Fin q) (h : Mat K q q) (radius tol : K) (k : Nat) :
    ∀ s : CgState K q, cgLoop root (cgDistance root) cgUpdate (alongMat e h) radius tol k
        ⟨along e s.x, along e s.residual, along e s.direction⟩ =
      along e (cgLoop root (cgDistance root) cgUpdate h radius tol k s) := by
  induction k with
  | zero => exact fun s => rfl
  | succ k ih =>
    intro s
    have hd : cgDistance root (along e s.x) (along e s.direction) radius =
        cgDistance root s.x s.direction radius := by
      simp only [cgDistance, dot_along]
    have hu : ∀ alpha, cgUpdate (alongMat e h) ⟨along e s.x, along e s.residual, along e s.direction⟩
        alpha = ⟨along e (cgUpdate h s alpha).x, along e (cgUpdate h s alpha).residual,
          along e (cgUpdate h s alpha).direction⟩ := by
      intro alpha
      have hr : ∀ v w : Vec K q, (fun i => along e v i + alpha * along e w i) =
          along e fun i => v i + alpha * w i := fun _ _ => rfl
      simp only [cgUpdate, matVec_along, hr, dot_along]
    simp only [cgLoop, norm2_along, quadForm_along, dot_along, hd, hu]
    by_cases h1 : norm2 root s.residual ≤ tol
    · rw [if_pos h1, if_pos h1]
    · rw [if_neg h1, if_neg h1]
      by_cases h2 : quadForm h s.direction ≤ 0 ∨ cgDistance root s.x s.direction radius <
          dot s.residual s.residual / quadForm h s.direction
      · rw [if_pos h2, if_pos h2]
      · rw [if_neg h2, if_neg h2]
        exact ih _

omit [IsStrictOrderedRing K] in
theorem minimizeCg_along (root : K → K) (e : Fin p ≃ Fin q) (g : Vec K q) (h : Mat K q q)
    (radius gtolAbs gtolRel : K) :
    minimizeCg root (along e g) (alongMat e h) radius gtolAbs gtolRel =
      along e (minimizeCg root g h radius gtolAbs gtolRel) := by
  have hpq : p = q := by simpa using Fintype.card_congr e
  have hs : cgStart (along e g) = ⟨along e (cgStart g).x, along e (cgStart g).residual,
      along e (cgStart g).direction⟩ := rfl
  simp only [minimizeCg, norm2_along, hs, cgLoop_along, hpq]

/-! ### Masks -/

/-- Position `i` among the selected indices of the new problem is position `maskEquiv i` among those of the old
problem. -/
theorem exists_maskEquiv (σ : Equiv.Perm (Fin n)) (mask : Fin n → Bool) :
    ∃ e : Fin (maskIndices fun i => mask (σ i)).length ≃ Fin (maskIndices mask).length,
      ∀ k, (maskIndices mask).get (e k) = σ ((maskIndices fun i => mask (σ i)).get k) := by
  have h1 : ∀ k : Fin (maskIndices fun i => mask (σ i)).length,
      ∃ l, (maskIndices mask).get l = σ ((maskIndices fun i => mask (σ i)).get k) := by
    intro k
    refine List.get_of_mem ((mem_maskIndices mask _).2 ?_)
    exact (mem_maskIndices (fun i => mask (σ i)) _).1 (List.get_mem _ k)
  choose f hf using h1
  have hinj : ∀ {mask : Fin n → Bool}, Function.Injective (maskIndices mask).get := fun {mask} =>
    List.nodup_iff_injective_get.1 (nodup_maskIndices mask)
  refine ⟨Equiv.ofBijective f ⟨fun a b hab => ?_, fun l => ?_⟩, hf⟩
  · have := hf a
    rw [hab, hf b] at this
    exact (hinj (σ.injective this)).symm
  · have hm : σ.symm ((maskIndices mask).get l) ∈ maskIndices fun i => mask (σ i) := by
      rw [mem_maskIndices, Equiv.apply_symm_apply]
      exact (mem_maskIndices mask _).1 (List.get_mem _ l)
    obtain ⟨k, hk⟩ := List.get_of_mem hm
    refine ⟨k, hinj ?_⟩
    rw [hf, hk, Equiv.apply_symm_apply]

variable {σ : Equiv.Perm (Fin n)} {mask : Fin n → Bool}
  {e : Fin (maskIndices fun i => mask (σ i)).length ≃ Fin (maskIndices mask).length}

omit [LinearOrder K] [IsStrictOrderedRing K] in
theorem maskVec_permute (he : ∀ k, (maskIndices mask).get (e k) =
    σ ((maskIndices fun i => mask (σ i)).get k)) (v : Vec K n) :
    maskVec (fun i => mask (σ i)) (permute σ v) = along e (maskVec mask v) :=
  funext fun k => congrArg v (he k).symm

omit [LinearOrder K] [IsStrictOrderedRing K] in
theorem maskMat_permute (he : ∀ k, (maskIndices mask).get (e k) =
    σ ((maskIndices fun i => mask (σ i)).get k)) (h : Mat K n n) :
    maskMat (fun i => mask (σ i)) (fun i j => h (σ i) (σ j)) = alongMat e (maskMat mask h) :=
  funext fun k => funext fun l => by
    simp only [maskMat, alongMat, he]

omit [LinearOrder K] [IsStrictOrderedRing K] in
theorem unmask_permute (he : ∀ k, (maskIndices mask).get (e k) =
    σ ((maskIndices fun i => mask (σ i)).get k)) (v : Vec K (maskIndices mask).length) :
    unmask (fun i => mask (σ i)) (along e v) = permute σ (unmask mask v) := by
  funext i
  simp only [permute]
  by_cases hi : mask (σ i) = true
  · obtain ⟨k, hk⟩ := List.get_of_mem ((mem_maskIndices (fun i => mask (σ i)) i).2 hi)
    rw [← hk, unmask_get, ← he, unmask_get]
  · have hi : mask (σ i) = false := by simpa using hi
    rw [unmask_of_false _ _ _ hi, unmask_of_false (fun i => mask (σ i)) _ _ hi]

/-! ### The solver for boxes -/

/-- Active bounds in the new order. -/
def ActiveBounds.permute (σ : Equiv.Perm (Fin n)) (a : ActiveBounds n) : ActiveBounds n where
  lower i := a.lower (σ i)
  upper i := a.upper (σ i)
  fixed i := a.fixed (σ i)
  inactive i := a.inactive (σ i)

/-- A state of the solver in the new order. -/
def BntrState.permute (σ : Equiv.Perm (Fin n)) (s : BntrState K n) : BntrState K n :=
  { s with x := Tranquilo.permute σ s.x, gradient := Tranquilo.permute σ s.gradient,
           active := s.active.permute σ }

omit [LinearOrder K] [IsStrictOrderedRing K] in
theorem matVec_permute (h : Mat K n n) (d : Vec K n) :
    matVec (fun i j => h (σ i) (σ j)) (permute σ d) = permute σ (matVec h d) := matVec_along σ h d

omit [LinearOrder K] [IsStrictOrderedRing K] in
theorem bntrCriterion_along (e : Fin p ≃ Fin q) (x g : Vec K q) (h : Mat K q q) :
    bntrCriterion (along e x) (along e g) (alongMat e h) = bntrCriterion x g h := by
  simp only [bntrCriterion, dot_along, quadForm_along]

omit [LinearOrder K] [IsStrictOrderedRing K] in
theorem bntrCriterion_permute (x g : Vec K n) (h : Mat K n n) :
    bntrCriterion (permute σ x) (permute σ g) (fun i j => h (σ i) (σ j)) = bntrCriterion x g h :=
  bntrCriterion_along σ x g h

theorem bntrConverged_permute (root : K → K) (o : BntrOptions K) (x : Vec K n) (f : K)
    (g modelG l u : Vec K n) (converged : Bool) (reason : Nat) (niter : Option Nat) :
    bntrConverged root o (permute σ x) f (permute σ g) (permute σ modelG) (permute σ l) (permute σ u)
      converged reason niter = bntrConverged root o x f g modelG l u converged reason niter := by
  have h1 : fbDirection root (permute σ x) (permute σ g) (permute σ l) (permute σ u) =
    permute σ (fbDirection root x g l u) := rfl
  simp only [bntrConverged, h1, norm2_permute]

omit [IsStrictOrderedRing K] in
theorem projectGradient_permute (mask : Fin n → Bool) (g : Vec K n) :
    projectGradient (fun i => mask (σ i)) (permute σ g) = permute σ (projectGradient mask g) := by
  obtain ⟨e, he⟩ := exists_maskEquiv σ mask
  simp only [projectGradient, maskVec_permute he, unmask_permute he]

/-- A state of the gradient descent in the new order. -/
def GdState.permute (σ : Equiv.Perm (Fin n)) (s : GdState K n) : GdState K n :=
  { s with x := Tranquilo.permute σ s.x }

theorem gdStep_permute (eps f0 gn : K) (pg g : Vec K n) (h : Mat K n n) (l u : Vec K n)
    (inactive : Fin n → Bool) (s : GdState K n) :
    gdStep eps f0 gn (permute σ pg) (permute σ g) (fun i j => h (σ i) (σ j)) (permute σ l) (permute σ u)
      (fun i => inactive (σ i)) (s.permute σ) =
      (gdStep eps f0 gn pg g h l u inactive s).map (GdState.permute σ) := by
  obtain ⟨e, he⟩ := exists_maskEquiv σ inactive
  simp only [gdStep]
  rw [show (s.permute σ).radius = s.radius from rfl]
  cases checkedDiv s.radius gn with
  | error e => rfl
  | ok size =>
    have hx : (applyBounds (permute σ l) (permute σ u) fun i =>
        (s.permute σ).x i - size * permute σ pg i) =
        permute σ (applyBounds l u fun i => s.x i - size * pg i) := rfl
    have hd : ∀ y : Vec K n, (fun i => permute σ y i - (s.permute σ).x i) =
        permute σ fun i => y i - s.x i := fun _ => rfl
    simp only [bind, Except.bind, hx, hd, bntrCriterion_permute, maskVec_permute he,
      maskMat_permute he, quadForm_along]
    rw [show (s.permute σ).lower = s.lower from rfl]
    cases gdUpdateRadius eps s.radius s.lower _ _ gn with
    | error e => rfl
    | ok r => rfl

theorem gdLoop_permute (eps f0 gn : K) (pg g : Vec K n) (h : Mat K n n) (l u : Vec K n)
    (inactive : Fin n → Bool) (k : Nat) : ∀ s : GdState K n,
    gdLoop eps f0 gn (permute σ pg) (permute σ g) (fun i j => h (σ i) (σ j)) (permute σ l) (permute σ u)
      (fun i => inactive (σ i)) k (s.permute σ) =
      (gdLoop eps f0 gn pg g h l u inactive k s).map (GdState.permute σ) := by
  induction k with
  | zero => exact fun s => rfl
  | succ k ih =>
    intro s
    simp only [gdLoop, gdStep_permute]
    cases gdStep eps f0 gn pg g h l u inactive s with
    | error e => rfl
    | ok s' => exact ih s'

theorem bntrPreliminary_permute (root : K → K) (eps : K) (o : BntrOptions K) (g : Vec K n)
    (h : Mat K n n) (l u x : Vec K n) :
    bntrPreliminary root eps o (permute σ g) (fun i j => h (σ i) (σ j)) (permute σ l) (permute σ u)
      (permute σ x) = (bntrPreliminary root eps o g h l u x).map (BntrState.permute σ) := by
  have ha : ∀ y d : Vec K n, activeBounds (permute σ y) (permute σ d) (permute σ l) (permute σ u) =
      (activeBounds y d l u).permute σ := fun _ _ => rfl
  have hg : ∀ y : Vec K n, (fun i => permute σ g i + permute σ (matVec h y) i) =
      permute σ fun i => g i + matVec h y i := fun _ => rfl
  have hin : ∀ a : ActiveBounds n, (a.permute σ).inactive = fun i => a.inactive (σ i) := fun _ => rfl
  simp only [bntrPreliminary, bntrCriterion_permute, matVec_permute, hg, ha, hin,
    projectGradient_permute, bntrConverged_permute]
  by_cases hc : (bntrConverged root o x (bntrCriterion x g h) (fun i => g i + matVec h x i) g l u false 0
      none).1 = true
  · rw [if_pos hc, if_pos hc]
    rfl
  · rw [if_neg hc, if_neg hc]
    simp only [gradientDescent, norm2_permute]
    have hs : ∀ f : K, (⟨permute σ x, f, 0, 100, 0⟩ : GdState K n) =
      (⟨x, f, 0, 100, 0⟩ : GdState K n).permute σ := fun _ => rfl
    rw [hs, gdLoop_permute]
    cases gdLoop eps (bntrCriterion x g h) (norm2 root (projectGradient (activeBounds x g l u).inactive
      fun i => g i + matVec h x i)) (projectGradient (activeBounds x g l u).inactive
      fun i => g i + matVec h x i) g h l u (activeBounds x g l u).inactive o.maxiterGradientDescent
      ⟨x, bntrCriterion x g h, 0, 100, 0⟩ with
    | error e => rfl
    | ok d =>
      simp only [Except.map, bind, Except.bind]
      rw [show (d.permute σ).fMin = d.fMin from rfl]
      by_cases hf : d.fMin < bntrCriterion x g h
      · rw [if_pos hf, if_pos hf]
        have hx : ∀ pg : Vec K n, (applyBounds (permute σ l) (permute σ u) fun i =>
            (d.permute σ).x i - (d.permute σ).stepSize * permute σ pg i) =
            permute σ (applyBounds l u fun i => d.x i - d.stepSize * pg i) := fun _ => rfl
        simp only [hx, matVec_permute, hg, ha, hin, projectGradient_permute, bntrConverged_permute]
        rfl
      · rw [if_neg hf, if_neg hf]
        rfl

/-- An inner solver that treats all parameters alike. -/
def InnerOrderFree (inner : InnerSolver K) : Prop :=
  ∀ {p q : Nat} (e : Fin p ≃ Fin q) (g : Vec K q) (h : Mat K q q) (radius : K) (l u : Vec K q),
    inner p (along e g) (alongMat e h) radius (along e l) (along e u) =
      (inner q g h radius l u).map (along e)

omit [IsStrictOrderedRing K] in
theorem innerCg_orderFree (root : K → K) (gtolAbs gtolRel : K) :
    InnerOrderFree (innerCg root gtolAbs gtolRel) := by
  intro p q e g h radius l u
  simp only [innerCg, C73_conjugate_gradient, minimizeCg_along, Except.map]

theorem trialStep_permute (root : K → K) (broadcast : Bool) {inner : InnerSolver K}
    (hi : InnerOrderFree inner) (g : Vec K n) (h : Mat K n n) (l u x : Vec K n) (a : ActiveBounds n)
    (radius : K)
    {e : Fin (maskIndices fun i => a.inactive (σ i)).length ≃ Fin (maskIndices a.inactive).length}
    (he : ∀ k, (maskIndices a.inactive).get (e k) =
      σ ((maskIndices fun i => a.inactive (σ i)).get k)) :
    trialStep root broadcast inner (permute σ g) (fun i j => h (σ i) (σ j)) (permute σ l) (permute σ u)
      (permute σ x) (a.permute σ) radius =
      (trialStep root broadcast inner g h l u x a radius).map fun t => (along e t.1, t.2) := by
  have hlen : (maskIndices fun i => a.inactive (σ i)).length = (maskIndices a.inactive).length := by
    simpa using Fintype.card_congr e
  have hnil : (maskIndices (a.permute σ).inactive = []) ↔ maskIndices a.inactive = [] := by
    rw [← List.length_eq_zero_iff, ← List.length_eq_zero_iff]
    exact Eq.congr_left hlen
  simp only [trialStep, hnil]
  by_cases h0 : maskIndices a.inactive = []
  · rw [if_pos h0, if_pos h0]
    by_cases h1 : n = 1 ∧ broadcast = true
    · rw [if_pos h1, if_pos h1]
      have hx : applyBounds (permute σ l) (permute σ u) (permute σ x) = permute σ (applyBounds l u x) := rfl
      rw [hx, norm2_permute]
      rfl
    · rw [if_neg h1, if_neg h1]
      rfl
  · rw [if_neg h0, if_neg h0]
    change freeStep root inner (permute σ g) (fun i j => h (σ i) (σ j)) (permute σ l) (permute σ u)
      (fun i => a.inactive (σ i)) radius = _
    simp only [freeStep, maskVec_permute he, maskMat_permute he, hi e]
    cases inner _ (maskVec a.inactive g) (maskMat a.inactive h) radius (maskVec a.inactive l)
      (maskVec a.inactive u) with
    | error err => rfl
    | ok step =>
      simp only [Except.map, bind, Except.bind, norm2_along]
      by_cases h1 : radius = 0 ∧ ¬ 0 < norm2 root step
      · rw [if_pos h1, if_pos h1]
        cases inner _ (maskVec a.inactive g) (maskMat a.inactive h) (clipRadius 100)
          (maskVec a.inactive l) (maskVec a.inactive u) with
        | error err => rfl
        | ok step' =>
          simp only [norm2_along]
          by_cases h2 : norm2 root step' = 0
          · rw [if_pos h2, if_pos h2]
          · rw [if_neg h2, if_neg h2]
      · rw [if_neg h1, if_neg h1]

/-- The part of `bntrTrial` after the step has been computed. -/
def bntrAfter (root : K → K) (eps : K) (o : BntrOptions K) (g : Vec K n) (h : Mat K n n) (l u : Vec K n)
    (niter : Nat) (s : BntrState K n) (step : Vec K n) (predicted norm : K) :
    Except Err (BntrState K n × Bool) := do
  let x := applyBounds l u fun i => s.x i + step i
  let f := bntrCriterion x g h
  let r ← cgUpdateRadius eps f predicted (s.f - f) norm s.radius
  if r.2 then
    let gradient : Vec K n := fun i => g i + matVec h x i
    let c := bntrConverged root o x f gradient g l u s.converged s.reason (some niter)
    .ok ({ x := x, f := f, gradient := gradient, radius := r.1, active := activeBounds x gradient l u
           converged := c.1, reason := c.2 }, true)
  else if r.1 = s.radius then .ok ({ s with converged := true }, false)
  else
    let c := bntrConverged root o s.x s.f s.gradient g l u s.converged s.reason (some niter)
    .ok ({ s with radius := r.1, converged := c.1, reason := c.2 }, false)

theorem bntrAfter_permute (root : K → K) (eps : K) (o : BntrOptions K) (g : Vec K n) (h : Mat K n n)
    (l u : Vec K n) (niter : Nat) (s : BntrState K n) (step : Vec K n) (predicted norm : K) :
    bntrAfter root eps o (permute σ g) (fun i j => h (σ i) (σ j)) (permute σ l) (permute σ u) niter
      (s.permute σ) (permute σ step) predicted norm =
      (bntrAfter root eps o g h l u niter s step predicted norm).map fun r => (r.1.permute σ, r.2) := by
  have hx : (applyBounds (permute σ l) (permute σ u) fun i => permute σ s.x i + permute σ step i) =
      permute σ (applyBounds l u fun i => s.x i + step i) := rfl
  simp only [bntrAfter, show (s.permute σ).x = permute σ s.x from rfl,
      show (s.permute σ).gradient = permute σ s.gradient from rfl,
      show (s.permute σ).radius = s.radius from rfl, show (s.permute σ).f = s.f from rfl,
      show (s.permute σ).converged = s.converged from rfl,
      show (s.permute σ).reason = s.reason from rfl, hx, bntrCriterion_permute]
  cases cgUpdateRadius eps _ predicted _ norm s.radius with
  | error err => rfl
  | ok r =>
    have hg : ∀ y : Vec K n, (fun i => permute σ g i + permute σ (matVec h y) i) =
        permute σ fun i => g i + matVec h y i := fun _ => rfl
    simp only [matVec_permute, hg, bntrConverged_permute, bind, Except.bind]
    by_cases h1 : r.2 = true
    · rw [if_pos h1, if_pos h1]
      rfl
    · rw [if_neg h1, if_neg h1]
      by_cases h2 : r.1 = s.radius
      · rw [if_pos h2, if_pos h2]
        rfl
      · rw [if_neg h2, if_neg h2]
        rfl

theorem bntrTrial_permute (root : K → K) (eps : K) (broadcast : Bool) {inner : InnerSolver K}
    (hi : InnerOrderFree inner) (o : BntrOptions K) (g : Vec K n) (h : Mat K n n) (l u : Vec K n)
    (niter : Nat) (s : BntrState K n) :
    bntrTrial root eps broadcast inner o (permute σ g) (fun i j => h (σ i) (σ j)) (permute σ l)
      (permute σ u) niter (s.permute σ) =
      (bntrTrial root eps broadcast inner o g h l u niter s).map fun r => (r.1.permute σ, r.2) := by
  obtain ⟨e, he⟩ := exists_maskEquiv σ s.active.inactive
  have ht := trialStep_permute root broadcast hi s.gradient h l u s.x s.active s.radius he
  have hdef : ∀ (g : Vec K n) (h : Mat K n n) (l u : Vec K n) (s : BntrState K n),
      bntrTrial root eps broadcast inner o g h l u niter s =
        trialStep root broadcast inner s.gradient h l u s.x s.active s.radius >>= fun t =>
          bntrAfter root eps o g h l u niter s (boundedStep s.active l u s.x t.1)
            (predictedReduction s.gradient h s.active.inactive (boundedStep s.active l u s.x t.1) t.1)
            t.2 := fun _ _ _ _ _ => rfl
  rw [hdef, hdef]
  change (trialStep root broadcast inner (permute σ s.gradient) (fun i j => h (σ i) (σ j)) (permute σ l)
    (permute σ u) (permute σ s.x) (s.active.permute σ) s.radius >>= _) = _
  rw [ht]
  cases trialStep root broadcast inner s.gradient h l u s.x s.active s.radius with
  | error err => rfl
  | ok t =>
    have hb : boundedStep (s.active.permute σ) (permute σ l) (permute σ u) (permute σ s.x)
        (along e t.1) = permute σ (boundedStep s.active l u s.x t.1) := by
      funext i
      simp only [boundedStep, ActiveBounds.permute]
      rw [unmask_permute he]
      rfl
    have hany : ((List.finRange n).any fun i => !s.active.inactive (σ i)) =
        (List.finRange n).any fun i => !s.active.inactive i := by
      rw [Bool.eq_iff_iff]
      simp only [List.any_eq_true, List.mem_finRange, true_and]
      exact σ.exists_congr_left.trans (by simp)
    have hp : ∀ step : Vec K n, predictedReduction (permute σ s.gradient) (fun i j => h (σ i) (σ j))
        (s.active.permute σ).inactive (permute σ step) (along e t.1) =
        predictedReduction s.gradient h s.active.inactive step t.1 := by
      intro step
      simp only [predictedReduction, ActiveBounds.permute, hany, maskVec_permute he,
        maskMat_permute he, bntrCriterion_along]
    change bntrAfter root eps o (permute σ g) (fun i j => h (σ i) (σ j)) (permute σ l) (permute σ u) niter
      (s.permute σ) (boundedStep (s.active.permute σ) (permute σ l) (permute σ u) (permute σ s.x)
        (along e t.1)) (predictedReduction (permute σ s.gradient) (fun i j => h (σ i) (σ j))
        (s.active.permute σ).inactive (boundedStep (s.active.permute σ) (permute σ l) (permute σ u)
        (permute σ s.x) (along e t.1)) (along e t.1)) t.2 = _
    rw [hb, hp, bntrAfter_permute]
    rfl

theorem bntrInner_permute (root : K → K) (eps : K) (broadcast : Bool) {inner : InnerSolver K}
    (hi : InnerOrderFree inner) (o : BntrOptions K) (g : Vec K n) (h : Mat K n n) (l u : Vec K n)
    (niter fuel : Nat) : ∀ s : BntrState K n,
    bntrInner root eps broadcast inner o (permute σ g) (fun i j => h (σ i) (σ j)) (permute σ l)
      (permute σ u) niter fuel (s.permute σ) =
      (bntrInner root eps broadcast inner o g h l u niter fuel s).map fun r =>
        r.map (BntrState.permute σ) := by
  induction fuel with
  | zero => exact fun s => rfl
  | succ fuel ih =>
    intro s
    simp only [bntrInner, bntrTrial_permute root eps broadcast hi]
    cases bntrTrial root eps broadcast inner o g h l u niter s with
    | error err => rfl
    | ok r =>
      simp only [Except.map, bind, Except.bind]
      rw [show (r.1.permute σ).converged = r.1.converged from rfl]
      by_cases h1 : (r.2 || r.1.converged) = true
      · rw [if_pos h1, if_pos h1]
        rfl
      · rw [if_neg h1, if_neg h1]
        exact ih r.1

theorem bntrOuter_permute (root : K → K) (eps : K) (broadcast : Bool) {inner : InnerSolver K}
    (hi : InnerOrderFree inner) (o : BntrOptions K) (g : Vec K n) (h : Mat K n n) (l u : Vec K n)
    (fuel k : Nat) : ∀ (niter : Nat) (s : BntrState K n),
    bntrOuter root eps broadcast inner o (permute σ g) (fun i j => h (σ i) (σ j)) (permute σ l)
      (permute σ u) fuel k niter (s.permute σ) =
      (bntrOuter root eps broadcast inner o g h l u fuel k niter s).map fun r =>
        r.map fun t => (t.1.permute σ, t.2) := by
  induction k with
  | zero => exact fun _ s => rfl
  | succ k ih =>
    intro niter s
    simp only [bntrOuter]
    rw [show (s.permute σ).converged = s.converged from rfl]
    by_cases h1 : s.converged = true
    · rw [if_pos h1, if_pos h1]
      rfl
    · rw [if_neg h1, if_neg h1, bntrInner_permute root eps broadcast hi]
      cases bntrInner root eps broadcast inner o g h l u niter fuel s with
      | error err => rfl
      | ok r =>
        cases r with
        | none => rfl
        | some s' => exact ih (niter + 1) s'

end Tranquilo
