import Verif.Model.Fallback
import Verif.Spec.Fallback
import Verif.Props.Subproblem
import Verif.Lemmas.ConjugateGradient

/-!
# C52: the fallback solvers
-/

namespace Tranquilo

variable {K : Type} [Field K] [LinearOrder K] [IsStrictOrderedRing K] {n : Nat}

/-- C52, inscribed cube: the result is in the unit ball. -/
theorem C52_inscribed_cube (root : K → K) (hroot : SqrtSpec root) (scipy : ScipyMinimize K n)
    (hscipy : ScipySpec scipy) (model : ScalarModel K n) (x0 : Vec K n) (raw : RawResult K n)
    (h : inscribedCubeSolver root scipy model x0 = .ok raw) : sumSq raw.x ≤ 1 := by
  simp only [inscribedCubeSolver, robustCube] at h
  cases hc : fallbackCrit model with
  | error e => rw [hc] at h; cases h
  | ok crit =>
    rw [hc] at h
    cases h
    simp only
    obtain ⟨h0, h1⟩ := hroot (n : K) (Nat.cast_nonneg n)
    have hr : 0 ≤ 1 / root n := div_nonneg zero_le_one h0
    obtain ⟨hb, -⟩ := hscipy crit x0 (fun _ => -(1 / root n)) (fun _ => 1 / root n)
      fun _ => by linarith
    set x := (scipy crit x0 (fun _ => -(1 / root n)) fun _ => 1 / root n).x
    have hx : ∀ i, x i ^ 2 ≤ (1 / root n) ^ 2 := fun i => by
      nlinarith [(hb i).1, (hb i).2, mul_nonneg (sub_nonneg.2 (hb i).1) (sub_nonneg.2 (hb i).2)]
    calc sumSq x ≤ ∑ _i : Fin n, (1 / root n) ^ 2 := Finset.sum_le_sum fun i _ => hx i
      _ = n * (1 / root n) ^ 2 := by simp
      _ ≤ 1 := by
        rcases Nat.eq_zero_or_pos n with rfl | hn
        · simp
        · have hn' : (0 : K) < n := Nat.cast_pos.2 hn
          have : root n ≠ 0 := by
            intro e; rw [e] at h1; simp at h1; exact hn.ne' (by exact_mod_cast h1.symm)
          rw [div_pow, one_pow, pow_two, h1]
          field_simp
          exact le_rfl

/-- C52, cube: the fallback for boxes returns a point of the unit cube, and the inner optimizer gets the model itself
as criterion, so that its value at the result is the predicted one. -/
theorem C52_fallback_cube (scipy : ScipyMinimize K n) (hscipy : ScipySpec scipy) (model : ScalarModel K n)
    (h : Mat K n n) (hm : model.squareTerms = some h) (x0 : Vec K n) :
    ∃ raw, fallbackCubeSolver scipy model x0 = .ok raw ∧ (∀ i, -1 ≤ raw.x i ∧ raw.x i ≤ 1) ∧
      raw.x = (scipy model.predict x0 (fun _ => -1) fun _ => 1).x := by
  have hc : fallbackCrit model = .ok model.predict := by
    simp only [fallbackCrit, hm]
    congr 1
    funext x
    simp only [ScalarModel.predict, hm]
    ring
  refine ⟨⟨(scipy model.predict x0 (fun _ => -1) fun _ => 1).x,
    (scipy model.predict x0 (fun _ => -1) fun _ => 1).nit, true⟩, ?_, ?_, rfl⟩
  · simp only [fallbackCubeSolver, robustCube, hc]
    rfl
  · exact (hscipy model.predict x0 (fun _ => -1) (fun _ => 1) fun _ => by linarith).1

/-- Points are projected into the ball. -/
theorem projectToBall_spec (root : K → K) (hroot : SqrtSpec root) (x : Vec K n) :
    sumSq (projectToBall root x) ≤ 1 := by
  rw [sumSq_eq_dot, projectToBall]
  obtain ⟨h0, h1⟩ := hroot (dot x x) (dot_self_nonneg x)
  split
  · rename_i h
    simp only [norm2] at h
    nlinarith
  · rename_i h
    push Not at h
    have e : (fun i => x i / norm2 root x) = fun i => (1 / norm2 root x) * x i := by
      funext i; ring
    have hp : 0 < norm2 root x := by linarith
    rw [e, dot_smul_left, dot_smul_right]
    simp only [norm2] at hp ⊢
    set q := root (dot x x)
    rw [← h1]
    have e2 : 1 / q * (1 / q * (q * q)) = 1 := by field_simp
    exact e2.le

/-- C52, reparametrized: whatever the inner optimizer returns, the result is in the unit ball. -/
theorem C52_reparametrized (root : K → K) (hroot : SqrtSpec root) (scipy : ScipyMinimize K n)
    (model : ScalarModel K n) (x0 : Vec K n) :
    ∃ raw, reparametrizedSolver root scipy model x0 = .ok raw ∧ sumSq raw.x ≤ 1 :=
  ⟨_, rfl, projectToBall_spec root hroot _⟩

/-- C52, reparametrized: the reported value belongs to the returned point (the point that was projected
inside of the criterion is the point that is returned). -/
theorem C52_reparametrized_value (root : K → K) (scipy : ScipyMinimize K n) (hscipy : ScipySpec scipy)
    (model : ScalarModel K n) (x0 : Vec K n) (raw : RawResult K n)
    (h : reparametrizedSolver root scipy model x0 = .ok raw) :
    (scipy (fun x => model.predict (projectToBall root x)) x0 (fun _ => -1) (fun _ => 1)).value
      = model.predict raw.x := by
  cases h
  exact (hscipy _ _ _ _ fun _ => by linarith).2

theorem multistartLoop_spec (run : Vec K n → Except Err (CubeSolution K n)) (starts : List (Vec K n)) :
    ∀ best out, multistartLoop run starts best = .ok out →
      (∀ b, best = some b → ∃ o, out = some o ∧ o.2 ≤ b.2) ∧
      (∀ x ∈ starts, ∃ res o, run x = .ok res ∧ out = some o ∧ o.2 ≤ res.criterion) ∧
      (∀ o, out = some o → best = some o ∨ ∃ x ∈ starts, ∃ res, run x = .ok res ∧
        o = (res.x, res.criterion)) := by
  induction starts with
  | nil =>
    intro best out h
    cases h
    exact ⟨fun b hb => ⟨b, hb, le_rfl⟩, fun x hx => absurd hx (List.not_mem_nil), fun o ho => .inl ho⟩
  | cons x rest ih =>
    intro best out h
    rw [multistartLoop] at h
    cases hr : run x with
    | error e => rw [hr] at h; cases h
    | ok res =>
      rw [hr] at h
      simp only at h
      cases best with
      | none =>
        obtain ⟨i1, i2, i3⟩ := ih _ _ h
        obtain ⟨o, ho, hle⟩ := i1 _ rfl
        refine ⟨fun b hb => (nomatch hb), fun y hy => ?_, fun o' ho' => ?_⟩
        · rcases List.mem_cons.1 hy with rfl | hy
          · exact ⟨res, o, hr, ho, hle⟩
          · exact i2 y hy
        · rcases i3 o' ho' with e | ⟨y, hy, h'⟩
          · exact .inr ⟨x, List.mem_cons_self, res, hr, (Option.some.inj e).symm⟩
          · exact .inr ⟨y, List.mem_cons_of_mem _ hy, h'⟩
      | some b =>
        simp only at h
        split at h
        · rename_i hle'
          obtain ⟨i1, i2, i3⟩ := ih _ _ h
          obtain ⟨o, ho, hle⟩ := i1 _ rfl
          refine ⟨fun b' hb' => ?_, fun y hy => ?_, fun o' ho' => ?_⟩
          · cases hb'
            exact ⟨o, ho, hle.trans hle'⟩
          · rcases List.mem_cons.1 hy with rfl | hy
            · exact ⟨res, o, hr, ho, hle⟩
            · exact i2 y hy
          · rcases i3 o' ho' with e | ⟨y, hy, h'⟩
            · exact .inr ⟨x, List.mem_cons_self, res, hr, (Option.some.inj e).symm⟩
            · exact .inr ⟨y, List.mem_cons_of_mem _ hy, h'⟩
        · rename_i hle'
          push Not at hle'
          obtain ⟨i1, i2, i3⟩ := ih _ _ h
          obtain ⟨o, ho, hle⟩ := i1 _ rfl
          refine ⟨fun b' hb' => ?_, fun y hy => ?_, fun o' ho' => ?_⟩
          · cases hb'
            exact ⟨o, ho, hle⟩
          · rcases List.mem_cons.1 hy with rfl | hy
            · exact ⟨res, o, hr, ho, hle.trans hle'.le⟩
            · exact i2 y hy
          · rcases i3 o' ho' with e | ⟨y, hy, h'⟩
            · exact .inl e
            · exact .inr ⟨y, List.mem_cons_of_mem _ hy, h'⟩

/-- C52, multistart: for a nonempty list of start values the result is the result of one of the runs,
its reported value is its model value, no run has a smaller value, and it is in the unit cube. -/
theorem C52_multistart (scipy : ScipyMinimize K n) (hscipy : ScipySpec scipy) (starts : List (Vec K n))
    (hne : starts ≠ []) (model : ScalarModel K n) (h : Mat K n n) (hm : model.squareTerms = some h) :
    ∃ x value, multistart scipy starts model = .ok (some (x, value)) ∧
      (∃ x0 ∈ starts, ∃ res, robustCube scipy 1 model x0 = .ok res ∧ res.x = x) ∧
      (∀ x0 ∈ starts, ∀ res, robustCube scipy 1 model x0 = .ok res →
        model.predict x ≤ model.predict res.x) ∧
      value = model.predict x ∧ ∀ i, -1 ≤ x i ∧ x i ≤ 1 := by
  have hcrit : ∃ crit, fallbackCrit model = .ok crit ∧ ∀ x, crit x = model.predict x := by
    refine ⟨_, by simp only [fallbackCrit, hm]; rfl, fun x => ?_⟩
    simp only [ScalarModel.predict, hm]; ring
  obtain ⟨crit, hc, hcx⟩ := hcrit
  have hrun : ∀ x0, robustCube scipy 1 model x0 = .ok ⟨(scipy crit x0 (fun _ => -1) fun _ => 1).x,
      model.predict (scipy crit x0 (fun _ => -1) fun _ => 1).x,
      (scipy crit x0 (fun _ => -1) fun _ => 1).nit⟩ := by
    intro x0
    rw [robustCube, hc]
    have := (hscipy crit x0 (fun _ => -1) (fun _ => 1) fun _ => by linarith).2
    rw [hcx] at this
    rw [← this]; rfl
  have hok : ∀ (l : List (Vec K n)) b, ∃ out, multistartLoop (robustCube scipy 1 model) l b = .ok out := by
    intro l
    induction l with
    | nil => intro b; exact ⟨b, rfl⟩
    | cons x l ih =>
      intro b
      rw [multistartLoop, hrun]
      cases b with
      | none => exact ih _
      | some b => simp only; split <;> exact ih _
  obtain ⟨out, hout⟩ := hok starts none
  obtain ⟨-, i2, i3⟩ := multistartLoop_spec _ _ _ _ hout
  obtain ⟨x₁, hx₁⟩ := List.exists_mem_of_ne_nil starts hne
  obtain ⟨_, o, -, ho, -⟩ := i2 x₁ hx₁
  rcases i3 o ho with e | ⟨x0, hx0, res, hres, e⟩
  · cases e
  · rw [hrun] at hres
    cases hres
    subst e
    refine ⟨_, _, by rw [multistart, hout, ho], ⟨x0, hx0, _, hrun x0, rfl⟩, fun y hy res hres => ?_, rfl, ?_⟩
    · obtain ⟨res', o', h1, h2, h3⟩ := i2 y hy
      rw [hrun] at h1 hres
      cases h1; cases hres
      rw [ho] at h2; cases h2
      exact h3
    · exact fun i => (hscipy crit x0 (fun _ => -1) (fun _ => 1) fun _ => by linarith).1 i

/-- C40 with the fallback solvers: with the solver "fallback_inscribed_cube" or
"fallback_reparametrized" (and in the first case also as fallback) the candidate is in the trust region
and satisfies the bounds. -/
theorem C40_ball_with_fallback_solvers (cr : K → K) (root : K → K) (hroot : SqrtSpec root)
    (scipy : ScipyMinimize K n) (hscipy : ScipySpec scipy) (sphere cube fbCube : SubSolver K n)
    (hsphere : sphere = inscribedCubeSolver root scipy ∨ sphere = reparametrizedSolver root scipy)
    (retry : Bool) (model : ScalarModel K n) (r : Region K n) (hs : r.shape = .sphere)
    (hr : 0 ≤ r.radius) (hc : InBounds r.bounds r.center) (res : SubproblemResult K n)
    (h : solveSubproblem cr sphere cube (inscribedCubeSolver root scipy) fbCube retry model r = .ok res) :
    InBallSq r.center r.radius res.x ∧ InBounds r.bounds res.x := by
  have h1 : ∀ x raw, inscribedCubeSolver root scipy model x = .ok raw → sumSq raw.x ≤ (1 + 0) ^ 2 :=
    fun x raw hraw => by
      have := C52_inscribed_cube root hroot scipy hscipy model x raw hraw
      simpa using this
  have h2 : ∀ x raw, sphere model x = .ok raw → sumSq raw.x ≤ (1 + 0) ^ 2 := by
    rcases hsphere with rfl | rfl
    · exact h1
    · intro x raw hraw
      obtain ⟨raw', e, hle⟩ := C52_reparametrized root hroot scipy model x
      rw [hraw] at e; cases e
      simpa using hle
  have := C40_ball_partial cr sphere cube (inscribedCubeSolver root scipy) fbCube retry model r hs hr hc
    0 le_rfl h2 h1 res h
  simpa using this

/-- C52, example: an optimizer that meets the assumption (it returns the clipped start point). -/
example : ScipySpec (K := ℚ) (n := 2) fun crit x0 l u =>
    ⟨fun i => npClip (x0 i) (l i) (u i), crit fun i => npClip (x0 i) (l i) (u i), 0⟩ :=
  fun _ _ _ _ h => ⟨fun i => npClip_mem (h i), rfl⟩

/-- C52, derivatives: for symmetric second order terms, the gradient that the inner optimizers get is the gradient of
the criterion they get, which is the prediction of the model. -/
theorem C52_gradient (model : ScalarModel K n) (h : Mat K n n) (hm : model.squareTerms = some h) (hs : SymmetricMat h)
    (x d : Vec K n) :
    ∃ crit, fallbackCrit model = .ok crit ∧ (∀ y, crit y = model.predict y) ∧
      crit (fun i => x i + d i) = crit x + (∑ i, fallbackGrad model h x i * d i) + (∑ i, ∑ j, h i j * d i * d j) / 2 := by
  refine ⟨fun x => model.intercept + dot x model.linearTerms + halfQuad h x, by simp only [fallbackCrit, hm], fun y => ?_,
    ?_⟩
  · simp only [ScalarModel.predict, hm]
    ring
  · have e1 : dot (fun i => x i + d i) model.linearTerms = dot x model.linearTerms + ∑ i, model.linearTerms i * d i := by
      simp only [dot, ← Finset.sum_add_distrib]
      exact Finset.sum_congr rfl fun i _ => by ring
    have hsym : ∑ j, ∑ i, d i * h i j * x j = ∑ j, ∑ i, x i * h i j * d j := by
      rw [Finset.sum_comm]
      exact Finset.sum_congr rfl fun i _ => Finset.sum_congr rfl fun j _ => by rw [hs i j]; ring
    have hcomm : ∑ i, ∑ j, h i j * d i * d j = ∑ j, ∑ i, d i * h i j * d j := by
      rw [Finset.sum_comm]
      exact Finset.sum_congr rfl fun i _ => Finset.sum_congr rfl fun j _ => by ring
    have e2 : halfQuad h (fun i => x i + d i) = halfQuad h x + (∑ j, (∑ i, x i * h i j) * d j)
        + (∑ i, ∑ j, h i j * d i * d j) / 2 := by
      rw [hcomm]
      simp only [halfQuad, add_mul, mul_add, Finset.sum_add_distrib, Finset.sum_mul]
      rw [hsym]
      ring
    simp only [e1, e2, fallbackGrad, add_mul, Finset.sum_add_distrib]
    ring

/-- C52, the derivative of the constraint. -/
theorem C52_constraint_gradient (x d : Vec K n) :
    (normConstraint (K := K)).value (fun i => x i + d i)
      = normConstraint.value x + (∑ i, normConstraint.jac x i * d i) + sumSq d := by
  simp only [normConstraint, dot, sumSq, ← Finset.sum_add_distrib]
  exact Finset.sum_congr rfl fun i _ => by ring

/-- C52, norm constraint: the solver "fallback_norm_constraint" returns a point of the unit cube. It is in the unit ball,
up to the tolerance of SLSQP, if the solver reports success; the report is passed on. -/
theorem C52_norm_constraint (slsqp : Slsqp K n) {tol : K} (hspec : SlsqpSpec tol slsqp) (model : ScalarModel K n)
    (h : Mat K n n) (hm : model.squareTerms = some h) (x0 : Vec K n) :
    ∃ raw, normConstraintSolver slsqp model x0 = .ok raw ∧ (∀ i, -1 ≤ raw.x i ∧ raw.x i ≤ 1) ∧
      (raw.success = true → sumSq raw.x ≤ 1 + tol) := by
  refine ⟨_, by simp only [normConstraintSolver, fallbackCrit, hm]; rfl, ?_, ?_⟩
  · exact (hspec _ _ _ x0 (fun _ => -1) (fun _ => 1) fun _ => by linarith).1
  · intro hsucc
    have := (hspec _ _ _ x0 (fun _ => -1) (fun _ => 1) fun _ => by linarith).2 hsucc
    rw [sumSq_eq_dot]
    exact this

/-- C52, where the claim ends: as nothing is done about a missing success, the candidate of "fallback_norm_constraint" can
be outside of the trust region. The witness is an optimizer that gives up in a corner of the cube. -/
theorem C52_norm_constraint_outside :
    ∃ (slsqp : Slsqp ℚ 2) (model : ScalarModel ℚ 2) (r : Region ℚ 2) (res : SubproblemResult ℚ 2),
      SlsqpSpec 0 slsqp ∧ r.shape = .sphere ∧
      solveSubproblem id (normConstraintSolver slsqp) (normConstraintSolver slsqp) (normConstraintSolver slsqp)
        (normConstraintSolver slsqp) true model r = .ok res ∧ ¬ InBallSq r.center r.radius res.x := by
  let slsqp : Slsqp ℚ 2 := fun _ _ _ _ _ u => ⟨u, 0, 0, false⟩
  let model : ScalarModel ℚ 2 := ⟨0, fun _ => -1, some fun _ _ => 0, fun _ => 1, fun _ => 0⟩
  let r : Region ℚ 2 := { center := fun _ => 0, radius := 1, bounds := ⟨fun _ => none, fun _ => none⟩ }
  have hx : (match solveSubproblem id (normConstraintSolver slsqp) (normConstraintSolver slsqp)
      (normConstraintSolver slsqp) (normConstraintSolver slsqp) true model r with
      | .ok res => decide (1 < sumSq res.x)
      | .error _ => false) = true := by decide +kernel
  cases hres : solveSubproblem id (normConstraintSolver slsqp) (normConstraintSolver slsqp)
      (normConstraintSolver slsqp) (normConstraintSolver slsqp) true model r with
  | error e => rw [hres] at hx; cases hx
  | ok res =>
    rw [hres] at hx
    refine ⟨slsqp, model, r, res, fun _ _ _ _ _ _ hle => ⟨fun i => ⟨hle i, le_rfl⟩, fun hf => by cases hf⟩,
      by decide +kernel, hres, fun hin => ?_⟩
    have h1 : 1 < sumSq res.x := of_decide_eq_true hx
    have h2 : sumSq (fun i => res.x i - r.center i) ≤ r.radius ^ 2 := hin
    simp only [r, sub_zero, one_pow] at h2
    exact absurd h1 (not_lt.2 h2)

/-- C52, example: an optimizer that meets the assumption about SLSQP with success, for constraints that hold at zero. -/
example : ∃ slsqp : Slsqp ℚ 2, SlsqpSpec 0 slsqp ∧ ∀ model h, model.squareTerms = some h →
    ∃ raw, normConstraintSolver slsqp model (fun _ => 0) = .ok raw ∧ raw.success = true ∧ sumSq raw.x ≤ 1 + 0 := by
  let slsqp : Slsqp ℚ 2 := fun _ _ c x0 l u =>
    let y : Vec ℚ 2 := fun i => npClip (x0 i) (l i) (u i)
    ⟨y, 0, 0, decide (c.value y ≤ c.ub)⟩
  have hs : SlsqpSpec 0 slsqp := fun _ _ c _ _ _ h => ⟨fun i => npClip_mem (h i), fun hd => by
    rw [add_zero]; exact of_decide_eq_true hd⟩
  refine ⟨slsqp, hs, fun model h hm => ?_⟩
  obtain ⟨raw, h1, -, h3⟩ := C52_norm_constraint slsqp hs model h hm fun _ => 0
  have h4 : raw.success = true := by
    simp only [normConstraintSolver, fallbackCrit, hm, Except.map, Except.ok.injEq] at h1
    rw [← h1]
    decide +kernel
  exact ⟨raw, h1, h4, h3 h4⟩

end Tranquilo
