import Verif.Model.SlowSolvers
import Verif.Props.GqtparWitness
import Verif.Props.Trsbox

/-!
# C73 for Steihaug-Toint, trsbox and gqtpar

Both versions of every subsolver compute the same, with two exceptions: Steihaug-Toint for numba raises a
`ZeroDivisionError` where numpy goes on with infinite numbers, and the step to the boundary in gqtpar
depends on the order of the roots if both have the same size.
-/

namespace Tranquilo

variable {K : Type} [Field K] [LinearOrder K] [IsStrictOrderedRing K] {n : Nat}

/-! ## Steihaug-Toint -/

omit [IsStrictOrderedRing K] in
theorem stTolFast_eq (r : K) : stTolFast r = max (1 / 10 ^ 5 * r) (1 / 10 ^ 50) := by
  unfold stTolFast
  split
  · rename_i h; exact (max_eq_left h).symm
  · rename_i h; exact (max_eq_right (not_le.1 h).le).symm

omit [Field K] [LinearOrder K] [IsStrictOrderedRing K] in
theorem ok_bind' {α : Type} (a : K) (f : K → Except Err α) : ((Except.ok a : Except Err K) >>= f) = f a :=
  rfl

theorem root_zero_of_spec {root : K → K} (hroot : SqrtSpec root) : root 0 = 0 :=
  mul_self_eq_zero.1 (hroot 0 le_rfl).2

theorem stLoop_agree {root : K → K} (hroot : SqrtSpec root) (h : Mat K n n) (radius normR0 ttol : K)
    (ht : 0 ≤ ttol) (maxIter : Nat) :
    ∀ (k : Nat) (finished : Bool) (s : StState K n), s.kappa ≠ 0 → (finished = false → s.rz ≠ 0) →
      ∃ x, stLoop root h radius normR0 ttol maxIter k finished s = some x ∧
        stLoopFast root h radius normR0 ttol maxIter k finished s = .ok x := by
  intro k
  induction k with
  | zero => intro _ s _ _; exact ⟨s.x, rfl, rfl⟩
  | succ k ih =>
    intro finished s hk hf
    simp only [stLoop, stLoopFast]
    rw [if_neg hk]
    simp only [checkedDiv, if_neg hk]
    rw [ok_bind']
    by_cases h1 : radius ≠ 0 ∧ radius ^ 2
        ≤ s.normD + s.rz / s.kappa * (2 * s.dp + s.rz / s.kappa * s.normP)
    · rw [if_pos h1, if_pos h1]; exact ⟨_, rfl, rfl⟩
    rw [if_neg h1, if_neg h1]
    split
    · exact ⟨_, rfl, rfl⟩
    rename_i hstop
    push Not at hstop
    have hz : s.rz ≠ 0 := hf (by simpa using hstop.1)
    rw [if_neg hz]
    rw [ok_bind']
    split
    · exact ⟨_, rfl, rfl⟩
    split
    · exact ⟨_, rfl, rfl⟩
    split
    · exact ⟨_, rfl, rfl⟩
    rename_i hk'
    refine ih _ _ (fun h => hk' h.le) fun _ hz' => ?_
    have := hstop.2.1
    simp only [norm2] at this hz'
    rw [hz', root_zero_of_spec hroot] at this
    exact absurd this (not_lt.2 ht)

theorem stTol_nonneg (r : K) : 0 ≤ max (1 / 10 ^ 5 * r) (1 / 10 ^ 50 : K) :=
  le_max_of_le_right (by positivity)

/-- C73 for Steihaug-Toint where it is true: if the model has curvature along the first direction (the
negative gradient, projected on the range of the Hessian), both versions return the same vector. Without
this the numba version raises (`C73_steihaug_raises`) and the claim fails (`C73_violated_steihaug`). -/
theorem C73_steihaug_partial {root : K → K} (hroot : SqrtSpec root)
    (pinvMul : Mat K n n → Vec K n → Vec K n) (g : Vec K n) (h : Mat K n n) (radius : K)
    (hcurv : quadForm h (matVec h (pinvMul h fun i => -(g i))) ≠ 0) :
    ∃ x, minimizeSt root pinvMul g h radius = some x ∧
      minimizeStFast root pinvMul g h radius = .ok x := by
  rw [quadForm_eq_dot] at hcurv
  simp only [minimizeSt, minimizeStFast, stTolFast_eq]
  refine stLoop_agree hroot h radius _ _ (stTol_nonneg _) _ _ _ _ hcurv fun hf hz => ?_
  dsimp only at hz
  rw [hz, root_zero_of_spec hroot] at hf
  simp only [Bool.or_eq_false_iff, decide_eq_false_iff_not] at hf
  exact hf.1.2 (stTol_nonneg 0)

/-- The numba version raises if there is no curvature along the first direction, for instance for every
linear model. -/
theorem C73_steihaug_raises {root : K → K} (pinvMul : Mat K n n → Vec K n → Vec K n) (g : Vec K n)
    (h : Mat K n n) (radius : K) (hn : 0 < n)
    (hcurv : quadForm h (matVec h (pinvMul h fun i => -(g i))) = 0) :
    minimizeStFast root pinvMul g h radius = .error .zeroDivisionError := by
  rw [quadForm_eq_dot] at hcurv
  obtain ⟨k, hk⟩ : ∃ k, min n 10000 = k + 1 := ⟨min n 10000 - 1, by omega⟩
  simp only [minimizeStFast, hk, stLoopFast, checkedDiv, hcurv, if_true]
  rfl

/-- C73 is false for Steihaug-Toint: for the saddle `x₀ x₁` with gradient `(1, 0)` and radius one the numpy
version returns `(-2, 0)` and the numba version raises a `ZeroDivisionError`. -/
theorem C73_violated_steihaug (pinvMul : Mat ℝ 2 2 → Vec ℝ 2 → Vec ℝ 2)
    (hp : pinvMul ![![0, 1], ![1, 0]] (fun i => -(![1, 0] : Vec ℝ 2) i) = ![0, -1]) :
    minimizeSt Real.sqrt pinvMul ![1, 0] ![![0, 1], ![1, 0]] 1 = some ![-2, 0] ∧
    minimizeStFast Real.sqrt pinvMul ![1, 0] ![![0, 1], ![1, 0]] 1 = .error .zeroDivisionError := by
  have hd : matVec (![![0, 1], ![1, 0]] : Mat ℝ 2 2) ![0, -1] = ![-1, 0] := by
    funext i; fin_cases i <;> simp [matVec, Fin.sum_univ_two]
  have hq : matVec (![![0, 1], ![1, 0]] : Mat ℝ 2 2) ![-1, 0] = ![0, -1] := by
    funext i; fin_cases i <;> simp [matVec, Fin.sum_univ_two]
  constructor
  · simp only [minimizeSt, hp, hd, hq]
    simp [dot, Fin.sum_univ_two, stFirstStep, stLoop, stBoundaryStep]
    funext i
    fin_cases i <;> simp [stBoundaryStep]
    norm_num
  · refine C73_steihaug_raises _ _ _ _ (by norm_num) ?_
    rw [hp, hd]
    simp [quadForm, Fin.sum_univ_two]

/-- C73, example for the hypothesis of the positive result: a strictly convex model. -/
example : quadForm (fun i j : Fin 2 => if i = j then (2 : ℚ) else 0)
    (matVec (fun i j : Fin 2 => if i = j then 2 else 0) ((fun _ v i => v i / 2)
      (fun i j : Fin 2 => if i = j then (2 : ℚ) else 0) fun i => -((![1, 3] : Vec ℚ 2) i))) ≠ 0 := by
  decide +kernel

/-! ## trsbox -/

omit [Field K] [IsStrictOrderedRing K] in
theorem trsboxBoundsNp_eq {l u : Vec K n} (hlu : ∀ i, l i ≤ u i) (side : Fin n → Side) (x : Vec K n) :
    trsboxBoundsNp side l u x = trsboxBounds side l u x := by
  funext i
  unfold trsboxBoundsNp trsboxBounds
  cases side i with
  | lower => rfl
  | upper => rfl
  | free =>
    simp only [npClip]
    split
    · rename_i h; rw [max_eq_left h, min_eq_left (hlu i)]
    · rename_i h
      rw [max_eq_right (not_le.1 h).le]
      split
      · rename_i h2; exact min_eq_right h2
      · rename_i h2; exact min_eq_left (not_le.1 h2).le

omit [IsStrictOrderedRing K] in
theorem trsboxDistanceNp_eq (root : K → K) (raw gs ps gx php : K) :
    trsboxDistanceNp root raw gs ps gx php = trsboxDistance root raw gs ps gx php := by
  unfold trsboxDistanceNp trsboxDistance
  cases boundaryDistance root raw ps gx with
  | error e => rfl
  | ok d =>
    change (if _ then _ else _) = (if _ then _ else _)
    split
    · rfl
    · split
      · rename_i h; rw [min_eq_left h]
      · rename_i h; rw [min_eq_right (not_le.1 h).le]

omit [IsStrictOrderedRing K] in
theorem trsSmallNp_iff (s : TrsState K n) : trsSmallNp s ↔ trsSmall s := by
  unfold trsSmallNp trsSmall
  rw [le_min_iff, le_min_iff]

omit [IsStrictOrderedRing K] in
theorem trsStepNp_eq (root : K → K) (h : Mat K n n) (l u : Vec K n) (s : TrsState K n) :
    trsStepNp root h l u s = trsStep root h l u s := by
  simp only [trsStepNp, trsStep, trsboxDistanceNp_eq]; rfl

omit [IsStrictOrderedRing K] in
theorem trsPassNp_eq (root : K → K) (h : Mat K n n) (l u : Vec K n) (s : TrsState K n) :
    trsPassNp root h l u s = trsPass root h l u s := by
  simp only [trsPassNp, trsPass, trsStepNp_eq, trsSmallNp_iff]

omit [IsStrictOrderedRing K] in
theorem trsLoopNp_eq (root : K → K) (h : Mat K n n) (l u : Vec K n) :
    ∀ k s, trsLoopNp root h l u k s = trsLoop root h l u k s := by
  intro k
  induction k with
  | zero => intro s; rfl
  | succ k ih => intro s; simp only [trsLoopNp, trsLoop, trsPassNp_eq, ih]; rfl

omit [IsStrictOrderedRing K] in
theorem altTurnNp_eq (tangent current : K) (dir hs hRed : Vec K n) (s : AltState K n) :
    altTurnNp tangent current dir hs hRed s = altTurn tangent current dir hs hRed s := by
  simp only [altTurnNp, altTurn, add_assoc]

section floor
variable [FloorSemiring K]

omit [IsStrictOrderedRing K] in
theorem altStepNp_eq (h : Mat K n n) (xGrad sNorm : K) (dir hRed : Vec K n) (bound : K)
    (active : Option (Fin n × Side)) (s : AltState K n) :
    altStepNp h xGrad sNorm dir hRed bound active s = altStep h xGrad sNorm dir hRed bound active s := by
  simp only [altStepNp, altStep, altTurnNp_eq]; rfl

omit [IsStrictOrderedRing K] in
theorem altPassNp_eq (root : K → K) (h : Mat K n n) (l u : Vec K n) (xReduced : K) (s : AltState K n)
    (hRed : Vec K n) : altPassNp root h l u xReduced s hRed = altPass root h l u xReduced s hRed := by
  simp only [altPassNp, altPass, altStepNp_eq]; rfl

omit [IsStrictOrderedRing K] in
theorem altInnerNp_eq (root : K → K) (h : Mat K n n) (l u : Vec K n) (xReduced : K) :
    ∀ k s hRed, altInnerNp root h l u xReduced k s hRed = altInner root h l u xReduced k s hRed := by
  intro k
  induction k with
  | zero => intro s hRed; rfl
  | succ k ih => intro s hRed; simp only [altInnerNp, altInner, altPassNp_eq, ih]; rfl

omit [IsStrictOrderedRing K] in
theorem altOuterNp_eq (root : K → K) (h : Mat K n n) {l u : Vec K n} (hlu : ∀ i, l i ≤ u i)
    (maxIter : Nat) : ∀ k s, altOuterNp root h l u maxIter k s = altOuter root h l u maxIter k s := by
  intro k
  induction k with
  | zero => intro s; rfl
  | succ k ih =>
    intro s
    simp only [altOuterNp, altOuter, altInnerNp_eq, ih, trsboxBoundsNp_eq hlu]; rfl

omit [IsStrictOrderedRing K] in
/-- C73 for trsbox: both versions return the same vector (or fail in the same way) for all bounds with lower
bounds below the upper bounds. -/
theorem C73_trsbox (root : K → K) (g : Vec K n) (h : Mat K n n) (radius : K) (l u : Vec K n)
    (hlu : ∀ i, l i ≤ u i) :
    minimizeTrsboxNp root g h radius l u = minimizeTrsbox root g h radius l u := by
  unfold minimizeTrsboxNp minimizeTrsbox
  rw [trsLoopNp_eq]
  congr 1
  funext r
  simp only [trsFinishNp, trsFinish, altOuterNp_eq root h hlu, trsboxBoundsNp_eq hlu]

/-- With C74: the numpy version returns a feasible point that does not make the model worse. -/
theorem C74_numpy_version {root : K → K} (hroot : SqrtSpec root) (g l u : Vec K n) (h : Mat K n n)
    (radius : K) (hs : SymmetricMat h) (hl : ∀ i, l i ≤ 0) (hu : ∀ i, 0 ≤ u i) :
    ∃ x, minimizeTrsboxNp root g h radius l u = .ok x ∧ InBox l u x ∧ NormLe x radius ∧
      quadModel g h x ≤ 0 := by
  rw [C73_trsbox root g h radius l u fun i => (hl i).trans (hu i)]
  exact C74_in_region_and_descent hroot g l u h hs hl hu

end floor

/-- C73, example for the hypothesis: the unit box. -/
example : ∀ i : Fin 2, (fun _ => (-1 : ℚ)) i ≤ (fun _ => (1 : ℚ)) i := fun _ => by norm_num

/-! ## gqtpar -/

/-- What the numpy formula computes: the two solutions of `|x + t z| = 1`, the negative one first. -/
theorem sphereRootsNp_spec {root : K → K} (hroot : SqrtSpec root) {x z : Vec K n} (hz : dot z z = 1)
    (hx : dot x x < 1) :
    (sphereRootsNp root x z).1 < 0 ∧ 0 < (sphereRootsNp root x z).2 ∧
      (sphereRootsNp root x z).1 + (sphereRootsNp root x z).2 = -(2 * dot x z) ∧
      (sphereRootsNp root x z).1 * (sphereRootsNp root x z).2 = dot x x - 1 := by
  set b := 2 * dot x z with hb
  set c := dot x x - 1 with hc
  have hc0 : c < 0 := by rw [hc]; linarith
  obtain ⟨hd0, hd1⟩ := hroot (b * b - 4 * 1 * c) (by nlinarith [mul_self_nonneg b])
  set d := root (b * b - 4 * 1 * c) with hd
  have key : ∀ aux : K, aux ≠ 0 → aux * aux = 2 * b * aux - 4 * c →
      -aux / (2 * 1) + -2 * c / aux = -b ∧ -aux / (2 * 1) * (-2 * c / aux) = c := by
    intro aux h0 h1
    constructor
    · field_simp; linear_combination -h1
    · field_simp
  obtain ⟨aux, ha, h0, h1⟩ : ∃ aux, aux = b + (if 0 ≤ b then d else -d) ∧ aux ≠ 0 ∧
      aux * aux = 2 * b * aux - 4 * c := by
    refine ⟨_, rfl, ?_, ?_⟩
    · split
      · rename_i h; intro h2; nlinarith
      · rename_i h; intro h2; nlinarith
    · split
      · linear_combination hd1
      · linear_combination hd1
  obtain ⟨hs, hp⟩ := key aux h0 h1
  simp only [sphereRootsNp, hz, ← hb, ← hc, ← hd, ← ha]
  set ta := -aux / (2 * 1)
  set tb := -2 * c / aux
  by_cases hle : ta ≤ tb
  · rw [if_pos hle]
    refine ⟨?_, ?_, hs, hp⟩
    · by_contra hn; nlinarith
    · by_contra hn; nlinarith
  · rw [if_neg hle]
    refine ⟨?_, ?_, by rw [add_comm]; exact hs, by rw [mul_comm]; exact hp⟩
    · by_contra hn; nlinarith
    · by_contra hn; nlinarith

/-- The factorization determines the roots. -/
theorem roots_vieta {ext : GqExternal K n} (hext : GqSpec ext) {x z : Vec K n} (hz : dot z z = 1)
    (hx : dot x x < 1) :
    (ext.roots (dot z z) (2 * dot x z) (dot x x - 1)).1
        + (ext.roots (dot z z) (2 * dot x z) (dot x x - 1)).2 = -(2 * dot x z) ∧
      (ext.roots (dot z z) (2 * dot x z) (dot x x - 1)).1
        * (ext.roots (dot z z) (2 * dot x z) (dot x x - 1)).2 = dot x x - 1 := by
  have hr := hext.roots (dot z z) (2 * dot x z) (dot x x - 1) (by rw [hz]; exact one_ne_zero)
    (by rw [hz]; nlinarith [sq_nonneg (dot x z)])
  rw [hz] at hr ⊢
  have h0 := hr 0
  have h1 := hr 1
  constructor
  · linear_combination h1 - h0
  · linear_combination -h0

theorem pair_of_vieta {a b c d : K} (hs : a + b = c + d) (hp : a * b = c * d) :
    (a = c ∧ b = d) ∨ (a = d ∧ b = c) := by
  have : (a - c) * (a - d) = 0 := by linear_combination a * hs - hp
  rcases mul_eq_zero.1 this with h | h
  · left; constructor <;> linarith
  · right; constructor <;> linarith

/-- C73 for the step to the boundary in gqtpar: both versions choose steps of the same length; they are
equal unless both solutions have the same size, and then the numpy version goes backwards. -/
theorem C73_step_length {root : K → K} (hroot : SqrtSpec root) {ext : GqExternal K n}
    (hext : GqSpec ext) {x z : Vec K n} (hz : dot z z = 1) (hx : dot x x < 1) :
    |stepLenNp root x z| = |stepLen ext x z| ∧
      (dot x z ≠ 0 → stepLenNp root x z = stepLen ext x z) ∧
      (dot x z = 0 → stepLenNp root x z < 0) := by
  obtain ⟨hneg, hpos, hs, hp⟩ := sphereRootsNp_spec hroot hz hx
  obtain ⟨hs', hp'⟩ := roots_vieta hext hz hx
  have hpair := pair_of_vieta (hs'.trans hs.symm) (hp'.trans hp.symm)
  simp only [stepLenNp, stepLen]
  set t := sphereRootsNp root x z
  set r := ext.roots (dot z z) (2 * dot x z) (dot x x - 1)
  rcases hpair with ⟨e1, e2⟩ | ⟨e1, e2⟩
  · rw [e1, e2]
    refine ⟨rfl, fun _ => rfl, fun h0 => ?_⟩
    rw [if_pos]
    · exact hneg
    · rw [abs_of_neg hneg, abs_of_pos hpos]; rw [h0] at hs; linarith
  · rw [e1, e2]
    have a1 := abs_of_neg hneg
    have a2 := abs_of_pos hpos
    refine ⟨?_, fun h0 => ?_, fun h0 => ?_⟩
    · rcases lt_trichotomy |t.1| |t.2| with h | h | h
      · rw [if_pos h.le, if_neg (not_le.2 h)]
      · rw [if_pos h.le, if_pos h.ge, h]
      · rw [if_neg (not_le.2 h), if_pos h.le]
    · rcases lt_trichotomy |t.1| |t.2| with h | h | h
      · rw [if_pos h.le, if_neg (not_le.2 h)]
      · rw [a1, a2] at h
        exact absurd (by linarith : dot x z = 0) h0
      · rw [if_neg (not_le.2 h), if_pos h.le]
    · rw [if_pos]
      · exact hneg
      · rw [a1, a2]; rw [h0] at hs; linarith

/-- The contract for ties: `np.roots` returns the negative root of `a t² + c` first. -/
def RootsOrdered (ext : GqExternal K n) : Prop := ∀ a c, (ext.roots a 0 c).1 ≤ (ext.roots a 0 c).2

theorem stepLenNp_eq {root : K → K} (hroot : SqrtSpec root) {ext : GqExternal K n}
    (hext : GqSpec ext) (hord : RootsOrdered ext) {x z : Vec K n} (hz : dot z z = 1)
    (hx : dot x x < 1) : stepLenNp root x z = stepLen ext x z := by
  by_cases h0 : dot x z = 0
  · obtain ⟨h1, -, h2⟩ := C73_step_length hroot hext hz hx
    have h3 := h2 h0
    obtain ⟨hs', hp'⟩ := roots_vieta hext hz hx
    have ho := hord (dot z z) (dot x x - 1)
    rw [abs_of_neg h3] at h1
    have h4 : stepLen ext x z < 0 := by
      simp only [stepLen]
      rw [h0, mul_zero] at hs' hp' ⊢
      set r := ext.roots (dot z z) 0 (dot x x - 1)
      have hr1 : r.1 < 0 := by
        by_contra hn
        nlinarith
      rw [if_pos]
      · exact hr1
      · rw [abs_of_neg hr1]
        exact le_abs.2 (Or.inl (by linarith))
    rw [abs_of_neg h4] at h1
    linarith
  · exact (C73_step_length hroot hext hz hx).2.1 h0

/-- The state of the numba version that corresponds to a state of the numpy version. -/
def GqNpState.toFast (s : GqNpState K n) : GqState K n :=
  { x := s.x, hPlus := s.hessian.plusLambda, fac := ⟨s.hessian.upper, s.info⟩
    already := s.hessian.already, lam := s.lambdas.candidate, lower := s.lambdas.lowerBound
    upper := s.lambdas.upperBound, converged := s.converged }

omit [IsStrictOrderedRing K] in
theorem newLambdaNp_eq (root : K → K) (a b : K) : newLambdaNp root a b = newLambda root a b := by
  simp only [newLambdaNp, newLambda, max_comm (a * b) 0]

omit [IsStrictOrderedRing K] in
theorem gqStartNp_toFast (root : K → K) (g : Vec K n) (h : Mat K n n) (x0 : Vec K n) :
    (gqStartNp root g h x0).toFast = gqStart root g h x0 := by
  simp only [gqStartNp, GqNpState.toFast, gqStart, initialLambdasNp, newLambdaNp_eq, initialLambda,
    initialLower, initialUpper]
  rfl

omit [IsStrictOrderedRing K] in
theorem refactorizeNp_toFast (ext : GqExternal K n) (h : Mat K n n) (s : GqNpState K n) :
    (refactorizeNp ext h s).toFast = refactorize ext h s.toFast := by
  cases ha : s.hessian.already <;>
    simp [refactorizeNp, refactorize, GqNpState.toFast, ha]

omit [IsStrictOrderedRing K] in
theorem failedUpdateNp_toFast (root : K → K) (ext : GqExternal K n) (s : GqNpState K n) :
    (failedUpdateNp root ext s).toFast = failedUpdate root ext s.toFast := by
  by_cases hk : s.info - 1 < n
  · simp [failedUpdateNp, failedUpdate, GqNpState.toFast, hk, newLambdaNp_eq]
  · simp [failedUpdateNp, failedUpdate, GqNpState.toFast, hk]

omit [IsStrictOrderedRing K] in
theorem interiorCheckNp_toFast (root : K → K) (ext : GqExternal K n) (kHard : K) (s : GqNpState K n) :
    (interiorCheckNp root (smallestSingular root ext) kHard s).toFast
      = interiorCheck root ext kHard s.toFast := by
  simp only [interiorCheckNp, interiorCheck, GqNpState.toFast, newLambdaNp_eq]
  rfl

omit [IsStrictOrderedRing K] in
theorem withinUpdateNp_toFast (root : K → K) (ext : GqExternal K n) (h : Mat K n n) (kHard newton : K)
    (s : GqNpState K n)
    (hstep : stepLenNp root s.x (smallestSingular root ext s.hessian.upper).2
      = stepLen ext s.x (smallestSingular root ext s.hessian.upper).2) :
    (withinUpdateNp root ext (smallestSingular root ext) h kHard s newton).toFast
      = withinUpdate root ext h kHard s.toFast newton := by
  simp only [withinUpdateNp, withinUpdate, GqNpState.toFast, newLambdaNp_eq, hstep]
  rfl

omit [IsStrictOrderedRing K] in
theorem findNewNp_toFast (root : K → K) (ext : GqExternal K n) (g : Vec K n) (h : Mat K n n)
    (kEasy kHard : K) (s : GqNpState K n)
    (hstep : norm2 root (ext.choSolve s.hessian.upper fun i => -(g i)) < 1 →
      stepLenNp root (ext.choSolve s.hessian.upper fun i => -(g i))
        (smallestSingular root ext s.hessian.upper).2
      = stepLen ext (ext.choSolve s.hessian.upper fun i => -(g i))
        (smallestSingular root ext s.hessian.upper).2) :
    (findNewNp root ext (smallestSingular root ext) g h kEasy kHard s).toFast
      = findNew root ext g h kEasy kHard s.toFast := by
  by_cases hx : norm2 root (ext.choSolve s.hessian.upper fun i => -(g i)) < 1
  · simp only [findNewNp, findNew, GqNpState.toFast, hx, if_true]
    exact withinUpdateNp_toFast root ext h kHard _ _ (hstep hx)
  · simp only [findNewNp, findNew, GqNpState.toFast, hx, if_false, outsideUpdateNp]
    rfl

theorem gqIterationNp_toFast {root : K → K} (hroot : SqrtSpec root) {ext : GqExternal K n}
    (hext : GqSpec ext) (hord : RootsOrdered ext) (hn : 0 < n) {g : Vec K n} {h : Mat K n n}
    (hs : SymmetricMat h) (threshold kEasy kHard : K) {s : GqNpState K n}
    (hinv : threshold < norm2 root g → GqInv root ext g h s.toFast) :
    (gqIterationNp root ext (smallestSingular root ext) g h threshold kEasy kHard s).toFast
      = gqIteration root ext g h threshold kEasy kHard s.toFast := by
  have hr := refactorizeNp_toFast ext h s
  have hi : (refactorize ext h s.toFast).fac.info = (refactorizeNp ext h s).info := by rw [← hr]; rfl
  simp only [gqIterationNp, gqIteration, hi]
  by_cases h1 : (refactorizeNp ext h s).info = 0 ∧ threshold < norm2 root g
  · rw [if_pos h1, if_pos h1, ← hr]
    refine findNewNp_toFast root ext g h kEasy kHard _ fun hlt => ?_
    obtain ⟨mu, ready, _⟩ := refactorize_ready hext hs (hinv h1.2) (hi.trans h1.1)
    have hf := ready.factor
    rw [← hr] at hf
    exact stepLenNp_eq hroot hext hord (smallestSingular_spec hroot hext hn hf).1
      ((norm2_lt_one hroot).1 hlt)
  · rw [if_neg h1, if_neg h1, ← hr]
    by_cases h2 : (refactorizeNp ext h s).info = 0 ∧ norm2 root g ≤ threshold
    · rw [if_pos h2, if_pos h2]; exact interiorCheckNp_toFast root ext kHard _
    · rw [if_neg h2, if_neg h2]; exact failedUpdateNp_toFast root ext _

theorem gqLoopNp_toFast {root : K → K} (hroot : SqrtSpec root) {ext : GqExternal K n}
    (hext : GqSpec ext) (hord : RootsOrdered ext) (hn : 0 < n) {g : Vec K n} {h : Mat K n n}
    (hs : SymmetricMat h) (threshold kEasy kHard : K) :
    ∀ (m k : Nat) (s : GqNpState K n), (threshold < norm2 root g → GqInv root ext g h s.toFast) →
      gqLoop (gqIteration root ext g h threshold kEasy kHard) m k s.toFast
        = (((gqLoopNp (gqIterationNp root ext (smallestSingular root ext) g h threshold kEasy kHard) m k
            s).1,
          (gqLoopNp (gqIterationNp root ext (smallestSingular root ext) g h threshold kEasy kHard) m k
            s).2.toFast)) := by
  intro m
  induction m with
  | zero => intro k s _; rfl
  | succ m ih =>
    intro k s hinv
    have e := gqIterationNp_toFast hroot hext hord hn hs threshold kEasy kHard hinv
    simp only [gqLoop, gqLoopNp]
    rw [← e]
    by_cases hc : (gqIterationNp root ext (smallestSingular root ext) g h threshold kEasy kHard
        s).converged = true
    · have hc' : (gqIterationNp root ext (smallestSingular root ext) g h threshold kEasy kHard
        s).toFast.converged = true := hc
      rw [if_pos hc, if_pos hc']
    · have hc' : ¬ (gqIterationNp root ext (smallestSingular root ext) g h threshold kEasy kHard
        s).toFast.converged = true := hc
      rw [if_neg hc, if_neg hc']
      refine ih (k + 1) _ fun hg => ?_
      rw [e]
      exact gqIteration_inv hroot hext hn hs hg (hinv hg)

/-- C73 for gqtpar: both versions return the same vector, number of iterations and success flag, for every
model with a symmetric matrix of square terms. Contracts: those of LAPACK and scipy (`GqSpec`), scipy's
`estimate_smallest_singular_value` is the algorithm that the numba version repeats, and `np.roots` returns
the negative root first for a quadratic without linear term. Without the last one only the length of the step
is the same (`C73_step_length`, `C73_violated_step_tie`). -/
theorem C73_gqtpar_partial {root : K → K} (hroot : SqrtSpec root) {ext : GqExternal K n}
    (hext : GqSpec ext) (hord : RootsOrdered ext) (hn : 0 < n) (singular : Mat K n n → K × Vec K n)
    (hsing : ∀ u, singular u = smallestSingular root ext u) (eps kEasy kHard : K) (maxiter : Nat)
    (model : ScalarModel K n) (x0 : Vec K n)
    (hs : ∀ h, model.squareTerms = some h → SymmetricMat h) :
    gqtparNp root ext singular eps kEasy kHard maxiter model x0
      = gqtpar root ext eps kEasy kHard maxiter model x0 := by
  have hsing' : singular = smallestSingular root ext := funext hsing
  subst hsing'
  unfold gqtparNp gqtpar
  cases hm : model.squareTerms with
  | none => rfl
  | some h =>
    dsimp only
    split
    · rfl
    · have e := gqLoopNp_toFast hroot hext hord hn (hs h hm) (gqThreshold eps h) kEasy kHard maxiter 0
        (gqStartNp root model.linearTerms h x0) fun _ => by
          rw [gqStartNp_toFast]
          exact gqStart_inv hroot ext hn _ _ (hs h hm) _
      rw [gqStartNp_toFast] at e
      simp only [gqRun]
      rw [e]
      rfl

omit [Field K] [IsStrictOrderedRing K] in
theorem sort_pair (r : K × K) :
    (if r.1 ≤ r.2 then r else (r.2, r.1)).1 ≤ (if r.1 ≤ r.2 then r else (r.2, r.1)).2 := by
  split
  · assumption
  · rename_i h; exact (not_le.1 h).le

/-- Library functions with both contracts exist. -/
theorem exists_ordered {root : K → K} (hroot : SqrtSpec root) (n : Nat) :
    ∃ ext : GqExternal K n, GqSpec ext ∧ RootsOrdered ext := by
  obtain ⟨ext, h⟩ := gqSpec_exists hroot n
  refine ⟨{ ext with
    roots := fun a b c => if (ext.roots a b c).1 ≤ (ext.roots a b c).2 then ext.roots a b c
      else ((ext.roots a b c).2, (ext.roots a b c).1) },
    ⟨h.info_le, h.chol_ok, h.chol_fail, h.choSolve, h.solveTransposed, h.solveUpper, h.solveLeading,
      fun a b c ha hd t => ?_⟩, fun a c => sort_pair _⟩
  have := h.roots a b c ha hd t
  dsimp only
  split
  · exact this
  · rw [this]; ring

/-- C73 is false for the step to the boundary if `np.roots` returns the positive root first: from the center
the numpy version goes backwards and the numba version forwards. -/
theorem C73_violated_step_tie {root : K → K} (hroot : SqrtSpec root) :
    ∃ (ext : GqExternal K 1), GqSpec ext ∧
      stepLenNp root (fun _ : Fin 1 => 0) (fun _ => 1) = -1 ∧
      stepLen ext (fun _ : Fin 1 => 0) (fun _ => 1) = 1 := by
  obtain ⟨ext, h, hord⟩ := exists_ordered (K := K) hroot 1
  have hz : dot (fun _ : Fin 1 => (1 : K)) (fun _ => 1) = 1 := by simp [dot]
  have hx : dot (fun _ : Fin 1 => (0 : K)) (fun _ => 0) < 1 := by simp [dot]
  have hxz : dot (fun _ : Fin 1 => (0 : K)) (fun _ => 1) = 0 := by simp [dot]
  have hx0 : dot (fun _ : Fin 1 => (0 : K)) (fun _ => 0) = 0 := by simp [dot]
  obtain ⟨hs, hp⟩ := roots_vieta h hz hx
  have ho := hord (dot (fun _ : Fin 1 => (1 : K)) (fun _ => 1)) (dot (fun _ : Fin 1 => (0 : K)) (fun _ => 0) - 1)
  rw [hz, hxz, hx0, mul_zero, zero_sub] at hs hp
  rw [hz, hx0, zero_sub] at ho
  have h1 : (ext.roots 1 0 (-1)).1 = -1 ∧ (ext.roots 1 0 (-1)).2 = 1 := by
    have hpos : 0 ≤ (ext.roots 1 0 (-1)).2 := by linarith
    have hsq : (ext.roots 1 0 (-1)).2 * (ext.roots 1 0 (-1)).2 = 1 := by
      have : (ext.roots 1 0 (-1)).1 = -(ext.roots 1 0 (-1)).2 := by linarith
      rw [this] at hp
      linear_combination -hp
    have h2 : (ext.roots 1 0 (-1)).2 = 1 := by nlinarith
    exact ⟨by linarith, h2⟩
  have hsw : GqSpec { ext with roots := fun a b c => ((ext.roots a b c).2, (ext.roots a b c).1) } :=
    ⟨h.info_le, h.chol_ok, h.chol_fail, h.choSolve, h.solveTransposed, h.solveUpper, h.solveLeading,
      fun a b c ha hd t => by rw [h.roots a b c ha hd t]; ring⟩
  refine ⟨_, hsw, ?_, ?_⟩
  · rw [stepLenNp_eq hroot h hord hz hx]
    simp only [stepLen, hz, hxz, hx0, mul_zero, zero_sub, h1.1, h1.2, abs_neg, le_refl, if_true]
  · simp only [stepLen, hz, hxz, hx0, mul_zero, zero_sub, h1.1, h1.2, abs_neg, le_refl, if_true]

/-- C73, example: the hypotheses on the model hold for a saddle. -/
example : SymmetricMat (fun i j : Fin 2 => if i = j then (0 : ℚ) else 1) :=
  fun i j => by simp [eq_comm]

end Tranquilo
