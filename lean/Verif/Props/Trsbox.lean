import Verif.Lemmas.TrsboxAlt
import Mathlib.Data.Fin.VecNotation
import Mathlib.Analysis.SpecialFunctions.Pow.Real
import Mathlib.Tactic.FinCases
import Mathlib.Tactic.NormNum

/-! # C74: the quadratic trsbox solver -/

namespace Tranquilo

variable {K : Type} [Field K] [LinearOrder K] [IsStrictOrderedRing K] [FloorSemiring K] {n : Nat}
variable {root : K → K} {radius : K}

/-- C74: the solver always returns, and the point is within the bounds and the trust region and not worse
than the center. -/
theorem C74_in_region_and_descent (hroot : SqrtSpec root) (g l u : Vec K n) (h : Mat K n n)
    (hs : SymmetricMat h) (hl : ∀ i, l i ≤ 0) (hu : ∀ i, 0 ≤ u i) :
    ∃ x, minimizeTrsbox root g h radius l u = .ok x ∧ InBox l u x ∧ NormLe x radius ∧
      quadModel g h x ≤ 0 := by
  have hspec := minimizeTrsbox_spec (g := g) (radius := radius) hroot hs hl hu
  cases hx : minimizeTrsbox root g h radius l u with
  | error e => rw [hx] at hspec; exact hspec.elim
  | ok x =>
    rw [hx] at hspec
    obtain ⟨h1, h2, h3⟩ : InBox l u x ∧ dot x x ≤ radius ^ 2 ∧ quadModel g h x ≤ 0 := hspec
    exact ⟨x, rfl, h1, by unfold NormLe; rw [sumSq_eq_dot]; exact h2, h3⟩

/-- C74, stopping rules: the rules that end the conjugate gradient loop and the alternative step compare
with the total reduction so far. The variable in which the solver collects it is the true reduction of the
model, after the conjugate gradient loop and after the alternative step. -/
theorem C74_total_reduction (hroot : SqrtSpec root) (g l u : Vec K n) (h : Mat K n n)
    (hs : SymmetricMat h) (hl : ∀ i, l i ≤ 0) (hu : ∀ i, 0 ≤ u i) (k k' maxIter : Nat)
    (r : TrsState K n × Bool) (hr : trsLoop root h l u k (trsStart g l u radius) = .ok r) :
    r.1.total = quadModel g h (fun _ => 0) - quadModel g h r.1.x ∧
    ∀ t, altOuter root h l u maxIter k'
        { x := r.1.x, side := r.1.side, gradient := r.1.gradient, total := r.1.total
          nFixed := r.1.nFixed } = .ok t →
      t.total = quadModel g h (fun _ => 0) - quadModel g h t.x := by
  obtain ⟨h1, h2⟩ := trsStart_inv (g := g) (h := h) (radius := radius) hl hu
  have h0 : quadModel g h (fun _ => 0) = 0 := by simp [quadModel]
  have hstart : (trsStart g l u radius).total = -(quadModel g h (trsStart g l u radius).x) := by
    change (0 : K) = -(quadModel g h fun _ => 0)
    rw [h0, neg_zero]
  have htot := trsLoop_total hroot hs k h1 h2 hstart hr
  have hinv := trsLoop_spec hroot hs k h1 h2
  rw [hr] at hinv
  refine ⟨by rw [h0, htot, zero_sub], fun t ht => ?_⟩
  have hout := altOuter_spec (maxIter := maxIter) hroot hs k' (s :=
    { x := r.1.x, side := r.1.side, gradient := r.1.gradient, total := r.1.total
      nFixed := r.1.nFixed }) hinv
  rw [ht] at hout
  rw [h0, hout.2 htot, zero_sub]

omit [FloorSemiring K] in
theorem quadModel_ray (g p l u : Vec K n) (h : Mat K n n) (hs : SymmetricMat h)
    (hp : p = projectedDescent g l u) (b : K) :
    quadModel g h (fun i => b * p i) = -(b * dot p p) + b ^ 2 / 2 * dot p (matVec h p) := by
  have h1 : (fun i => b * p i) = fun i => (0 : K) + b * p i := by funext i; ring
  have h0 : quadModel g h (fun _ => 0) = 0 := by simp [quadModel]
  have hg : (fun i => g i + matVec h (fun _ => (0 : K)) i) = g := by
    funext i; simp [matVec]
  have hgp : dot g p = -dot p p := by
    unfold dot
    rw [← Finset.sum_neg_distrib]
    refine Finset.sum_congr rfl fun i _ => ?_
    have hi : p i = 0 ∨ p i = -(g i) := by
      rw [hp]; unfold projectedDescent
      split
      · exact Or.inl rfl
      · exact Or.inr rfl
    rcases hi with hi | hi
    · rw [hi]; ring
    · rw [hi]; ring
  rw [h1, quadModel_axpy g h hs (fun _ => 0) p b, h0, hg, hgp, quadForm_eq_dot]
  ring

/-- The result is not worse than the point after the first step. -/
theorem trsbox_first (hroot : SqrtSpec root) (g l u x : Vec K n) (h : Mat K n n) (hs : SymmetricMat h)
    (hl : ∀ i, l i ≤ 0) (hu : ∀ i, 0 ≤ u i) (p : Vec K n) (hp : p = projectedDescent g l u)
    (hp0 : ∃ i, p i ≠ 0) (hrad : 0 < radius) (hr : (1 / 10 ^ 30) ^ 2 * sumSq p < radius ^ 2)
    (hc : 1 / 10 ^ 30 * dot p (matVec h p) < sumSq p)
    (hx : minimizeTrsbox root g h radius l u = .ok x) :
    ∃ c, 0 < c ∧ quadModel g h x ≤ quadModel g h (fun i => c * p i) ∧
      c * dot p (matVec h p) ≤ dot p p ∧
      ∀ b, 0 ≤ b → InBox l u (fun i => b * p i) → NormLe (fun i => b * p i) radius →
        quadModel g h (fun i => c * p i) ≤ quadModel g h (fun i => b * p i) := by
  rw [sumSq_eq_dot] at hr hc
  have hpp : 0 < dot p p := by
    refine lt_of_le_of_ne (dot_self_nonneg p) fun h0 => ?_
    obtain ⟨i, hi⟩ := hp0
    exact hi (congrFun (dot_self_eq_zero h0.symm) i)
  have hpi : ∀ i, p i = if trsboxSides g l u i = .free then -(g i) else 0 := by
    intro i
    rw [hp]
    unfold projectedDescent trsboxSides
    by_cases h1 : u i ≤ 0 ∧ g i ≤ 0
    · rw [if_pos (Or.inl h1), if_pos h1]; rfl
    · by_cases h2 : 0 ≤ l i ∧ 0 ≤ g i
      · rw [if_pos (Or.inr h2), if_neg h1, if_pos h2]; rfl
      · rw [if_neg (not_or.2 ⟨h1, h2⟩), if_neg h1, if_neg h2]; rfl
  obtain ⟨c, hc0, hpass, hcp, hbest⟩ := trsFirst_spec hroot hs hl hu hpi hpp hrad hr hc
  obtain ⟨hinv, hex⟩ := trsStart_inv (g := g) (h := h) (radius := radius) hl hu
  refine ⟨c, hc0, ?_, hcp, fun b hb hbox hball => ?_⟩
  · have hpassinv := trsPass_spec hroot hs hinv hex
    have hn : 100 * n ^ 2 = (100 * n ^ 2 - 1) + 1 := by
      obtain ⟨i, -⟩ := hp0
      have hpos : 0 < n := Fin.pos i
      have : 0 < 100 * n ^ 2 := by positivity
      omega
    cases hr1 : trsPass root h l u (trsStart g l u radius) with
    | error e => rw [hr1] at hpass; exact hpass.elim
    | ok r =>
      rw [hr1] at hpass hpassinv
      have hrx : r.1.x = fun i => c * p i := hpass
      have h1 : TrsInv g h l u radius (quadModel g h fun i => c * p i) r.1.x r.1.side r.1.gradient :=
        { hpassinv.1 with value := by rw [hrx] }
      have h2 : r.2 = none → TrsExtra radius r.1 := hpassinv.2
      have hspec : OkWith (fun y => InBox l u y ∧ dot y y ≤ radius ^ 2 ∧
          quadModel g h y ≤ quadModel g h fun i => c * p i) (minimizeTrsbox root g h radius l u) := by
        unfold minimizeTrsbox
        refine OkWith.bind (P := fun r => TrsInv g h l u radius (quadModel g h fun i => c * p i)
          r.1.x r.1.side r.1.gradient) ?_ fun r hr => trsFinish_spec hroot hs hr
        rw [hn]
        unfold trsLoop
        rw [hr1]
        obtain ⟨t, o⟩ := r
        cases o with
        | some alt => exact h1
        | none => exact trsLoop_spec hroot hs _ h1 (h2 rfl)
      rw [hx] at hspec
      exact hspec.2.2
  · rw [quadModel_ray g p l u h hs hp, quadModel_ray g p l u h hs hp]
    unfold NormLe at hball
    rw [sumSq_eq_dot] at hball
    exact hbest b hb hbox hball

/-- C74, quality: the result is not worse than any point along the direction of steepest descent (without
the components that leave the box at once) that is in the box and in the trust region. The two bounds say
that the first step is not negligible: the solver gives up for steps up to 1e-30. -/
theorem C74_cauchy_decrease (hroot : SqrtSpec root) (g l u x : Vec K n) (h : Mat K n n)
    (hs : SymmetricMat h) (hl : ∀ i, l i ≤ 0) (hu : ∀ i, 0 ≤ u i) (p : Vec K n)
    (hp : p = projectedDescent g l u) (hrad : 0 < radius)
    (hr : (1 / 10 ^ 30) ^ 2 * sumSq p < radius ^ 2)
    (hc : (∃ i, p i ≠ 0) → 1 / 10 ^ 30 * (∑ i, ∑ j, h i j * p i * p j) < sumSq p)
    (hx : minimizeTrsbox root g h radius l u = .ok x) (b : K) (hb : 0 ≤ b)
    (hbox : InBox l u (fun i => b * p i)) (hball : NormLe (fun i => b * p i) radius) :
    quadModel g h x ≤ quadModel g h (fun i => b * p i) := by
  by_cases hp0 : ∃ i, p i ≠ 0
  · have hq : ∑ i, ∑ j, h i j * p i * p j = dot p (matVec h p) := by
      simp only [dot, matVec, Finset.mul_sum]
      exact Finset.sum_congr rfl fun i _ => Finset.sum_congr rfl fun j _ => by ring
    rw [hq] at hc
    obtain ⟨c, -, h1, -, h3⟩ := trsbox_first hroot g l u x h hs hl hu p hp hp0 hrad hr (hc hp0) hx
    exact h1.trans (h3 b hb hbox hball)
  · push Not at hp0
    obtain ⟨y, hy, -, -, h1⟩ := C74_in_region_and_descent (radius := radius) hroot g l u h hs hl hu
    rw [hx] at hy
    cases hy
    have h0 : (fun i => b * p i) = fun _ => 0 := by funext i; rw [hp0 i, mul_zero]
    rw [h0]
    have : quadModel g h (fun _ => 0) = 0 := by simp [quadModel]
    rw [this]
    exact h1

/-- C74, progress: if the center is not a first order point of the box, the model is strictly smaller at
the result than at the center. -/
theorem C74_progress (hroot : SqrtSpec root) (g l u x : Vec K n) (h : Mat K n n)
    (hs : SymmetricMat h) (hl : ∀ i, l i ≤ 0) (hu : ∀ i, 0 ≤ u i) (p : Vec K n)
    (hp : p = projectedDescent g l u) (hp0 : ∃ i, p i ≠ 0) (hrad : 0 < radius)
    (hr : (1 / 10 ^ 30) ^ 2 * sumSq p < radius ^ 2)
    (hc : 1 / 10 ^ 30 * (∑ i, ∑ j, h i j * p i * p j) < sumSq p)
    (hx : minimizeTrsbox root g h radius l u = .ok x) :
    quadModel g h x < 0 := by
  have hq : ∑ i, ∑ j, h i j * p i * p j = dot p (matVec h p) := by
    simp only [dot, matVec, Finset.mul_sum]
    exact Finset.sum_congr rfl fun i _ => Finset.sum_congr rfl fun j _ => by ring
  rw [hq] at hc
  obtain ⟨c, hc0, h1, h2, -⟩ := trsbox_first hroot g l u x h hs hl hu p hp hp0 hrad hr hc hx
  refine lt_of_le_of_lt h1 ?_
  have hpp : 0 < dot p p := by
    refine lt_of_le_of_ne (dot_self_nonneg p) fun h0 => ?_
    obtain ⟨i, hi⟩ := hp0
    exact hi (congrFun (dot_self_eq_zero h0.symm) i)
  rw [quadModel_ray g p l u h hs hp]
  have e : -(c * dot p p) + c ^ 2 / 2 * dot p (matVec h p)
      = -(c / 2 * dot p p) - c / 2 * (dot p p - c * dot p (matVec h p)) := by ring
  rw [e]
  have := mul_nonneg (half_pos hc0).le (sub_nonneg.2 h2)
  have := mul_pos (half_pos hc0) hpp
  linarith

/-- A concave model, with a bound on the first parameter that is active at the center. -/
def trsboxGradient : Vec ℝ 2 := ![1, -2]

def trsboxHessian : Mat ℝ 2 2 := ![![2, 1], ![1, -3]]

theorem trsboxRoot_spec : SqrtSpec Real.sqrt := fun a ha => ⟨Real.sqrt_nonneg a, Real.mul_self_sqrt ha⟩

/-- The hypotheses are met by a model with an indefinite Hessian and a center at a bound. -/
example : ∃ x, minimizeTrsbox Real.sqrt trsboxGradient trsboxHessian 1 ![-1, -1] ![0, 1] = .ok x ∧
    InBox ![-1, -1] ![0, 1] x ∧ NormLe x 1 ∧ quadModel trsboxGradient trsboxHessian x < 0 := by
  have hs : SymmetricMat trsboxHessian := by
    intro i j; fin_cases i <;> fin_cases j <;> rfl
  have hl : ∀ i, (![-1, -1] : Vec ℝ 2) i ≤ 0 := by intro i; fin_cases i <;> norm_num
  have hu : ∀ i, 0 ≤ (![0, 1] : Vec ℝ 2) i := by intro i; fin_cases i <;> norm_num
  have hp : (![-1, 2] : Vec ℝ 2) = projectedDescent trsboxGradient ![-1, -1] ![0, 1] := by
    funext i; fin_cases i <;> norm_num [projectedDescent, trsboxGradient]
  obtain ⟨x, hx, h1, h2, -⟩ := C74_in_region_and_descent (radius := 1) trsboxRoot_spec trsboxGradient
    ![-1, -1] ![0, 1] trsboxHessian hs hl hu
  refine ⟨x, hx, h1, h2, C74_progress trsboxRoot_spec trsboxGradient _ _ x trsboxHessian hs hl hu _ hp
    ⟨0, by norm_num⟩ one_pos ?_ ?_ hx⟩
  · norm_num [sumSq, Fin.sum_univ_two]
  · norm_num [sumSq, Fin.sum_univ_two, trsboxHessian]

/-- The loop of that model ends, whatever its number of passes, so the collected reduction is the true
one. -/
example (k : Nat) : ∃ r, trsLoop Real.sqrt trsboxHessian ![-1, -1] ![0, 1] k
      (trsStart trsboxGradient ![-1, -1] ![0, 1] 1) = .ok r ∧
    r.1.total = quadModel trsboxGradient trsboxHessian (fun _ => 0)
      - quadModel trsboxGradient trsboxHessian r.1.x := by
  have hs : SymmetricMat trsboxHessian := by
    intro i j; fin_cases i <;> fin_cases j <;> rfl
  have hl : ∀ i, (![-1, -1] : Vec ℝ 2) i ≤ 0 := by intro i; fin_cases i <;> norm_num
  have hu : ∀ i, 0 ≤ (![0, 1] : Vec ℝ 2) i := by intro i; fin_cases i <;> norm_num
  obtain ⟨h1, h2⟩ := trsStart_inv (g := trsboxGradient) (h := trsboxHessian) (radius := 1) hl hu
  have h3 := trsLoop_spec trsboxRoot_spec hs k h1 h2
  cases hr : trsLoop Real.sqrt trsboxHessian ![-1, -1] ![0, 1] k
      (trsStart trsboxGradient ![-1, -1] ![0, 1] 1) with
  | error e => rw [hr] at h3; exact h3.elim
  | ok r => exact ⟨r, rfl, (C74_total_reduction trsboxRoot_spec _ _ _ _ hs hl hu k 0 0 r hr).1⟩

end Tranquilo
