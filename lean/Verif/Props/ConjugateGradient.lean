import Verif.Lemmas.ConjugateGradient
import Mathlib.Analysis.SpecialFunctions.Pow.Real
import Mathlib.Tactic.FinCases
import Mathlib.Tactic.NormNum

/-!
# C42, C43, C73 (conjugate gradient part): truncated conjugate gradient methods
-/

namespace Tranquilo

variable {K : Type} [Field K] [LinearOrder K] [IsStrictOrderedRing K] {n : Nat}

/-- C42: the step is in the trust region and its model value is not larger than that of no step (zero);
for every symmetric Hessian, definite or not. -/
theorem C42_in_region_and_descent (root : K → K) (hroot : SqrtSpec root) (g : Vec K n) (h : Mat K n n)
    (hs : SymmetricMat h) (radius gtolAbs gtolRel : K) (htol : 0 ≤ gtolAbs) :
    NormLe (minimizeCg root g h radius gtolAbs gtolRel) radius ∧
    quadModel g h (minimizeCg root g h radius gtolAbs gtolRel) ≤ 0 := by
  obtain ⟨h1, h2⟩ := cgLoop_spec root hroot g h hs radius (max gtolAbs (gtolRel * norm2 root g))
    (le_max_of_le_left htol) (n * 2) _ (cgInv_start g h radius)
  refine ⟨by rw [NormLe, sumSq_eq_dot]; exact h1, h2.trans ?_⟩
  rw [quadModel_eq, quadForm_eq_dot]
  simp only [cgStart]
  rw [dot_zero_right, dot_zero_left]; simp

/-- C42, quality of the step: unless the gradient is below the tolerance, the step is at least as good
as the best step in the direction of steepest descent inside of the region (Cauchy point). -/
theorem C42_cauchy_decrease (root : K → K) (hroot : SqrtSpec root) (g : Vec K n) (h : Mat K n n)
    (hs : SymmetricMat h) (radius gtolAbs gtolRel : K) (htol : 0 ≤ gtolAbs)
    (hg : ¬ norm2 root g ≤ max gtolAbs (gtolRel * norm2 root g)) (t : K) (ht : 0 ≤ t)
    (hin : NormLe (fun i => -(t * g i)) radius) :
    quadModel g h (minimizeCg root g h radius gtolAbs gtolRel) ≤ quadModel g h fun i => -(t * g i) := by
  have htol' : 0 ≤ max gtolAbs (gtolRel * norm2 root g) := le_max_of_le_left htol
  set tol := max gtolAbs (gtolRel * norm2 root g) with htoldef
  have hgg : 0 < dot g g := norm2_pos hroot htol' hg
  have inv := cgInv_start g h radius
  have hn : n ≠ 0 := by
    rintro rfl
    simp [dot] at hgg
  obtain ⟨k, hk⟩ : ∃ k, n * 2 = k + 1 := ⟨n * 2 - 1, by omega⟩
  have hdd : dot (fun i => -(g i)) (fun i => -(g i)) = dot g g := by
    rw [dot_neg_left, dot_neg_right, neg_neg]
  have hline : ∀ u : K, quadModel g h (fun i => (0 : K) + u * -(g i))
      = -(u * dot g g) + u ^ 2 / 2 * quadForm h fun i => -(g i) := by
    intro u
    have := quadModel_axpy g h hs (fun _ => 0) (fun i => -(g i)) u
    rw [this, quadModel_eq, quadForm_eq_dot h fun _ => 0, dot_zero_right, dot_zero_left]
    have e : (fun i => g i + matVec h (fun _ => 0) i) = g := by funext i; simp [matVec]
    rw [e, dot_neg_right]; ring
  have ht' : (fun i => -(t * g i)) = fun i => (0 : K) + t * -(g i) := by funext i; ring
  rw [ht', hline]
  obtain ⟨d0, d1, d2⟩ := cgDistance_spec root hroot (fun _ => 0) (fun i => -(g i)) radius
    (by rw [hdd]; exact hgg) (by rw [dot_zero_left]; positivity)
  rw [dot_zero_left, dot_zero_left, hdd] at d1
  have hball : t ^ 2 * dot g g ≤ radius ^ 2 := by
    rw [NormLe, sumSq_eq_dot, ht', norm_axpy, dot_zero_left, dot_zero_left, hdd] at hin
    linarith
  simp only [minimizeCg, hk, cgLoop, ← htoldef]
  rw [if_neg (by simpa [cgStart] using hg)]
  set σ := cgDistance root (fun _ => 0) (fun i => -(g i)) radius with hσ
  have hts : t ≤ σ := by
    by_contra hc
    push Not at hc
    nlinarith [mul_lt_mul_of_pos_right (pow_lt_pow_left₀ hc d0 two_ne_zero) hgg]
  split
  · rename_i hb
    simp only [cgStart] at hb ⊢
    rw [← hσ] at hb ⊢
    rw [hline]
    set Q := quadForm h fun i => -(g i)
    have key : (t + σ) / 2 * Q ≤ dot g g := by
      rcases hb with hb | hb
      · nlinarith [mul_nonneg (add_nonneg ht d0) (neg_nonneg.2 hb)]
      · by_cases hq : Q ≤ 0
        · nlinarith [mul_nonneg (add_nonneg ht d0) (neg_nonneg.2 hq)]
        · push Not at hq
          rw [lt_div_iff₀ hq] at hb
          nlinarith [mul_nonneg (sub_nonneg.2 hts) hq.le]
    nlinarith [mul_nonneg (sub_nonneg.2 hts) (sub_nonneg.2 key)]
  · rename_i hb
    push Not at hb
    obtain ⟨hq, hb⟩ := hb
    have hα0 : 0 ≤ dot (cgStart g).residual (cgStart g).residual / quadForm h (cgStart g).direction :=
      div_nonneg hgg.le hq.le
    have hin' : dot (cgUpdate h (cgStart g) (dot (cgStart g).residual (cgStart g).residual /
        quadForm h (cgStart g).direction)).x (cgUpdate h (cgStart g) (dot (cgStart g).residual
        (cgStart g).residual / quadForm h (cgStart g).direction)).x ≤ radius ^ 2 := by
      simp only [cgUpdate]
      rw [norm_axpy]
      exact d2 _ hα0 hb
    obtain ⟨-, i2⟩ := cgLoop_spec root hroot g h hs radius tol htol' k _
      (cgInv_update g h radius _ inv hq hin')
    refine i2.trans ?_
    simp only [cgUpdate]
    simp only [cgStart] at hq ⊢
    rw [hline]
    set Q := quadForm h fun i => -(g i)
    set α := dot g g / Q with hα
    have e : α * Q = dot g g := by rw [hα]; field_simp
    have h2 := mul_nonneg (sq_nonneg (t - α)) hq.le
    rw [← e]
    nlinarith [h2]

/-- C42, example: an indefinite model where the second iteration meets negative curvature is solved
within the region (the hypotheses hold, and the tolerance is not met at the start). -/
example : let g : Vec ℝ 2 := ![1, 1]
    let h : Mat ℝ 2 2 := ![![2, 0], ![0, -1]]
    SymmetricMat h ∧ SqrtSpec Real.sqrt ∧ ¬ norm2 Real.sqrt g ≤ max 0 (0 * norm2 Real.sqrt g) := by
  refine ⟨fun i j => by fin_cases i <;> fin_cases j <;> rfl,
    fun a ha => ⟨Real.sqrt_nonneg a, Real.mul_self_sqrt ha⟩, ?_⟩
  simp [norm2, dot, Fin.sum_univ_two]

/-! ## C73 -/

section
omit [IsStrictOrderedRing K]

omit [LinearOrder K] in
theorem foldl_add_eq_sum {ι : Type} (f : ι → K) (l : List ι) (a : K) :
    l.foldl (fun t j => t + f j) a = a + (l.map f).sum := by
  induction l generalizing a with
  | nil => simp
  | cons b l ih => rw [List.foldl_cons, ih, List.map_cons, List.sum_cons]; ring

omit [LinearOrder K] in
theorem finRange_sum (f : Fin n → K) : ((List.finRange n).map f).sum = ∑ i, f i := by
  rw [← List.ofFn_eq_map, List.sum_ofFn]

omit [LinearOrder K] in
theorem cgDistanceSums_eq (x d : Vec K n) : cgDistanceSums x d = (dot x x, dot x d, dot d d) := by
  have key : ∀ (l : List (Fin n)) (a b c : K),
      l.foldl (fun acc i => (acc.1 + x i ^ 2, acc.2.1 + x i * d i, acc.2.2 + d i ^ 2)) (a, b, c)
        = (a + (l.map fun i => x i * x i).sum, b + (l.map fun i => x i * d i).sum,
            c + (l.map fun i => d i * d i).sum) := by
    intro l
    induction l with
    | nil => intro a b c; simp
    | cons i l ih =>
      intro a b c
      rw [List.foldl_cons, ih]
      simp only [List.map_cons, List.sum_cons]
      refine Prod.ext ?_ (Prod.ext ?_ ?_) <;> simp only <;> ring
  rw [cgDistanceSums, key]
  simp only [finRange_sum, zero_add, dot]

omit [LinearOrder K] in
theorem cgUpdateLoop_eq (h : Mat K n n) (s : CgState K n) (alpha : K) :
    cgUpdateLoop h s alpha = (fun i => s.x i + alpha * s.direction i,
      fun i => s.residual i + alpha * matVec h s.direction i,
      dot (fun i => s.residual i + alpha * matVec h s.direction i)
        (fun i => s.residual i + alpha * matVec h s.direction i), dot s.residual s.residual) := by
  have htemp : ∀ i, (List.finRange n).foldl (fun t j => t + h i j * s.direction j) 0
      = matVec h s.direction i := by
    intro i
    rw [foldl_add_eq_sum, finRange_sum, zero_add]; rfl
  have key : ∀ (l : List (Fin n)), l.Nodup → ∀ (x r : Vec K n) (a b : K),
      (∀ i ∈ l, x i = s.x i) →
      l.foldl (fun acc i =>
        let temp := (List.finRange n).foldl (fun t j => t + h i j * s.direction j) 0
        let new := temp * alpha + s.residual i
        (Function.update acc.1 i (acc.1 i + alpha * s.direction i), Function.update acc.2.1 i new,
          acc.2.2.1 + new * new, acc.2.2.2 + s.residual i * s.residual i)) (x, r, a, b)
        = (fun i => if i ∈ l then s.x i + alpha * s.direction i else x i,
           fun i => if i ∈ l then s.residual i + alpha * matVec h s.direction i else r i,
           a + (l.map fun i => (s.residual i + alpha * matVec h s.direction i) *
             (s.residual i + alpha * matVec h s.direction i)).sum,
           b + (l.map fun i => s.residual i * s.residual i).sum) := by
    intro l
    induction l with
    | nil => intro _ x r a b _; simp
    | cons j l ih =>
      intro hnd x r a b hx
      rw [List.nodup_cons] at hnd
      rw [List.foldl_cons]
      simp only [htemp]
      simp only [htemp] at ih
      rw [ih hnd.2]
      · refine Prod.ext ?_ (Prod.ext ?_ (Prod.ext ?_ ?_))
        · funext i
          simp only [List.mem_cons]
          by_cases hi : i ∈ l
          · simp [hi]
          · by_cases hij : i = j
            · subst hij; simp [hi, hx i]
            · simp [hi, hij]
        · funext i
          simp only [List.mem_cons]
          by_cases hi : i ∈ l
          · simp [hi]
          · by_cases hij : i = j
            · subst hij; simp [hi]; ring
            · simp [hi, hij]
        · simp only [List.map_cons, List.sum_cons]; ring
        · simp only [List.map_cons, List.sum_cons]; ring
      · intro i hi
        have hij : i ≠ j := fun e => hnd.1 (e ▸ hi)
        simp only [Function.update, hij, dite_false]
        exact hx i (List.mem_cons_of_mem _ hi)
  rw [cgUpdateLoop, key _ (List.nodup_finRange n) _ _ _ _ fun i _ => rfl]
  simp only [List.mem_finRange, if_true, finRange_sum, zero_add, dot]

end

omit [IsStrictOrderedRing K] in
/-- C73, conjugate gradient: the loops of the numba version compute the same step. -/
theorem C73_conjugate_gradient (root : K → K) (g : Vec K n) (h : Mat K n n)
    (radius gtolAbs gtolRel : K) :
    minimizeCgFast root g h radius gtolAbs gtolRel = minimizeCg root g h radius gtolAbs gtolRel := by
  have h1 : cgDistanceFast (n := n) root = cgDistance root := by
    funext x d r
    simp only [cgDistanceFast, cgDistanceSums_eq, cgDistance]
  have h2 : cgUpdateFast (K := K) (n := n) = cgUpdate := by
    funext h s a
    simp only [cgUpdateFast, cgUpdateLoop_eq, cgUpdate]
  rw [minimizeCgFast, minimizeCg, h1, h2]

/-! ## C43 -/

/-- Invariant of the Steihaug-Toint loop. -/
structure StInv (radius : K) (s : StState K n) : Prop where
  dp : s.dp = dot s.x s.p
  normD : s.normD = dot s.x s.x
  normP : s.normP = dot s.p s.p
  kappa : 0 < s.kappa
  inside : dot s.x s.x ≤ radius ^ 2

theorem stBoundaryStep_norm (root : K → K) (hroot : SqrtSpec root) (x p : Vec K n) (radius : K)
    (hp : 0 < dot p p) (hx : dot x x ≤ radius ^ 2) :
    dot (stBoundaryStep root x p (dot x p) (radius ^ 2) (dot x x) (dot p p))
      (stBoundaryStep root x p (dot x p) (radius ^ 2) (dot x x) (dot p p)) = radius ^ 2 := by
  have e : stBoundaryStep root x p (dot x p) (radius ^ 2) (dot x x) (dot p p)
      = fun i => x i + cgDistance root x p radius * p i := by
    funext i
    simp only [stBoundaryStep, cgDistance]
    rw [show -(dot x p) + root (dot x p * dot x p + dot p p * (radius ^ 2 - dot x x))
      = root (dot x p * dot x p + dot p p * (radius ^ 2 - dot x x)) - dot x p by ring]
  rw [e, norm_axpy]
  exact (cgDistance_spec root hroot x p radius hp hx).2.1

theorem stLoop_spec (root : K → K) (hroot : SqrtSpec root) (h : Mat K n n) (radius normR0 ttol : K)
    (hr : radius ≠ 0) (maxIter k : Nat) :
    ∀ (fin : Bool) (s : StState K n), StInv radius s →
      ∃ x, stLoop root h radius normR0 ttol maxIter k fin s = some x ∧ dot x x ≤ radius ^ 2 := by
  induction k with
  | zero => intro fin s inv; exact ⟨s.x, rfl, inv.inside⟩
  | succ k ih =>
    intro fin s inv
    simp only [stLoop]
    rw [if_neg inv.kappa.ne']
    split
    · refine ⟨_, rfl, ?_⟩
      split
      · rename_i hp
        rw [inv.normP] at hp
        rw [inv.dp, inv.normD, inv.normP]
        exact (stBoundaryStep_norm root hroot s.x s.p radius hp inv.inside).le
      · exact inv.inside
    · rename_i hb
      have hb' : ¬ radius ^ 2 ≤ s.normD + s.rz / s.kappa * (2 * s.dp + s.rz / s.kappa * s.normP) :=
        fun hc => hb ⟨hr, hc⟩
      have hin : dot (fun i => s.x i + s.rz / s.kappa * s.p i) (fun i => s.x i + s.rz / s.kappa * s.p i)
          ≤ radius ^ 2 := by
        push Not at hb'
        rw [inv.normD, inv.dp, inv.normP] at hb'
        rw [norm_axpy]
        linarith
      split
      · exact ⟨_, rfl, hin⟩
      · split
        · exact ⟨_, rfl, hin⟩
        · split
          · exact ⟨_, rfl, hin⟩
          · split
            · refine ⟨_, rfl, ?_⟩
              split
              · rename_i hp
                exact (stBoundaryStep_norm root hroot _ _ radius hp.2 hin).le
              · exact hin
            · rename_i hk
              push Not at hk
              exact ih false _ ⟨rfl, rfl, rfl, hk, hin⟩

/-- C43 where it is true: if the model is convex along the first direction (which is the negative
gradient, projected on the range of the Hessian), the step is in the trust region. Without this the
claim fails, see `C43_violated`, `C43_violated_linear_model`. -/
theorem C43_in_region_partial (root : K → K) (hroot : SqrtSpec root)
    (pinvMul : Mat K n n → Vec K n → Vec K n) (g : Vec K n) (h : Mat K n n) (radius : K)
    (hr : radius ≠ 0)
    (hcurv : 0 < quadForm h (matVec h (pinvMul h fun i => -(g i)))) :
    ∃ x, minimizeSt root pinvMul g h radius = some x ∧ NormLe x radius := by
  rw [quadForm_eq_dot] at hcurv
  simp only [minimizeSt]
  rw [if_neg (not_le.2 hcurv)]
  obtain ⟨x, h1, h2⟩ := stLoop_spec root hroot h radius (root (dot (fun i => -(g i)) fun i => -(g i)))
    (max (1 / 10 ^ 5 * root (dot (fun i => -(g i)) fun i => -(g i))) (1 / 10 ^ 50)) hr (min n 10000)
    (min n 10000) _
    { x := fun _ => 0, residual := fun i => -(g i), p := matVec h (pinvMul h fun i => -(g i))
      rz := dot (fun i => -(g i)) fun i => -(g i)
      kappa := dot (matVec h (pinvMul h fun i => -(g i)))
        (matVec h (matVec h (pinvMul h fun i => -(g i))))
      dp := 0, normD := 0
      normP := dot (matVec h (pinvMul h fun i => -(g i))) (matVec h (pinvMul h fun i => -(g i)))
      nIter := if (fun (_ : Fin n) => (0 : K), false).2 = true then 2 else 1 }
    ⟨by simp [dot_zero_left], by simp [dot_zero_left], rfl, hcurv, by simp [dot_zero_left]; positivity⟩
  exact ⟨x, h1, by rw [NormLe, sumSq_eq_dot]; exact h2⟩

/-- C43 is false: for the concave model `x - x^2 / 2` in one dimension and radius one (any exact
pseudo inverse), the step is `-2`: the first step goes to the boundary, then the loop adds a second
step of the same length, because it still works with the distance of the start point. -/
theorem C43_violated (pinvMul : Mat ℝ 1 1 → Vec ℝ 1 → Vec ℝ 1)
    (hp : pinvMul (fun _ _ => -1) (fun _ => -1) = fun _ => 1) :
    minimizeSt Real.sqrt pinvMul (fun _ => 1) (fun _ _ => -1) 1 = some (fun _ => -2) ∧
    ¬ NormLe (fun _ : Fin 1 => (-2 : ℝ)) 1 := by
  constructor
  · simp only [minimizeSt, hp]
    simp [matVec, dot, stFirstStep, stLoop, stBoundaryStep]
    funext i
    simp [stBoundaryStep, matVec]
    norm_num
  · simp [NormLe, sumSq]

/-- C43 is false: for a model without curvature the result has NaN entries. -/
theorem C43_violated_linear_model (root : K → K) (pinvMul : Mat K n n → Vec K n → Vec K n)
    (g : Vec K n) (radius : K) (hn : 0 < n) :
    minimizeSt root pinvMul g (fun _ _ => 0) radius = none := by
  obtain ⟨k, hk⟩ : ∃ k, min n 10000 = k + 1 := ⟨min n 10000 - 1, by omega⟩
  simp only [minimizeSt, hk, stLoop]
  simp [matVec, dot]

/-- C43, example for the hypotheses of the positive result: a strictly convex model. -/
example : 0 < quadForm (fun i j : Fin 2 => if i = j then (2 : ℚ) else 0)
    (matVec (fun i j : Fin 2 => if i = j then 2 else 0) ((fun _ v i => v i / 2)
      (fun i j : Fin 2 => if i = j then (2 : ℚ) else 0) fun i => -((![1, 3] : Vec ℚ 2) i))) := by
  decide +kernel

end Tranquilo
