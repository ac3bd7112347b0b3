import Verif.Props.ConjugateGradient
import Verif.Spec.Bntr
import Mathlib.LinearAlgebra.Dimension.Constructions
import Mathlib.LinearAlgebra.Dimension.Finite
import Mathlib.LinearAlgebra.Dimension.StrongRankCondition

/-!
# C102: the conjugate gradient method ends by itself

The residuals of the method are orthogonal, so that there are at most as many passes as parameters and the limit of
twice that number is never reached.
-/

namespace Tranquilo

variable {K : Type} [Field K] [LinearOrder K] [IsStrictOrderedRing K] {n : Nat}

/-- Residual and direction of a state of the loop against those of the earlier states `ps`. -/
structure CgPast (h : Mat K n n) (ps : List (Vec K n × Vec K n)) (r d : Vec K n) : Prop where
  residuals : ∀ p ∈ ps, dot r p.1 = 0
  directions : ∀ p ∈ ps, dot r p.2 = 0
  conjugate : ∀ p ∈ ps, dot d (matVec h p.2) = 0
  image : ∀ p ∈ ps, ∀ v, (∀ q ∈ ps, dot v q.1 = 0) → dot v r = 0 → dot v (matVec h p.2) = 0
  spanned : ∀ v, (∀ q ∈ ps, dot v q.2 = 0) → dot v d = 0 → dot v r = 0
  spannedPast : ∀ p ∈ ps, ∀ v, (∀ q ∈ ps, dot v q.2 = 0) → dot v p.1 = 0
  descent : dot r d = -dot r r
  orthogonal : ps.Pairwise fun p q => dot p.1 q.1 = 0
  nonzero : ∀ p ∈ ps, dot p.1 p.1 ≠ 0

omit [LinearOrder K] [IsStrictOrderedRing K] in
theorem dot_mulVec_left (h : Mat K n n) (hs : SymmetricMat h) (d v : Vec K n) :
    dot (matVec h d) v = dot d (matVec h v) := by
  rw [dot_comm, matVec_symm h hs]

omit [IsStrictOrderedRing K] in
theorem cgPast_update (h : Mat K n n) (hs : SymmetricMat h) (ps : List (Vec K n × Vec K n)) (s : CgState K n)
    (inv : CgPast h ps s.residual s.direction) (hr : dot s.residual s.residual ≠ 0)
    (hq : quadForm h s.direction ≠ 0) :
    CgPast h ((s.residual, s.direction) :: ps)
      (cgUpdate h s (dot s.residual s.residual / quadForm h s.direction)).residual
      (cgUpdate h s (dot s.residual s.residual / quadForm h s.direction)).direction := by
  set α := dot s.residual s.residual / quadForm h s.direction with hα
  have hα0 : α ≠ 0 := div_ne_zero hr hq
  have hαq : α * quadForm h s.direction = dot s.residual s.residual := by rw [hα]; field_simp
  simp only [cgUpdate]
  set r' : Vec K n := fun i => s.residual i + α * matVec h s.direction i with hr'
  set β := dot r' r' / dot s.residual s.residual with hβ
  set d' : Vec K n := fun i => -(r' i) + β * s.direction i with hd'
  have hdr : ∀ v, dot v r' = dot v s.residual + α * dot v (matVec h s.direction) := fun v => by
    rw [hr', dot_axpy_right]
  have hdd : ∀ v, dot v d' = -dot v r' + β * dot v s.direction := fun v => by
    have e : d' = fun i => (fun i => -(r' i)) i + β * s.direction i := rfl
    rw [e, dot_axpy_right, dot_neg_right]
  have hold : ∀ p ∈ ps, dot r' p.2 = 0 := fun p hp => by
    rw [dot_comm, hdr, dot_comm, inv.directions p hp, matVec_symm h hs, inv.conjugate p hp]; ring
  have hnew : dot r' s.direction = 0 := by
    rw [dot_comm, hdr, dot_comm, inv.descent, ← quadForm_eq_dot, hαq]; ring
  have hrr : dot r' s.residual = 0 := inv.spanned r' hold hnew
  have hrp : ∀ p ∈ ps, dot r' p.1 = 0 := fun p hp => inv.spannedPast p hp r' hold
  have hcons : ∀ {P : Vec K n × Vec K n → Prop}, P (s.residual, s.direction) → (∀ p ∈ ps, P p) →
      ∀ p ∈ (s.residual, s.direction) :: ps, P p := fun h1 h2 p hp => by
    rcases List.mem_cons.1 hp with rfl | hp
    · exact h1
    · exact h2 p hp
  have hhd : ∀ v, dot v s.residual = 0 → dot v r' = 0 → dot v (matVec h s.direction) = 0 := fun v h1 h2 => by
    rw [hdr, h1, zero_add] at h2
    exact (mul_eq_zero.1 h2).resolve_left hα0
  have hspan : ∀ v, (∀ q ∈ (s.residual, s.direction) :: ps, dot v q.2 = 0) → dot v s.residual = 0 :=
    fun v hv => inv.spanned v (fun q hq => hv q (by simp [hq])) (hv (s.residual, s.direction) (by simp))
  refine ⟨hcons hrr hrp, hcons hnew hold, ?_, ?_, ?_, ?_, ?_, ?_, hcons hr inv.nonzero⟩
  · refine hcons ?_ fun p hp => ?_
    · change dot d' (matVec h s.direction) = 0
      rw [dot_comm, hdd, dot_comm _ r', dot_comm _ s.direction, ← quadForm_eq_dot]
      have h1 : α * dot r' (matVec h s.direction) = dot r' r' := by
        have := hdr r'
        rw [hrr, zero_add] at this
        exact this.symm
      have h2 : α * (-dot r' (matVec h s.direction) + β * quadForm h s.direction) = 0 := by
        rw [mul_add, mul_neg, h1, mul_left_comm, hαq, hβ, div_mul_cancel₀ _ hr]; ring
      exact (mul_eq_zero.1 h2).resolve_left hα0
    · rw [dot_comm, hdd, dot_comm _ r', dot_comm _ s.direction, inv.conjugate p hp,
        inv.image p hp r' hrp hrr]; ring
  · intro p hp v hv hvr
    rcases List.mem_cons.1 hp with rfl | hp
    · exact hhd v (hv (s.residual, s.direction) (by simp)) hvr
    · exact inv.image p hp v (fun q hq => hv q (by simp [hq])) (hv (s.residual, s.direction) (by simp))
  · intro v hv hvd
    rw [hdd, hv (s.residual, s.direction) (by simp)] at hvd
    linear_combination -hvd
  · intro p hp v hv
    rcases List.mem_cons.1 hp with rfl | hp
    · exact hspan v hv
    · exact inv.spannedPast p hp v fun q hq => hv q (by simp [hq])
  · rw [hdd, hnew]; ring
  · exact List.pairwise_cons.2 ⟨fun q hq => inv.residuals q hq, inv.orthogonal⟩

omit [LinearOrder K] [IsStrictOrderedRing K] in
/-- There are at most `n` orthogonal vectors that are not zero. -/
theorem length_le_of_orthogonal (ps : List (Vec K n × Vec K n))
    (ho : ps.Pairwise fun p q => dot p.1 q.1 = 0) (hz : ∀ p ∈ ps, dot p.1 p.1 ≠ 0) : ps.length ≤ n := by
  have hli : LinearIndependent K fun i : Fin ps.length => ps[i].1 := by
    rw [Fintype.linearIndependent_iff]
    intro c hc i
    have hdot : dot (∑ j, c j • ps[j].1) ps[i].1 = c i * dot ps[i].1 ps[i].1 := by
      have hlin : dot (∑ j, c j • ps[j].1) ps[i].1 = ∑ j, c j * dot ps[j].1 ps[i].1 := by
        simp only [dot, Finset.sum_apply, Pi.smul_apply, smul_eq_mul, Finset.sum_mul, Finset.mul_sum]
        rw [Finset.sum_comm]
        exact Finset.sum_congr rfl fun j _ => Finset.sum_congr rfl fun k _ => by ring
      rw [hlin]
      refine Finset.sum_eq_single i (fun j _ hj => ?_) (by simp)
      have : dot ps[j].1 ps[i].1 = 0 := by
        rcases lt_or_gt_of_ne hj with h | h
        · exact List.pairwise_iff_getElem.1 ho j i j.2 i.2 h
        · rw [dot_comm]
          exact List.pairwise_iff_getElem.1 ho i j i.2 j.2 h
      rw [this, mul_zero]
    rw [hc] at hdot
    have h0 : dot (0 : Vec K n) ps[i].1 = 0 := dot_zero_left _
    rw [h0] at hdot
    exact (mul_eq_zero.1 hdot.symm).resolve_right (hz _ (List.getElem_mem _))
  have := hli.fintype_card_le_finrank
  simpa using this

/-- The loop ends on the boundary, or with a residual below the tolerance, if enough passes are left. -/
theorem cgLoop_ends (root : K → K) (hroot : SqrtSpec root) (g : Vec K n) (h : Mat K n n) (hs : SymmetricMat h)
    (radius tol : K) (htol : 0 ≤ tol) (k : Nat) :
    ∀ (s : CgState K n) (ps : List (Vec K n × Vec K n)), CgInv g h radius s →
      CgPast h ps s.residual s.direction → n < k + ps.length →
      dot (cgLoop root (cgDistance root) cgUpdate h radius tol k s)
        (cgLoop root (cgDistance root) cgUpdate h radius tol k s) = radius ^ 2 ∨
      norm2 root (quadGradient g h (cgLoop root (cgDistance root) cgUpdate h radius tol k s)) ≤ tol := by
  induction k with
  | zero =>
    intro s ps _ past hk
    have := length_le_of_orthogonal ps past.orthogonal past.nonzero
    omega
  | succ k ih =>
    intro s ps inv past hk
    simp only [cgLoop]
    split
    · rename_i h1
      rw [inv.residual] at h1
      exact .inr h1
    · rename_i htol'
      have hrr := norm2_pos hroot htol htol'
      have hdd := direction_pos hrr inv.descent
      obtain ⟨-, d1, d2⟩ := cgDistance_spec root hroot s.x s.direction radius hdd inv.inside
      split
      · exact .inl (by rw [norm_axpy]; exact d1)
      · rename_i hb
        push Not at hb
        obtain ⟨hq, hb⟩ := hb
        have hα0 : 0 ≤ dot s.residual s.residual / quadForm h s.direction := div_nonneg hrr.le hq.le
        have hin : dot (cgUpdate h s (dot s.residual s.residual / quadForm h s.direction)).x
            (cgUpdate h s (dot s.residual s.residual / quadForm h s.direction)).x ≤ radius ^ 2 := by
          simp only [cgUpdate]
          rw [norm_axpy]
          exact d2 _ hα0 hb
        refine ih _ ((s.residual, s.direction) :: ps) (cgInv_update g h radius s inv hq hin)
          (cgPast_update h hs ps s past hrr.ne' hq.ne') ?_
        simp only [List.length_cons]
        omega

/-- C102: the step of `minimize_trust_cg` is on the boundary of the trust region, or the gradient of the model at the
step is below the tolerance: the limit of iterations never cuts the method off. For every symmetric Hessian. -/
theorem C102_stationary_or_on_boundary (root : K → K) (hroot : SqrtSpec root) (g : Vec K n) (h : Mat K n n)
    (hs : SymmetricMat h) (radius gtolAbs gtolRel : K) (htol : 0 ≤ gtolAbs) :
    sumSq (minimizeCg root g h radius gtolAbs gtolRel) = radius ^ 2 ∨
    norm2 root (quadGradient g h (minimizeCg root g h radius gtolAbs gtolRel))
      ≤ max gtolAbs (gtolRel * norm2 root g) := by
  have ht : 0 ≤ max gtolAbs (gtolRel * norm2 root g) := le_max_of_le_left htol
  rw [sumSq_eq_dot]
  rcases Nat.eq_zero_or_pos n with hn | hn
  · right
    refine le_trans (le_of_eq ?_) ht
    have h0 : dot (quadGradient g h (minimizeCg root g h radius gtolAbs gtolRel))
        (quadGradient g h (minimizeCg root g h radius gtolAbs gtolRel)) = 0 := by
      subst hn
      simp [dot]
    rw [norm2, h0]
    obtain ⟨-, h2⟩ := hroot 0 le_rfl
    exact mul_self_eq_zero.1 h2
  · refine cgLoop_ends root hroot g h hs radius _ ht (n * 2) (cgStart g) [] (cgInv_start g h radius) ?_
      (by simp; omega)
    refine ⟨by simp, by simp, by simp, by simp, fun v _ hv => ?_, by simp, (cgInv_start g h radius).descent, .nil,
      by simp⟩
    simp only [cgStart] at hv ⊢
    rw [dot_neg_right, neg_eq_zero] at hv
    exact hv

/-- C102, convex models: unless the step is on the boundary, no point of the trust region is better by more than
twice the radius times the tolerance; without tolerance the step is a global minimizer. -/
theorem C102_convex (root : K → K) (hroot : SqrtSpec root) (g : Vec K n) (h : Mat K n n)
    (hs : SymmetricMat h) (hconv : PosSemidef h) (radius gtolAbs gtolRel : K) (hradius : 0 ≤ radius)
    (htol : 0 ≤ gtolAbs) (hinside : sumSq (minimizeCg root g h radius gtolAbs gtolRel) < radius ^ 2)
    (y : Vec K n) (hy : NormLe y radius) :
    quadModel g h (minimizeCg root g h radius gtolAbs gtolRel)
      ≤ quadModel g h y + 2 * radius * max gtolAbs (gtolRel * norm2 root g) := by
  have ht : 0 ≤ max gtolAbs (gtolRel * norm2 root g) := le_max_of_le_left htol
  have hgrad := (C102_stationary_or_on_boundary root hroot g h hs radius gtolAbs gtolRel htol).resolve_left hinside.ne
  set tol := max gtolAbs (gtolRel * norm2 root g)
  set x := minimizeCg root g h radius gtolAbs gtolRel
  set v : Vec K n := fun i => y i - x i with hv
  have hyx : y = fun i => x i + 1 * v i := by funext i; simp [hv]
  have hq : 0 ≤ quadForm h v := by
    have := hconv v
    have e : quadForm h v = ∑ i, ∑ j, h i j * v i * v j := by
      rw [quadForm_eq_dot]
      simp only [dot, matVec, Finset.mul_sum]
      exact Finset.sum_congr rfl fun i _ => Finset.sum_congr rfl fun j _ => by ring
    rwa [e]
  have hline := quadModel_axpy g h hs x v 1
  rw [← hyx] at hline
  have hgx : (fun i => g i + matVec h x i) = quadGradient g h x := rfl
  rw [hgx] at hline
  set r := quadGradient g h x
  have hrr : dot r r ≤ tol ^ 2 := by
    obtain ⟨h1, h2⟩ := hroot _ (dot_self_nonneg r)
    have : root (dot r r) * root (dot r r) ≤ tol * tol := mul_self_le_mul_self h1 hgrad
    rw [h2] at this
    linarith [sq tol]
  have hvv : dot v v ≤ (2 * radius) ^ 2 := by
    rw [NormLe, sumSq_eq_dot] at hy
    rw [sumSq_eq_dot] at hinside
    have h1 := norm_axpy y x (-1)
    have h2 := norm_axpy y x 1
    have h3 := dot_self_nonneg fun i => y i + 1 * x i
    have e : v = fun i => y i + -1 * x i := by funext i; simp [hv]; ring
    rw [← e] at h1
    nlinarith
  have hrv : (dot r v) ^ 2 ≤ (2 * radius * tol) ^ 2 := by
    calc (dot r v) ^ 2 ≤ dot r r * dot v v := cauchy_schwarz r v
      _ ≤ tol ^ 2 * (2 * radius) ^ 2 := mul_le_mul hrr hvv (dot_self_nonneg v) (sq_nonneg _)
      _ = _ := by ring
  have habs := abs_le_of_sq_le_sq hrv (by positivity)
  nlinarith [(abs_le.1 habs).1]

/-- C102 for the numba version. -/
theorem C102_numba_version (root : K → K) (hroot : SqrtSpec root) (g : Vec K n) (h : Mat K n n)
    (hs : SymmetricMat h) (radius gtolAbs gtolRel : K) (htol : 0 ≤ gtolAbs) :
    sumSq (minimizeCgFast root g h radius gtolAbs gtolRel) = radius ^ 2 ∨
    norm2 root (quadGradient g h (minimizeCgFast root g h radius gtolAbs gtolRel))
      ≤ max gtolAbs (gtolRel * norm2 root g) := by
  rw [C73_conjugate_gradient]
  exact C102_stationary_or_on_boundary root hroot g h hs radius gtolAbs gtolRel htol

/-- C102: a convex model with its minimizer `(1, 1/2)` inside of the region; the method finds it in two passes. (All
square roots that occur are of zero or do not matter.) -/
example : (fun i => minimizeCg (K := ℚ) (fun a => a) ![-1, -1] ![![1, 0], ![0, 2]] 10 0 0 i) = ![1, 1 / 2] ∧
    sumSq (![1, 1 / 2] : Vec ℚ 2) < 10 ^ 2 := by
  decide +kernel

/-- C102: the hypotheses are satisfied by an indefinite Hessian and the real square root. -/
example : sumSq (minimizeCg Real.sqrt ![1, 0] ![![-1, 2], ![2, 3]] 1 0 0) = 1 ^ 2 ∨
    norm2 Real.sqrt (quadGradient ![1, 0] ![![-1, 2], ![2, 3]] (minimizeCg Real.sqrt ![1, 0] ![![-1, 2], ![2, 3]] 1 0 0))
      ≤ max 0 (0 * norm2 Real.sqrt ![1, 0]) :=
  C102_stationary_or_on_boundary Real.sqrt (fun a ha => ⟨Real.sqrt_nonneg a, Real.mul_self_sqrt ha⟩) _ _
    (fun i j => by fin_cases i <;> fin_cases j <;> rfl) 1 0 0 le_rfl

end Tranquilo
