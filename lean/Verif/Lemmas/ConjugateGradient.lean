import Verif.Lemmas.Dot
import Verif.Spec.Subsolver
import Mathlib.Tactic.LinearCombination

/-!
# Lemmas about the truncated conjugate gradient method
-/

namespace Tranquilo

variable {K : Type} [Field K] [LinearOrder K] [IsStrictOrderedRing K] {n : Nat}

section
omit [IsStrictOrderedRing K]

theorem sumSq_eq_dot (x : Vec K n) : sumSq x = dot x x :=
  Finset.sum_congr rfl fun i _ => by ring

theorem quadModel_eq (g : Vec K n) (h : Mat K n n) (x : Vec K n) :
    quadModel g h x = dot g x + quadForm h x / 2 := by
  have : quadForm h x = ∑ i, ∑ j, h i j * x i * x j := by
    rw [quadForm_eq_dot]
    simp only [dot, matVec, Finset.mul_sum]
    exact Finset.sum_congr rfl fun i _ => Finset.sum_congr rfl fun j _ => by ring
  rw [this]; rfl

/-- Change of the model along a line. -/
theorem quadModel_axpy [CharZero K] (g : Vec K n) (h : Mat K n n) (hs : SymmetricMat h) (x d : Vec K n)
    (t : K) :
    quadModel g h (fun i => x i + t * d i)
      = quadModel g h x + t * dot (fun i => g i + matVec h x i) d + t ^ 2 / 2 * quadForm h d := by
  rw [quadModel_eq, quadModel_eq, dot_axpy_right, quadForm_axpy h hs]
  have : dot (fun i => g i + matVec h x i) d = dot g d + dot (matVec h x) d := by
    have := dot_axpy g (matVec h x) d 1
    simpa using this
  rw [this]; ring

end

/-- The points on the ray that are not farther than the distance to the boundary are in the ball, and
the distance is not negative. -/
theorem cgDistance_spec (root : K → K) (hroot : SqrtSpec root) (x d : Vec K n) (radius : K)
    (hd : 0 < dot d d) (hx : dot x x ≤ radius ^ 2) :
    0 ≤ cgDistance root x d radius ∧
    dot x x + 2 * cgDistance root x d radius * dot x d + cgDistance root x d radius ^ 2 * dot d d
      = radius ^ 2 ∧
    ∀ t, 0 ≤ t → t ≤ cgDistance root x d radius → dot x x + 2 * t * dot x d + t ^ 2 * dot d d ≤ radius ^ 2 := by
  have hdisc : 0 ≤ dot x d * dot x d + dot d d * (radius ^ 2 - dot x x) :=
    add_nonneg (mul_self_nonneg _) (mul_nonneg hd.le (by linarith))
  obtain ⟨h0, h1⟩ := hroot _ hdisc
  set s := root (dot x d * dot x d + dot d d * (radius ^ 2 - dot x x)) with hs
  have hge : dot x d ≤ s := by
    by_contra hlt
    push Not at hlt
    have : s * s < dot x d * dot x d := mul_self_lt_mul_self h0 hlt
    nlinarith [mul_nonneg hd.le (sub_nonneg.2 hx)]
  have hσ : cgDistance root x d radius * dot d d = s - dot x d := by
    simp only [cgDistance, ← hs]; field_simp; ring
  have hσ0 : 0 ≤ cgDistance root x d radius := by
    simp only [cgDistance, ← hs]; exact div_nonneg (by linarith) hd.le
  set σ := cgDistance root x d radius
  have heq : dot x x + 2 * σ * dot x d + σ ^ 2 * dot d d = radius ^ 2 := by
    have h2 : (σ * dot d d + dot x d) ^ 2 = s * s := by rw [hσ]; ring
    have h3 : dot d d * (dot x x + 2 * σ * dot x d + σ ^ 2 * dot d d - radius ^ 2) = 0 := by
      linarith [h2, h1, show (σ * dot d d + dot x d) ^ 2 = dot d d * (2 * σ * dot x d + σ ^ 2 * dot d d) + dot x d * dot x d by ring]
    rcases mul_eq_zero.1 h3 with h | h
    · exact absurd h hd.ne'
    · linarith
  refine ⟨hσ0, heq, fun t ht hts => ?_⟩
  rcases eq_or_lt_of_le hσ0 with h | h
  · have : t = 0 := le_antisymm (h ▸ hts) ht
    subst this; linarith
  · -- convexity between 0 and σ
    have h1 : 0 ≤ (σ - t) * t * dot d d := mul_nonneg (mul_nonneg (by linarith) ht) hd.le
    have h2 : 0 ≤ (σ - t) * (radius ^ 2 - dot x x) := mul_nonneg (by linarith) (by linarith)
    have h3 : σ * (dot x x + 2 * t * dot x d + t ^ 2 * dot d d - radius ^ 2)
        = -(σ * ((σ - t) * t * dot d d)) - (σ - t) * (radius ^ 2 - dot x x) := by
      have : 2 * σ * dot x d = radius ^ 2 - dot x x - σ ^ 2 * dot d d := by linarith
      linear_combination t * this
    have h4 : σ * (dot x x + 2 * t * dot x d + t ^ 2 * dot d d - radius ^ 2) ≤ 0 := by
      rw [h3]; nlinarith [mul_nonneg hσ0 h1]
    by_contra hc
    push Not at hc
    nlinarith [mul_pos h (sub_pos.2 hc)]

/-- Invariant of the loop. -/
structure CgInv (g : Vec K n) (h : Mat K n n) (radius : K) (s : CgState K n) : Prop where
  residual : s.residual = fun i => g i + matVec h s.x i
  descent : dot s.residual s.direction = -dot s.residual s.residual
  inside : dot s.x s.x ≤ radius ^ 2

theorem norm2_pos {root : K → K} (hroot : SqrtSpec root) {r : Vec K n} {tol : K} (htol : 0 ≤ tol)
    (h : ¬ norm2 root r ≤ tol) : 0 < dot r r := by
  push Not at h
  have h0 := dot_self_nonneg r
  rcases eq_or_lt_of_le h0 with e | e
  · obtain ⟨-, h2⟩ := hroot _ h0
    rw [← e, mul_self_eq_zero] at h2
    simp only [norm2] at h
    rw [← e] at h
    linarith
  · exact e

theorem direction_pos {r d : Vec K n} (hr : 0 < dot r r) (hd : dot r d = -dot r r) : 0 < dot d d := by
  apply dot_self_pos
  rintro rfl
  rw [dot_zero_right] at hd
  linarith

theorem cgInv_start (g : Vec K n) (h : Mat K n n) (radius : K) :
    CgInv g h radius (cgStart g) where
  residual := by
    funext i
    simp [cgStart, matVec]
  descent := by simp only [cgStart]; rw [dot_neg_right]
  inside := by simp only [cgStart]; rw [dot_zero_left]; positivity

/-- An interior step keeps the invariant, if it stays in the ball. -/
theorem cgInv_update (g : Vec K n) (h : Mat K n n) (radius : K) (s : CgState K n)
    (inv : CgInv g h radius s) (hq : 0 < quadForm h s.direction)
    (hin : dot (cgUpdate h s (dot s.residual s.residual / quadForm h s.direction)).x
      (cgUpdate h s (dot s.residual s.residual / quadForm h s.direction)).x ≤ radius ^ 2) :
    CgInv g h radius (cgUpdate h s (dot s.residual s.residual / quadForm h s.direction)) := by
  set α := dot s.residual s.residual / quadForm h s.direction with hα
  refine ⟨?_, ?_, hin⟩
  · funext i
    simp only [cgUpdate]
    rw [matVec_axpy, inv.residual]
    ring
  · simp only [cgUpdate]
    set r' : Vec K n := fun i => s.residual i + α * matVec h s.direction i with hr'
    set β := dot r' r' / dot s.residual s.residual
    have e : (fun i => -(r' i) + β * s.direction i) = fun i => (fun i => -(r' i)) i + β * s.direction i := rfl
    rw [e, dot_axpy_right, dot_neg_right]
    have : dot r' s.direction = 0 := by
      rw [hr', dot_axpy, inv.descent, dot_comm (matVec h s.direction), ← quadForm_eq_dot, hα]
      field_simp; ring
    rw [this]; ring

/-- The loop started in a state with the invariant. -/
theorem cgLoop_spec (root : K → K) (hroot : SqrtSpec root) (g : Vec K n) (h : Mat K n n)
    (hs : SymmetricMat h) (radius tol : K) (htol : 0 ≤ tol) (k : Nat) :
    ∀ s : CgState K n, CgInv g h radius s →
      dot (cgLoop root (cgDistance root) cgUpdate h radius tol k s)
        (cgLoop root (cgDistance root) cgUpdate h radius tol k s) ≤ radius ^ 2 ∧
      quadModel g h (cgLoop root (cgDistance root) cgUpdate h radius tol k s) ≤ quadModel g h s.x := by
  induction k with
  | zero => intro s inv; exact ⟨inv.inside, le_rfl⟩
  | succ k ih =>
    intro s inv
    simp only [cgLoop]
    split
    · exact ⟨inv.inside, le_rfl⟩
    · rename_i htol'
      have hrr := norm2_pos hroot htol htol'
      have hdd := direction_pos hrr inv.descent
      obtain ⟨d0, d1, d2⟩ := cgDistance_spec root hroot s.x s.direction radius hdd inv.inside
      have hgrad : dot (fun i => g i + matVec h s.x i) s.direction = -dot s.residual s.residual := by
        rw [← inv.residual]; exact inv.descent
      split
      · rename_i hb
        refine ⟨by rw [norm_axpy]; exact d1.le, ?_⟩
        rw [quadModel_axpy g h hs, hgrad]
        set σ := cgDistance root s.x s.direction radius
        rcases hb with hb | hb
        · nlinarith [mul_nonneg d0 hrr.le, mul_nonneg (sq_nonneg σ) (neg_nonneg.2 hb)]
        · by_cases hq : quadForm h s.direction ≤ 0
          · nlinarith [mul_nonneg d0 hrr.le, mul_nonneg (sq_nonneg σ) (neg_nonneg.2 hq)]
          · push Not at hq
            rw [lt_div_iff₀ hq] at hb
            nlinarith [mul_nonneg d0 hrr.le, mul_nonneg d0 (sub_nonneg.2 hb.le)]
      · rename_i hb
        push Not at hb
        obtain ⟨hq, hb⟩ := hb
        have hα0 : 0 ≤ dot s.residual s.residual / quadForm h s.direction := div_nonneg hrr.le hq.le
        have hin : dot (cgUpdate h s (dot s.residual s.residual / quadForm h s.direction)).x
            (cgUpdate h s (dot s.residual s.residual / quadForm h s.direction)).x ≤ radius ^ 2 := by
          simp only [cgUpdate]
          rw [norm_axpy]
          exact d2 _ hα0 hb
        obtain ⟨i1, i2⟩ := ih _ (cgInv_update g h radius s inv hq hin)
        refine ⟨i1, i2.trans ?_⟩
        simp only [cgUpdate]
        rw [quadModel_axpy g h hs, hgrad]
        set α := dot s.residual s.residual / quadForm h s.direction with hα
        have : α * quadForm h s.direction = dot s.residual s.residual := by
          rw [hα]; field_simp
        nlinarith [mul_nonneg hα0 hrr.le]

end Tranquilo
