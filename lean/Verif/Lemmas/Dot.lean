import Verif.Model.ConjugateGradient
import Verif.Spec.Models
import Mathlib.Algebra.Order.BigOperators.Ring.Finset
import Mathlib.Algebra.BigOperators.Field
import Mathlib.Tactic.FieldSimp
import Mathlib.Tactic.Positivity

/-!
# Inner products and quadratic forms
-/

namespace Tranquilo

variable {K : Type} [Field K] [LinearOrder K] [IsStrictOrderedRing K] {n : Nat}

section
omit [LinearOrder K] [IsStrictOrderedRing K]

theorem dot_comm (a b : Vec K n) : dot a b = dot b a :=
  Finset.sum_congr rfl fun i _ => mul_comm _ _

theorem dot_axpy (x d y : Vec K n) (t : K) :
    dot (fun i => x i + t * d i) y = dot x y + t * dot d y := by
  simp only [dot, Finset.mul_sum, ← Finset.sum_add_distrib]
  exact Finset.sum_congr rfl fun i _ => by ring

theorem dot_axpy_right (x d y : Vec K n) (t : K) :
    dot y (fun i => x i + t * d i) = dot y x + t * dot y d := by
  rw [dot_comm, dot_axpy, dot_comm x y, dot_comm d y]

theorem dot_neg_left (a b : Vec K n) : dot (fun i => -(a i)) b = -dot a b := by
  simp only [dot, ← Finset.sum_neg_distrib]
  exact Finset.sum_congr rfl fun i _ => by ring

theorem dot_neg_right (a b : Vec K n) : dot a (fun i => -(b i)) = -dot a b := by
  rw [dot_comm, dot_neg_left, dot_comm]

theorem dot_zero_left (b : Vec K n) : dot (fun _ => (0 : K)) b = 0 := by
  simp [dot]

theorem dot_zero_right (b : Vec K n) : dot b (fun _ => (0 : K)) = 0 := by
  simp [dot]

theorem dot_smul_left (a b : Vec K n) (t : K) : dot (fun i => t * a i) b = t * dot a b := by
  simp only [dot, Finset.mul_sum]
  exact Finset.sum_congr rfl fun i _ => by ring

theorem dot_smul_right (a b : Vec K n) (t : K) : dot a (fun i => t * b i) = t * dot a b := by
  rw [dot_comm, dot_smul_left, dot_comm]

theorem norm_axpy (x d : Vec K n) (t : K) :
    dot (fun i => x i + t * d i) (fun i => x i + t * d i)
      = dot x x + 2 * t * dot x d + t ^ 2 * dot d d := by
  rw [dot_axpy, dot_axpy_right, dot_axpy_right, dot_comm d x]; ring

theorem quadForm_eq_dot (h : Mat K n n) (d : Vec K n) : quadForm h d = dot d (matVec h d) := by
  simp only [quadForm, dot, matVec, Finset.mul_sum, Finset.sum_mul]
  rw [Finset.sum_comm]
  exact Finset.sum_congr rfl fun i _ => Finset.sum_congr rfl fun j _ => by ring

theorem matVec_symm (h : Mat K n n) (hs : SymmetricMat h) (x d : Vec K n) :
    dot x (matVec h d) = dot d (matVec h x) := by
  simp only [dot, matVec, Finset.mul_sum]
  rw [Finset.sum_comm]
  exact Finset.sum_congr rfl fun i _ => Finset.sum_congr rfl fun j _ => by rw [hs j i]; ring

theorem matVec_axpy (h : Mat K n n) (x d : Vec K n) (t : K) :
    matVec h (fun i => x i + t * d i) = fun i => matVec h x i + t * matVec h d i := by
  funext i
  simp only [matVec, Finset.mul_sum, ← Finset.sum_add_distrib]
  exact Finset.sum_congr rfl fun j _ => by ring

theorem quadForm_axpy (h : Mat K n n) (hs : SymmetricMat h) (x d : Vec K n) (t : K) :
    quadForm h (fun i => x i + t * d i)
      = quadForm h x + 2 * t * dot (matVec h x) d + t ^ 2 * quadForm h d := by
  simp only [quadForm_eq_dot, matVec_axpy, dot_axpy, dot_axpy_right]
  rw [matVec_symm h hs x d, dot_comm (matVec h x) d]; ring

end

theorem dot_self_nonneg (a : Vec K n) : 0 ≤ dot a a :=
  Finset.sum_nonneg fun i _ => mul_self_nonneg _

theorem dot_self_eq_zero {a : Vec K n} (h : dot a a = 0) : a = fun _ => 0 := by
  have := (Finset.sum_eq_zero_iff_of_nonneg fun i _ => mul_self_nonneg (a i)).1 h
  funext i
  exact mul_self_eq_zero.1 (this i (Finset.mem_univ i))

theorem dot_self_pos {a : Vec K n} (h : a ≠ fun _ => 0) : 0 < dot a a :=
  lt_of_le_of_ne (dot_self_nonneg a) fun e => h (dot_self_eq_zero e.symm)

theorem cauchy_schwarz (a b : Vec K n) : dot a b ^ 2 ≤ dot a a * dot b b := by
  by_cases hb : dot b b = 0
  · rw [dot_self_eq_zero hb, dot_zero_right, dot_zero_right]; simp
  · have hb' : 0 < dot b b := lt_of_le_of_ne (dot_self_nonneg b) (Ne.symm hb)
    have h := dot_self_nonneg (fun i => a i + (-(dot a b / dot b b)) * b i)
    rw [norm_axpy] at h
    have e : dot a a + 2 * -(dot a b / dot b b) * dot a b + (-(dot a b / dot b b)) ^ 2 * dot b b
        = (dot a a * dot b b - dot a b ^ 2) / dot b b := by
      field_simp; ring
    rw [e] at h
    have := (div_nonneg_iff.1 h)
    rcases this with h | h
    · linarith [h.1]
    · linarith [h.2]

end Tranquilo
