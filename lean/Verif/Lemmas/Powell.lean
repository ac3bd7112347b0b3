import Verif.Props.Fit
import Mathlib.LinearAlgebra.FiniteDimensional.Basic
import Mathlib.LinearAlgebra.Matrix.ToLin

/-!
# Linear algebra of Powell's fit
-/

namespace Tranquilo

variable {K : Type} [Field K] [LinearOrder K] [IsStrictOrderedRing K] {n m N p r t : Nat}

omit [LinearOrder K] [IsStrictOrderedRing K] in
/-- A vector that is orthogonal to the complement columns is a combination of the columns of `m`. -/
theorem QrSpec.span {m : Mat K N p} {q : Mat K N N} (h : QrSpec m q) (hp : p ≤ N)
    (hm : ∀ c : Vec K p, (∀ s, ∑ k, m s k * c k = 0) → c = 0) (v : Vec K N)
    (hv : ∀ j : Fin N, p ≤ j.val → ∑ s, q s j * v s = 0) :
    ∃ a : Vec K p, ∀ s, v s = ∑ k, m s k * a k := by
  have hrows : ∀ s s', ∑ j, q s j * q s' j = if s = s' then 1 else 0 := by
    have h1 : (Matrix.of q).transpose * Matrix.of q = 1 := by
      ext i j
      simp only [Matrix.mul_apply, Matrix.transpose_apply, Matrix.of_apply, h.orthonormal,
        Matrix.one_apply]
    have h2 := mul_eq_one_comm.1 h1
    intro s s'
    have := congrFun (congrFun h2 s) s'
    simpa only [Matrix.mul_apply, Matrix.transpose_apply, Matrix.of_apply, Matrix.one_apply] using this
  have hexp : ∀ w : Vec K N, (∀ j : Fin N, p ≤ j.val → ∑ s, q s j * w s = 0) → ∀ s,
      w s = ∑ i : Fin p, q s (Fin.castLE hp i) * ∑ s', q s' (Fin.castLE hp i) * w s' := by
    intro w hw s
    have h1 : w s = ∑ j, q s j * ∑ s', q s' j * w s' := by
      simp only [Finset.mul_sum]
      rw [Finset.sum_comm]
      have : ∀ s', ∑ j, q s j * (q s' j * w s') = (if s = s' then 1 else 0) * w s' := by
        intro s'
        rw [← hrows, Finset.sum_mul]
        exact Finset.sum_congr rfl fun j _ => by ring
      simp only [this]
      simp
    conv_lhs => rw [h1]
    obtain ⟨d, rfl⟩ := Nat.exists_eq_add_of_le hp
    rw [Fin.sum_univ_add]
    have : ∑ i : Fin d, q s (Fin.natAdd p i) * ∑ s', q s' (Fin.natAdd p i) * w s' = 0 :=
      Finset.sum_eq_zero fun i _ => by rw [hw _ (by simp), mul_zero]
    rw [this, add_zero]
    rfl
  let R : (Vec K p) →ₗ[K] (Vec K p) :=
    { toFun := fun c i => ∑ s, q s (Fin.castLE hp i) * ∑ k, m s k * c k
      map_add' := by
        intro c d; funext i
        simp only [Pi.add_apply]
        rw [← Finset.sum_add_distrib]
        refine Finset.sum_congr rfl fun s _ => ?_
        rw [← mul_add, ← Finset.sum_add_distrib]
        congr 1
        exact Finset.sum_congr rfl fun k _ => by ring
      map_smul' := by
        intro t c; funext i
        simp only [Pi.smul_apply, smul_eq_mul, RingHom.id_apply]
        rw [Finset.mul_sum]
        refine Finset.sum_congr rfl fun s _ => ?_
        rw [Finset.mul_sum, Finset.mul_sum, Finset.mul_sum]
        exact Finset.sum_congr rfl fun k _ => by ring }
  have hcol : ∀ c : Vec K p, ∀ s, ∑ k, m s k * c k = ∑ i, q s (Fin.castLE hp i) * R c i := by
    intro c s
    refine hexp (fun s => ∑ k, m s k * c k) ?_ s
    intro j hj
    simp only [Finset.mul_sum]
    rw [Finset.sum_comm]
    refine Finset.sum_eq_zero fun k _ => ?_
    have := h.complement k j hj
    calc ∑ s, q s j * (m s k * c k) = (∑ s, m s k * q s j) * c k := by
          rw [Finset.sum_mul]; exact Finset.sum_congr rfl fun s _ => by ring
      _ = 0 := by rw [this, zero_mul]
  have hinj : Function.Injective R := by
    rw [injective_iff_map_eq_zero]
    intro c hc
    refine hm c fun s => ?_
    rw [hcol c s, hc]
    simp
  obtain ⟨a, ha⟩ := (LinearMap.injective_iff_surjective.1 hinj)
    (fun i => ∑ s', q s' (Fin.castLE hp i) * v s')
  exact ⟨a, fun s => by rw [hcol a s, ha]; exact hexp v hv s⟩

/-- If the equations have a solution, then a least squares solution solves them. -/
theorem lstsq_exact {lstsq : Lstsq K} (hl : LstsqSpec lstsq) (a : Mat K N p) (y : Vec K N)
    (c : Vec K p) (hc : ∀ s, ∑ k, a s k * c k = y s) (s : Fin N) :
    ∑ k, a s k * lstsq N p a y k = y s := by
  have h0 : residSq a y c = 0 := Finset.sum_eq_zero fun s _ => by rw [hc, sub_self]; ring
  have h1 : residSq a y (lstsq N p a y) ≤ 0 := h0 ▸ hl.least N p a y c
  have h2 := (Finset.sum_eq_zero_iff_of_nonneg fun s _ => sq_nonneg _).1
    (le_antisymm h1 (Finset.sum_nonneg fun s _ => sq_nonneg _)) s (Finset.mem_univ s)
  exact sub_eq_zero.1 (pow_eq_zero_iff (two_ne_zero)|>.1 h2)

/-- `AᵀA` has the same range as `Aᵀ`. -/
theorem gram_solvable {lstsq : Lstsq K} (hl : LstsqSpec lstsq) (a : Mat K t r) (b : Vec K t) :
    ∃ w : Vec K r, ∀ j, ∑ j', (∑ k, a k j * a k j') * w j' = ∑ k, a k j * b k := by
  refine ⟨lstsq t r a b, fun j => ?_⟩
  have h := normal_equations a b _ (hl.least t r a b) j
  have : ∑ k, a k j * ((∑ j', a k j' * lstsq t r a b j') - b k)
      = (∑ j', (∑ k, a k j * a k j') * lstsq t r a b j') - ∑ k, a k j * b k := by
    simp only [mul_sub, Finset.sum_sub_distrib, Finset.mul_sum, Finset.sum_mul]
    rw [Finset.sum_comm]
    congr 1
    exact Finset.sum_congr rfl fun _ _ => Finset.sum_congr rfl fun _ _ => by ring
  rw [this] at h
  exact sub_eq_zero.1 h

omit [LinearOrder K] [IsStrictOrderedRing K] in
/-- The complement columns remove the linear part. -/
theorem complement_data {M : Mat K N p} {B : Mat K N t} {Z : Mat K N r}
    (hMZ : ∀ k j, ∑ s, M s k * Z s j = 0) (y : Vec K N) (al : Vec K p) (be : Vec K t)
    (hy : ∀ s, (∑ k, M s k * al k) + ∑ k, B s k * be k = y s) (j : Fin r) :
    ∑ s, Z s j * y s = ∑ k, (∑ s, B s k * Z s j) * be k := by
  have h1 : ∑ s, Z s j * y s
      = (∑ k, (∑ s, M s k * Z s j) * al k) + ∑ k, (∑ s, B s k * Z s j) * be k := by
    simp only [← hy, mul_add, Finset.sum_add_distrib, Finset.mul_sum, Finset.sum_mul]
    congr 1 <;> rw [Finset.sum_comm] <;>
      exact Finset.sum_congr rfl fun _ _ => Finset.sum_congr rfl fun _ _ => by ring
  rw [h1]
  simp [hMZ]

/-- The two stages of the fit. `A` is the product of the second order features with the complement
columns. -/
theorem frobenius_core {lstsq : Lstsq K} (hl : LstsqSpec lstsq) {M : Mat K N p} {B : Mat K N t}
    {Z : Mat K N r} (hMZ : ∀ k j, ∑ s, M s k * Z s j = 0) (y : Vec K N) (al : Vec K p) (be : Vec K t)
    (hy : ∀ s, (∑ k, M s k * al k) + ∑ k, B s k * be k = y s) (A : Mat K t r)
    (hA : ∀ k j, A k j = ∑ s, B s k * Z s j) (first : Vec K r)
    (hfirst : first = lstsq r r (fun a b => ∑ k, A k a * A k b) (fun j => ∑ s, Z s j * y s))
    (second : Vec K t) (hsecond : ∀ k, second k = ∑ j, A k j * first j) :
    (∀ j, ∑ s, Z s j * (y s - ∑ k, B s k * second k) = 0) ∧ ∑ k, second k ^ 2 ≤ ∑ k, be k ^ 2 := by
  have hzy : ∀ j, ∑ s, Z s j * y s = ∑ k, A k j * be k := by
    intro j
    rw [complement_data hMZ y al be hy j]
    exact Finset.sum_congr rfl fun k _ => by rw [hA]
  obtain ⟨w, hw⟩ := gram_solvable hl A be
  have hex := lstsq_exact hl (fun a b => ∑ k, A k a * A k b) (fun j => ∑ s, Z s j * y s) w
    (fun j => by rw [hzy]; exact hw j)
  rw [← hfirst] at hex
  -- `Aᵀ second = Zᵀ y`
  have hAs : ∀ j, ∑ k, A k j * second k = ∑ s, Z s j * y s := by
    intro j
    rw [← hex j]
    simp only [hsecond, Finset.mul_sum, Finset.sum_mul]
    rw [Finset.sum_comm]
    exact Finset.sum_congr rfl fun _ _ => Finset.sum_congr rfl fun _ _ => by ring
  refine ⟨fun j => ?_, ?_⟩
  · have h1 : ∑ s, Z s j * (y s - ∑ k, B s k * second k)
        = (∑ s, Z s j * y s) - ∑ k, A k j * second k := by
      simp only [mul_sub, Finset.sum_sub_distrib, hA, Finset.mul_sum, Finset.sum_mul]
      congr 1
      rw [Finset.sum_comm]
      exact Finset.sum_congr rfl fun _ _ => Finset.sum_congr rfl fun _ _ => by ring
    rw [h1, hAs, sub_self]
  · have hcross : ∑ k, second k * (be k - second k) = 0 := by
      have h1 : ∑ k, second k * (be k - second k)
          = ∑ j, first j * ((∑ k, A k j * be k) - ∑ k, A k j * second k) := by
        simp only [← Finset.sum_sub_distrib, Finset.mul_sum]
        rw [Finset.sum_comm]
        refine Finset.sum_congr rfl fun k _ => ?_
        conv_lhs => rw [hsecond k]
        rw [Finset.sum_mul, hsecond k]
        exact Finset.sum_congr rfl fun j _ => by ring
      rw [h1]
      refine Finset.sum_eq_zero fun j _ => ?_
      rw [hAs, hzy, sub_self, mul_zero]
    have h2 : ∑ k, be k ^ 2 = ∑ k, second k ^ 2 + 2 * ∑ k, second k * (be k - second k)
        + ∑ k, (be k - second k) ^ 2 := by
      rw [Finset.mul_sum, ← Finset.sum_add_distrib, ← Finset.sum_add_distrib]
      exact Finset.sum_congr rfl fun k _ => by ring
    have h3 : 0 ≤ ∑ k, (be k - second k) ^ 2 := Finset.sum_nonneg fun k _ => sq_nonneg _
    rw [h2, hcross]
    linarith

end Tranquilo
