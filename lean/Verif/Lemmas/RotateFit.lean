import Verif.Lemmas.RotateRun
import Verif.Lemmas.MirrorFit
import Verif.Lemmas.MirrorFeatures
import Verif.Spec.RotateBuiltin

/-!
# Least squares and models in other coordinates
-/

namespace Tranquilo

variable {K : Type} [Field K] [LinearOrder K] [IsStrictOrderedRing K] {n m N p : Nat}

/-! ### Least squares -/

/-- If the rows of the matrix are rotated so is the solution. -/
theorem lstsq_rotate_unknowns {lstsq : Lstsq K} (hl : LstsqSpec lstsq) {P : Mat K p p} (hP : OrthonormalColumns P)
    (a : Mat K N p) (y : Vec K N) : lstsq N p (fun s => rotate P (a s)) y = rotate P (lstsq N p a y) := by
  have hres : ∀ c : Vec K p, residSq (fun s => rotate P (a s)) y (rotate P c) = residSq a y c := by
    intro c
    simp only [residSq, rotate_inner hP]
  have hsq : ∀ z : Vec K p, ∑ k, rotate P z k ^ 2 = ∑ k, z k ^ 2 := by
    intro z
    simp only [pow_two, rotate_inner hP]
  refine lstsq_unique _ _ _ _ (hl.least _ _ _ _) (hl.shortest _ _ _ _) (fun z => ?_) fun z hz => ?_
  · rw [← rotate_rotateBack hP z, hres, hres]
    exact hl.least _ _ _ _ _
  · rw [← rotate_rotateBack hP z, hres, hres] at hz
    rw [← rotate_rotateBack hP z, hsq, hsq]
    exact hl.shortest _ _ _ _ _ hz

/-- Rotating the equations does not change the solution. -/
theorem lstsq_rotate_equations {lstsq : Lstsq K} (hl : LstsqSpec lstsq) {Q : Mat K N N} (hQ : OrthonormalColumns Q)
    (a : Mat K N p) (y : Vec K N) :
    lstsq N p (fun s k => rotate Q (fun t => a t k) s) (rotate Q y) = lstsq N p a y := by
  have hres : ∀ c : Vec K p, residSq (fun s k => rotate Q (fun t => a t k) s) (rotate Q y) c = residSq a y c := by
    intro c
    have h : ∀ s, (∑ k, rotate Q (fun t => a t k) s * c k) - rotate Q y s =
        rotate Q (fun t => (∑ k, a t k * c k) - y t) s := by
      intro s
      rw [← congrFun (rotate_sub (R := Q) (fun t => ∑ k, a t k * c k) y) s]
      congr 1
      simp only [rotate, Finset.sum_mul, Finset.mul_sum]
      rw [Finset.sum_comm]
      exact Finset.sum_congr rfl fun t _ => Finset.sum_congr rfl fun k _ => by ring
    simp only [residSq, h, pow_two, rotate_inner hQ]
  refine lstsq_unique _ _ _ _ (hl.least _ _ _ _) (hl.shortest _ _ _ _) (fun z => ?_) fun z hz => ?_
  · rw [hres, hres]
    exact hl.least _ _ _ _ _
  · rw [hres, hres] at hz
    exact hl.shortest _ _ _ _ _ hz

/-! ### The coefficients of a linear model -/

/-- The matrix that turns the coefficients of a linear model into those in the new coordinates. -/
def withIntercept (R : Mat K n n) : Mat K (n + 1) (n + 1) := fun i j =>
  Fin.cases (Fin.cases 1 (fun _ => 0) j) (fun i => Fin.cases 0 (R i) j) i

variable {R : Mat K n n}

theorem withIntercept_zero (u : Vec K (n + 1)) : rotate (withIntercept R) u 0 = u 0 := by
  simp [rotate, withIntercept, Fin.sum_univ_succ]

theorem withIntercept_succ (u : Vec K (n + 1)) (i : Fin n) :
    rotate (withIntercept R) u i.succ = rotate R (fun j => u j.succ) i := by
  simp [rotate, withIntercept, Fin.sum_univ_succ]

theorem withIntercept_orthonormal (hR : OrthonormalColumns R) : OrthonormalColumns (withIntercept R) := by
  intro i j
  rw [Fin.sum_univ_succ]
  refine Fin.cases ?_ (fun i => ?_) i <;> refine Fin.cases ?_ (fun j => ?_) j
  · simp [withIntercept]
  · simp [withIntercept, (Fin.succ_ne_zero j).symm]
  · simp [withIntercept]
  · simpa [withIntercept] using hR i j

/-- The features of a linear model. -/
def linFeature (x : Vec K n) : Vec K (n + 1) := fun k => Fin.cases 1 x k

theorem linFeature_rotate (x : Vec K n) : linFeature (rotate R x) = rotate (withIntercept R) (linFeature x) := by
  funext k
  refine Fin.cases ?_ (fun i => ?_) k
  · rw [withIntercept_zero]
    rfl
  · rw [withIntercept_succ]
    rfl

theorem featureMatrix_linear (xs : Fin N → Vec K n) :
    featureMatrix .linear xs = fun s => linFeature (xs s) :=
  funext fun s => funext fun k => featureRow_lin .linear (xs s) k

theorem fitOls_linear (lstsq : Lstsq K) (root : K → K) (xs : Fin N → Vec K n) (y : Vec K N) :
    fitOls lstsq root .linear xs y none = lstsq N (n + 1) (fun s => linFeature (xs s)) y :=
  congrArg (fun a => lstsq N (n + 1) a y) (featureMatrix_linear xs)

theorem fitTranquilo_linear (lstsq : Lstsq K) (root : K → K) (a c q : K) (xs : Fin N → Vec K n) (y : Vec K N) :
    fitTranquilo lstsq root a c q .linear xs y none = fun k : Fin (n + 1) =>
      lstsq N (n + 1) (fun s k => linFeature (xs s) k * byTerm n (1 / a) (1 / c) (1 / q) k.val) y k *
        byTerm n (1 / a) (1 / c) (1 / q) k.val :=
  congrArg (fun f : Mat K N (n + 1) => fun k : Fin (n + 1) =>
    lstsq N (n + 1) (fun s k => f s k * byTerm n (1 / a) (1 / c) (1 / q) k.val) y k *
      byTerm n (1 / a) (1 / c) (1 / q) k.val) (featureMatrix_linear xs)

theorem fitRidge_linear (lstsq : Lstsq K) (root : K → K) (c q : K) (xs : Fin N → Vec K n) (y : Vec K N) :
    fitRidge lstsq root c q .linear xs y none =
      fitRidgeRaw lstsq (fun s => linFeature (xs s)) y fun k : Fin (n + 1) => byTerm n 0 c q k.val :=
  congrArg (fun f : Mat K N (n + 1) => fitRidgeRaw lstsq f y fun k : Fin (n + 1) => byTerm n 0 c q k.val)
    (featureMatrix_linear xs)

theorem ridge_rotate {lstsq : Lstsq K} (hl : LstsqSpec lstsq) {P : Mat K p p} (hP : OrthonormalColumns P)
    (a : Mat K N p) (y : Vec K N) (pen : Vec K p) (hpen : ∀ i j, pen i * P i j = P i j * pen j) :
    fitRidgeRaw lstsq (fun s => rotate P (a s)) y pen = rotate P (fitRidgeRaw lstsq a y pen) := by
  unfold fitRidgeRaw
  rw [← lstsq_rotate_unknowns hl hP]
  refine Eq.trans ?_ (lstsq_rotate_equations hl hP _ _)
  congr 1
  · funext i j
    have h1 : rotate P (fun t => rotate P (fun j => (∑ s, a s t * a s j) + if t = j then pen t else 0) j) i =
        (∑ s, rotate P (a s) i * rotate P (a s) j) + ∑ t, P i t * (P j t * pen t) := by
      simp only [rotate, mul_add, Finset.sum_add_distrib, mul_ite, mul_zero, Finset.sum_ite_eq, Finset.mem_univ,
        if_true, Finset.mul_sum, Finset.sum_mul]
      congr 1
      rw [Finset.sum_congr rfl fun t _ => Finset.sum_comm, Finset.sum_comm]
      refine Finset.sum_congr rfl fun s _ => ?_
      rw [Finset.sum_comm]
      exact Finset.sum_congr rfl fun u _ => Finset.sum_congr rfl fun t _ => by ring
    refine Eq.trans ?_ h1.symm
    congr 1
    have h2 : ∀ t, P i t * (P j t * pen t) = pen i * (P i t * P j t) := fun t => by
      rw [mul_left_comm, ← hpen]
      ring
    simp only [h2, ← Finset.mul_sum, hP.rows, mul_ite, mul_one, mul_zero]
  · funext i
    simp only [rotate, Finset.mul_sum, Finset.sum_mul]
    rw [Finset.sum_comm]
    exact Finset.sum_congr rfl fun u _ => Finset.sum_congr rfl fun t _ => by ring

theorem withIntercept_commutes (a c q : K) (i j : Fin (n + 1)) :
    byTerm n a c q i.val * withIntercept R i j = withIntercept R i j * byTerm n a c q j.val := by
  have hs : ∀ i : Fin n, byTerm n a c q (i.succ : Fin (n + 1)).val = c := fun i => by
    simp [byTerm]
  refine Fin.cases ?_ (fun i => ?_) i <;> refine Fin.cases ?_ (fun j => ?_) j
  · simp [withIntercept, byTerm]
  · simp [withIntercept]
  · simp [withIntercept]
  · rw [hs, hs]
    ring

theorem withIntercept_factor (a c q : K) (u : Vec K (n + 1)) :
    (fun k : Fin (n + 1) => rotate (withIntercept R) u k * byTerm n a c q k.val) =
      rotate (withIntercept R) fun k => u k * byTerm n a c q k.val := by
  funext k
  simp only [rotate, Finset.sum_mul]
  refine Finset.sum_congr rfl fun j _ => ?_
  linear_combination u j * withIntercept_commutes (R := R) a c q k j

/-- The coefficients of all fitters rotate if the models are linear. -/
theorem builtinFitter_rotate (hR : OrthonormalColumns R) (b : BuiltinSettings K n m) (hl : LstsqSpec b.lstsq)
    (xs : Fin N → Vec K n) (y : Vec K N) :
    SameOutcome (fun u u' => u' = rotate (withIntercept R) u)
      (builtinFitter { b with modelType := .linear } xs y)
      (builtinFitter { b with modelType := .linear } (fun s => rotate R (xs s)) y) := by
  have hP := withIntercept_orthonormal hR
  have hols : fitOls b.lstsq b.root .linear (fun s => rotate R (xs s)) y none =
      rotate (withIntercept R) (fitOls b.lstsq b.root .linear xs y none) := by
    rw [fitOls_linear, fitOls_linear]
    simp only [linFeature_rotate]
    exact lstsq_rotate_unknowns hl hP _ _
  simp only [builtinFitter]
  cases b.fitter with
  | ols => exact hols
  | ridge pl ps =>
    simp only [SameOutcome]
    rw [fitRidge_linear, fitRidge_linear]
    simp only [linFeature_rotate]
    exact ridge_rotate hl hP _ _ _ (withIntercept_commutes _ _ _)
  | tranquilo pi pl ps =>
    simp only [SameOutcome]
    rw [fitTranquilo_linear, fitTranquilo_linear]
    simp only [linFeature_rotate]
    rw [← withIntercept_factor]
    funext k
    congr 1
    have h := fun s => withIntercept_factor (R := R) (1 / pi) (1 / pl) (1 / ps) (linFeature (xs s))
    have := congrFun (lstsq_rotate_unknowns hl hP
      (fun s k => linFeature (xs s) k * byTerm n (1 / pi) (1 / pl) (1 / ps) k.val) y) k
    rw [← this]
    simp only [← h]
  | powell =>
    simp only [fitPowell]
    split_ifs with h1 h2
    · simp only [SameOutcome]
      rw [hols]
      have hd : ∀ u : Vec K (n + 1), (fun k : Fin (n + 1) => if h : k.val < n + 1 then u ⟨k, h⟩ else 0) = u :=
        fun u => funext fun k => dif_pos k.isLt
      exact (hd _).trans (congrArg _ (hd _).symm)
    · exact hols
    · exact absurd (not_le.1 h1) (by simp only [nCols] at h2; omega)

end Tranquilo
