import Verif.Spec.Fit
import Mathlib.Analysis.InnerProductSpace.Projection.FiniteDimensional
import Mathlib.Analysis.InnerProductSpace.PiL2

/-!
# The contract of `lstsq` can be met

Over the reals there is a function that satisfies `LstsqSpec`, so theorems that assume it are not
vacuous.
-/

namespace Tranquilo

open scoped InnerProductSpace

theorem exists_lstsq_vector (N p : Nat) (a : Mat ℝ N p) (y : Vec ℝ N) :
    ∃ z : Vec ℝ p, (∀ c, residSq a y z ≤ residSq a y c) ∧
      ∀ c, residSq a y c = residSq a y z → ∑ k, z k ^ 2 ≤ ∑ k, c k ^ 2 := by
  let A : EuclideanSpace ℝ (Fin p) →ₗ[ℝ] EuclideanSpace ℝ (Fin N) := Matrix.toEuclideanLin (Matrix.of a)
  let b : EuclideanSpace ℝ (Fin N) := WithLp.toLp 2 y
  have hres : ∀ c : EuclideanSpace ℝ (Fin p), residSq a y c.ofLp = ‖A c - b‖ ^ 2 := by
    intro c
    rw [EuclideanSpace.norm_sq_eq]
    unfold residSq
    refine Finset.sum_congr rfl fun s _ => ?_
    rw [Real.norm_eq_abs, sq_abs]
    simp [A, b, Matrix.toEuclideanLin, Matrix.toLpLin_apply, Matrix.mulVec, dotProduct]
  let R := LinearMap.range A
  obtain ⟨c0, hc0⟩ : ∃ c0, A c0 = R.starProjection b := by
    have : R.starProjection b ∈ R := Submodule.starProjection_apply_mem R b
    exact this
  let Z := (LinearMap.ker A)ᗮ
  let z := Z.starProjection c0
  have hzZ : z ∈ Z := Submodule.starProjection_apply_mem Z c0
  have hAz : A z = R.starProjection b := by
    have h1 : c0 - z ∈ Zᗮ := Submodule.sub_starProjection_mem_orthogonal c0
    have h2 : c0 - z ∈ LinearMap.ker A := by
      simpa [Z, Submodule.orthogonal_orthogonal] using h1
    rw [LinearMap.mem_ker, map_sub, sub_eq_zero] at h2
    rw [← h2, hc0]
  have hpyth : ∀ c, ‖A c - b‖ ^ 2 = ‖A c - A z‖ ^ 2 + ‖A z - b‖ ^ 2 := by
    intro c
    have h1 : b - A z ∈ Rᗮ := by rw [hAz]; exact Submodule.sub_starProjection_mem_orthogonal b
    have h2 : A c - A z ∈ R := by rw [← map_sub]; exact LinearMap.mem_range_self A _
    have h3 : ⟪A c - A z, b - A z⟫_ℝ = 0 := Submodule.inner_right_of_mem_orthogonal h2 h1
    have h4 : A c - b = (A c - A z) - (b - A z) := by abel
    rw [h4, norm_sub_sq_real, h3, norm_sub_rev b]
    ring
  refine ⟨z.ofLp, fun c => ?_, fun c hc => ?_⟩
  · have h := hpyth (WithLp.toLp 2 c)
    have h1 := hres (WithLp.toLp 2 c)
    rw [hres z]
    simp only at h1
    rw [h1, h]
    nlinarith [sq_nonneg ‖A (WithLp.toLp 2 c) - A z‖]
  · have h := hpyth (WithLp.toLp 2 c)
    have h1 := hres (WithLp.toLp 2 c)
    simp only at h1
    rw [hres z, h1, h] at hc
    have h0 : A (WithLp.toLp 2 c) - A z = 0 := by
      have : ‖A (WithLp.toLp 2 c) - A z‖ ^ 2 = 0 := by linarith
      simpa using this
    have hk : WithLp.toLp 2 c - z ∈ LinearMap.ker A := by
      rw [LinearMap.mem_ker, map_sub, h0]
    have h3 : ⟪WithLp.toLp 2 c - z, z⟫_ℝ = 0 := Submodule.inner_right_of_mem_orthogonal hk hzZ
    have h4 : ‖(WithLp.toLp 2 c : EuclideanSpace ℝ (Fin p))‖ ^ 2
        = ‖WithLp.toLp 2 c - z‖ ^ 2 + ‖z‖ ^ 2 := by
      have : (WithLp.toLp 2 c : EuclideanSpace ℝ (Fin p)) = (WithLp.toLp 2 c - z) + z := by abel
      conv_lhs => rw [this]
      rw [norm_add_sq_real, h3]; ring
    have h5 : ‖z‖ ^ 2 = ∑ k, z.ofLp k ^ 2 := by
      rw [EuclideanSpace.norm_sq_eq]; simp
    have h6 : ‖(WithLp.toLp 2 c : EuclideanSpace ℝ (Fin p))‖ ^ 2 = ∑ k, c k ^ 2 := by
      rw [EuclideanSpace.norm_sq_eq]; simp
    rw [← h5, ← h6, h4]
    nlinarith [sq_nonneg ‖(WithLp.toLp 2 c : EuclideanSpace ℝ (Fin p)) - z‖]

theorem exists_lstsq : ∃ lstsq : Lstsq ℝ, LstsqSpec lstsq := by
  choose f h1 h2 using exists_lstsq_vector
  exact ⟨f, ⟨h1, h2⟩⟩

end Tranquilo
