import Verif.Model.Volume
import Mathlib.MeasureTheory.Measure.Lebesgue.VolumeOfBalls

/-!
# Property C30: the cube and the ball have the same volume
-/

namespace Tranquilo

open Real MeasureTheory

/-- The formula of volume.py is the Lebesgue volume of the Euclidean ball. -/
theorem C30_sphere_volume_is_lebesgue {dim : ℕ} (hd : 0 < dim) (c : EuclideanSpace ℝ (Fin dim))
    (r : ℝ) (hr : 0 ≤ r) :
    volume (Metric.closedBall c r) = ENNReal.ofReal (sphereVolume r dim) := by
  have : Nonempty (Fin dim) := ⟨⟨0, hd⟩⟩
  rw [EuclideanSpace.volume_closedBall, Fintype.card_fin, ← ENNReal.ofReal_pow hr,
    ← ENNReal.ofReal_mul (by positivity)]
  congr 1
  have h : √π ^ dim = π ^ ((dim : ℝ) / 2) := by
    rw [sqrt_eq_rpow, ← rpow_natCast, ← rpow_mul pi_pos.le,
      show (1 / 2 : ℝ) * dim = dim / 2 by ring]
  rw [sphereVolume, h]
  ring

/-- The formula of volume.py is the Lebesgue volume of the cube with the given half side. -/
theorem C30_cube_volume_is_lebesgue {dim : ℕ} (c : Fin dim → ℝ) (r : ℝ) (hr : 0 ≤ r) :
    volume (Set.Icc (fun i => c i - r) (fun i => c i + r)) = ENNReal.ofReal (cubeVolume r dim) := by
  rw [Real.volume_Icc_pi, cubeVolume, ENNReal.ofReal_pow (by positivity)]
  rw [Finset.prod_congr rfl (fun i _ => by rw [show c i + r - (c i - r) = r * 2 by ring])]
  simp

theorem gamma_pos' (dim : ℕ) : 0 < Gamma ((dim : ℝ) / 2 + 1) := Gamma_pos_of_pos (by positivity)

theorem exp_div_pow (a : ℝ) {dim : ℕ} (hd : 0 < dim) : exp (a / dim) ^ dim = exp a := by
  rw [← exp_nat_mul]
  congr 1
  have : (dim : ℝ) ≠ 0 := by positivity
  field_simp

theorem pi_half_pow (dim : ℕ) : exp (log π / 2) ^ dim = π ^ ((dim : ℝ) / 2) := by
  rw [← exp_nat_mul, rpow_def_of_pos pi_pos]
  congr 1; ring

theorem cubeVolume_of_sphere {dim : ℕ} (hd : 0 < dim) {r : ℝ} (hr : 0 < r) :
    cubeVolume (radiusOfCubeWithVolumeOfSphere r dim none) dim = sphereVolume r dim := by
  rw [cubeVolume, radiusOfCubeWithVolumeOfSphere, sphereVolume]
  rw [exp_sub, exp_sub, exp_add, exp_log hr, exp_log two_pos, mul_pow, div_pow, div_pow, mul_pow,
    exp_div_pow _ hd, exp_log (gamma_pos' dim), pi_half_pow]
  field_simp

/-- C30, the cube that replaces a ball has, before it is clipped at the bounds, the same volume as the
ball: statement with Lebesgue measure for the regions themselves. -/
theorem C30_same_volume {dim : ℕ} (hd : 0 < dim) (c : EuclideanSpace ℝ (Fin dim)) (r : ℝ)
    (hr : 0 < r) :
    volume (Set.Icc (fun i => c i - radiusOfCubeWithVolumeOfSphere r dim none)
        (fun i => c i + radiusOfCubeWithVolumeOfSphere r dim none))
      = volume (Metric.closedBall c r) := by
  have h0 : 0 ≤ radiusOfCubeWithVolumeOfSphere r dim none := (exp_pos _).le
  rw [C30_cube_volume_is_lebesgue _ _ h0, cubeVolume_of_sphere hd hr,
    C30_sphere_volume_is_lebesgue hd c r hr.le]

/-- C30, the two conversions are inverse to each other. -/
theorem C30_conversions_inverse {dim : ℕ} {r : ℝ} (hr : 0 < r) :
    radiusOfSphereWithVolumeOfCube (radiusOfCubeWithVolumeOfSphere r dim none) dim none = r ∧
    radiusOfCubeWithVolumeOfSphere (radiusOfSphereWithVolumeOfCube r dim none) dim none = r := by
  constructor
  · simp only [radiusOfSphereWithVolumeOfCube, radiusOfCubeWithVolumeOfSphere, log_exp]
    rw [show log (Gamma ((dim : ℝ) / 2 + 1)) / dim - log π / 2 + log 2
      + (log π / 2 + log r - log 2 - log (Gamma ((dim : ℝ) / 2 + 1)) / dim) = log r by ring, exp_log hr]
  · simp only [radiusOfSphereWithVolumeOfCube, radiusOfCubeWithVolumeOfSphere, log_exp]
    rw [show log π / 2 + (log (Gamma ((dim : ℝ) / 2 + 1)) / dim - log π / 2 + log 2 + log r) - log 2
      - log (Gamma ((dim : ℝ) / 2 + 1)) / dim = log r by ring, exp_log hr]

/-- C30, scaling: the optional factor multiplies the volume. -/
theorem C30_scaling {dim : ℕ} (hd : 0 < dim) {r f : ℝ} (hr : 0 < r) (hf : 0 < f) :
    cubeVolume (radiusOfCubeWithVolumeOfSphere r dim (some f)) dim = f * sphereVolume r dim ∧
    sphereVolume (radiusOfSphereWithVolumeOfCube r dim (some f)) dim = f * cubeVolume r dim ∧
    sphereVolume (radiusAfterVolumeScaling r dim f) dim = f * sphereVolume r dim ∧
    cubeVolume (radiusAfterVolumeScaling r dim f) dim = f * cubeVolume r dim := by
  have hd' : (dim : ℝ) ≠ 0 := by positivity
  have hg := gamma_pos' dim
  have hfp : (f ^ ((1 : ℝ) / dim)) ^ dim = f := by
    rw [← rpow_natCast, ← rpow_mul hf.le, one_div_mul_cancel hd', rpow_one]
  have hπ : 0 < π ^ ((dim : ℝ) / 2) := rpow_pos_of_pos pi_pos _
  refine ⟨?_, ?_, ?_, ?_⟩
  · rw [← cubeVolume_of_sphere hd hr]
    simp only [cubeVolume, radiusOfCubeWithVolumeOfSphere]
    rw [exp_add, mul_pow, mul_pow, mul_pow, exp_div_pow _ hd, exp_log hf]
    ring
  · simp only [cubeVolume, radiusOfSphereWithVolumeOfCube, sphereVolume]
    rw [exp_add, exp_add, exp_add, exp_sub, mul_pow, mul_pow, mul_pow, div_pow, exp_div_pow _ hd,
      exp_div_pow _ hd, exp_log hf, exp_log hr, exp_log two_pos, exp_log hg, pi_half_pow]
    field_simp
    rw [mul_pow]
  · simp only [sphereVolume, radiusAfterVolumeScaling]
    rw [mul_pow, hfp]; ring
  · simp only [cubeVolume, radiusAfterVolumeScaling]
    rw [mul_pow, mul_pow, mul_pow, hfp]; ring

/-- C30, `get_radius` and `get_volume` are inverse to each other for both shapes, and reject other
shapes. -/
theorem C30_radius_volume_inverse {dim : ℕ} (hd : 0 < dim) (shape : String) {r : ℝ} (hr : 0 ≤ r) :
    (shape = "sphere" ∨ shape = "cube" →
      (∃ v, getVolume r dim shape = .ok v ∧ getRadius v dim shape = .ok r) ∧
      (∃ s, getRadius r dim shape = .ok s ∧ getVolume s dim shape = .ok r)) ∧
    (shape ≠ "sphere" → shape ≠ "cube" →
      getVolume r dim shape = .error .valueError ∧ getRadius r dim shape = .error .valueError) := by
  have hd' : (dim : ℝ) ≠ 0 := by positivity
  have hg := gamma_pos' dim
  have hπ : 0 < π ^ ((dim : ℝ) / 2) := rpow_pos_of_pos pi_pos _
  have hroot : ∀ a : ℝ, 0 ≤ a → (a ^ dim) ^ ((1 : ℝ) / dim) = a := by
    intro a ha
    rw [← rpow_natCast, ← rpow_mul ha, mul_one_div_cancel hd', rpow_one]
  have hpow : ∀ a : ℝ, 0 ≤ a → (a ^ ((1 : ℝ) / dim)) ^ dim = a := by
    intro a ha
    rw [← rpow_natCast, ← rpow_mul ha, one_div_mul_cancel hd', rpow_one]
  constructor
  · rintro (rfl | rfl)
    · refine ⟨⟨_, rfl, ?_⟩, ⟨_, rfl, ?_⟩⟩
      · simp only [getRadius, if_true, sphereRadius, sphereVolume, Except.ok.injEq]
        rw [← hroot r hr]
        congr 1
        rw [hroot r hr]
        field_simp
      · simp only [getVolume, if_true, sphereRadius, sphereVolume, Except.ok.injEq]
        rw [hpow _ (by positivity)]
        field_simp
    · refine ⟨⟨_, rfl, ?_⟩, ⟨_, rfl, ?_⟩⟩
      · simp only [getRadius, show ("cube" : String) ≠ "sphere" by decide, if_false, if_true,
          cubeRadiusOfVolume, cubeVolume, Except.ok.injEq]
        rw [hroot _ (by positivity)]
        ring
      · simp only [getVolume, show ("cube" : String) ≠ "sphere" by decide, if_false, if_true,
          cubeRadiusOfVolume, cubeVolume, Except.ok.injEq]
        rw [show 1 / 2 * r ^ ((1 : ℝ) / dim) * 2 = r ^ ((1 : ℝ) / dim) by ring, hpow r hr]
  · intro h1 h2
    simp [getVolume, getRadius, h1, h2]

/-- Sanity check in one dimension: ball and cube are the same interval. -/
example (r : ℝ) (hr : 0 < r) : radiusOfCubeWithVolumeOfSphere r 1 none = r := by
  have h := cubeVolume_of_sphere (dim := 1) one_pos hr
  have hG : Gamma ((1 : ℕ) / 2 + 1 : ℝ) = √π / 2 := by
    rw [Nat.cast_one, Gamma_add_one (by norm_num), Gamma_one_half_eq]; ring
  simp only [cubeVolume, pow_one, sphereVolume, hG] at h
  rw [Nat.cast_one, ← sqrt_eq_rpow] at h
  have : √π ≠ 0 := by positivity
  field_simp at h
  linarith

end Tranquilo
