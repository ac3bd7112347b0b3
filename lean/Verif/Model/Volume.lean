import Verif.Model.Num
import Verif.Model.Region
import Mathlib.Analysis.SpecialFunctions.Gamma.Basic
import Mathlib.Analysis.SpecialFunctions.Pow.Real

/-!
# Model of `volume.py`

Over the reals; `scipy.special.gamma` is `Real.Gamma`, `loggamma` is its logarithm.
-/

namespace Tranquilo

open Real

/-- `get_radius_after_volume_scaling`, volume.py:13-15. -/
noncomputable def radiusAfterVolumeScaling (radius : ℝ) (dim : ℕ) (factor : ℝ) : ℝ :=
  radius * factor ^ ((1 : ℝ) / dim)

/-- `get_radius_of_sphere_with_volume_of_cube`, volume.py:18-28. -/
noncomputable def radiusOfSphereWithVolumeOfCube (cubeRadius : ℝ) (dim : ℕ) (factor : Option ℝ) : ℝ :=
  let logRadius := log (Gamma ((dim : ℝ) / 2 + 1)) / dim - log π / 2 + log 2 + log cubeRadius
  match factor with
  | none => exp logRadius
  | some f => exp (logRadius + log f / dim)

/-- `get_radius_of_cube_with_volume_of_sphere`, volume.py:31-41. -/
noncomputable def radiusOfCubeWithVolumeOfSphere (sphereRadius : ℝ) (dim : ℕ) (factor : Option ℝ) : ℝ :=
  let logRadius := log π / 2 + log sphereRadius - log 2 - log (Gamma ((dim : ℝ) / 2 + 1)) / dim
  match factor with
  | none => exp logRadius
  | some f => exp (logRadius + log f / dim)

/-- `_sphere_volume`, volume.py:64-66. -/
noncomputable def sphereVolume (radius : ℝ) (dim : ℕ) : ℝ :=
  π ^ ((dim : ℝ) / 2) * radius ^ dim / Gamma ((dim : ℝ) / 2 + 1)

/-- `_cube_volume`, volume.py:69-71. -/
noncomputable def cubeVolume (radius : ℝ) (dim : ℕ) : ℝ := (radius * 2) ^ dim

/-- `_sphere_radius`, volume.py:74-76. -/
noncomputable def sphereRadius (volume : ℝ) (dim : ℕ) : ℝ :=
  ((volume * Gamma ((dim : ℝ) / 2 + 1)) / (π ^ ((dim : ℝ) / 2))) ^ ((1 : ℝ) / dim)

/-- `_cube_radius`, volume.py:79-81. -/
noncomputable def cubeRadiusOfVolume (volume : ℝ) (dim : ℕ) : ℝ :=
  1 / 2 * volume ^ ((1 : ℝ) / dim)

/-- `get_volume`, volume.py:44-51. -/
noncomputable def getVolume (radius : ℝ) (dim : ℕ) (shape : String) : Except Err ℝ :=
  if shape = "sphere" then .ok (sphereVolume radius dim)
  else if shape = "cube" then .ok (cubeVolume radius dim)
  else .error .valueError

/-- `get_radius`, volume.py:54-61. -/
noncomputable def getRadius (volume : ℝ) (dim : ℕ) (shape : String) : Except Err ℝ :=
  if shape = "sphere" then .ok (sphereRadius volume dim)
  else if shape = "cube" then .ok (cubeRadiusOfVolume volume dim)
  else .error .valueError

end Tranquilo
