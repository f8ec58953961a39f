import Mathlib.LinearAlgebra.Matrix.Notation
import Mathlib.Analysis.SpecialFunctions.Trigonometric.Basic
import Mathlib.Analysis.SpecialFunctions.Sqrt

/-!
# Model of the geodetic conversions of the car example

`G` is `/repo/incremental_calibration_examples/incremental_calibration_examples_car/src/geo/geodetic.cpp`.  Real arithmetic.
Simplification: `sm::kinematics::Transformation` (external) stores the rotation as a quaternion obtained with `r2quat`; the
model keeps the rotation matrix itself, which presupposes that `quat2r (r2quat R) = R` for rotation matrices `R`.
-/

namespace Verif
namespace Geodetic

/-- `sm::kinematics::Transformation`, external: rotation and translation.  Used at `geodetic.cpp` 28-64. -/
structure Rigid where
  R : Matrix (Fin 3) (Fin 3) ℝ
  t : Fin 3 → ℝ

/-- `Transformation::operator*` on a point, external.  Used at `realworld/calibrator.cpp` 129-160. -/
def Rigid.apply (T : Rigid) (p : Fin 3 → ℝ) : Fin 3 → ℝ := T.R.mulVec p + T.t

/-- `Transformation::inverse`, external: the inverse rotation is the transpose (conjugate quaternion).
Used at `geodetic.cpp` 28-64. -/
def Rigid.inverse (T : Rigid) : Rigid := ⟨T.R.transpose, -(T.R.transpose.mulVec T.t)⟩

/-- the matrix `enu_R_ecef`, `G` 36-39. -/
noncomputable def enuR (lat lon : ℝ) : Matrix (Fin 3) (Fin 3) ℝ :=
  let slat := Real.sin lat
  let clat := Real.cos lat
  let slong := Real.sin lon
  let clong := Real.cos lon
  !![-slong, clong, 0; -slat * clong, -slat * slong, clat; clat * clong, clat * slong, slat]

/-- `enu2ecef`, `G` 28-43. -/
noncomputable def enu2ecef (x y z lat lon : ℝ) : Rigid := ⟨(enuR lat lon).transpose, ![x, y, z]⟩

/-- `ecef2enu`, `G` 23-26. -/
noncomputable def ecef2enu (x y z lat lon : ℝ) : Rigid := (enu2ecef x y z lat lon).inverse

/-- the matrix `ned_R_ecef`, `G` 58-61. -/
noncomputable def nedR (lat lon : ℝ) : Matrix (Fin 3) (Fin 3) ℝ :=
  let slat := Real.sin lat
  let clat := Real.cos lat
  let slong := Real.sin lon
  let clong := Real.cos lon
  !![-slat * clong, -slat * slong, clat; -slong, clong, 0; -clat * clong, -clat * slong, -slat]

/-- `ned2ecef`, `G` 50-65. -/
noncomputable def ned2ecef (x y z lat lon : ℝ) : Rigid := ⟨(nedR lat lon).transpose, ![x, y, z]⟩

/-- `ecef2ned`, `G` 45-48. -/
noncomputable def ecef2ned (x y z lat lon : ℝ) : Rigid := (ned2ecef x y z lat lon).inverse

/-- the constant `a`, `G` 73. -/
def semiMajor : ℝ := 6378137
/-- the constant `e2`, `G` 74. -/
noncomputable def ecc2 : ℝ := 0.006694380004260827

/-- `wgs84ToEcef`, `G` 67-79. -/
noncomputable def wgs84ToEcef (lat lon alt : ℝ) : Fin 3 → ℝ :=
  let slat := Real.sin lat
  let clat := Real.cos lat
  let slong := Real.sin lon
  let clong := Real.cos lon
  let R := semiMajor / Real.sqrt (1 - ecc2 * slat * slat)
  ![(R + alt) * clat * clong, (R + alt) * clat * slong, (R * (1 - ecc2) + alt) * slat]

end Geodetic
end Verif
