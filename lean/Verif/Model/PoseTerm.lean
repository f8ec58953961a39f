import Verif.Model.ErrorTerms

/-!
# Model of the pose error term, all six rows

`/repo/incremental_calibration_examples/incremental_calibration_examples_car/src/error-terms/ErrorTermPose.cpp` and, apart
from one include line identical, `incremental_calibration_examples_time_delay/src/error-terms/ErrorTermPose.cpp`.
The six rows are kept as two triples: position and angles.  Arithmetic is exact.
-/

namespace Verif
namespace ErrorTerms

/-- The two functions of `sm::kinematics::EulerAnglesYawPitchRoll` (external) the term calls: `rotationMatrixToParameters`
(yaw, pitch, roll) and `parametersToSMatrix`, `ErrorTermPose.cpp` 88-90, 105-107. -/
structure YprLib where
  params : Matrix (Fin 3) (Fin 3) ℝ → Fin 3 → ℝ
  sMatrix : (Fin 3 → ℝ) → Matrix (Fin 3) (Fin 3) ℝ

/-- `evaluateErrorImplementation`, `ErrorTermPose.cpp` 84-97: measured position and angles minus those of the transformation
`(t, C)`, angles wrapped. -/
noncomputable def poseErr (lib : YprLib) (tm am : Fin 3 → ℝ) (t : Fin 3 → ℝ) (C : Matrix (Fin 3) (Fin 3) ℝ) :
    (Fin 3 → ℝ) × (Fin 3 → ℝ) :=
  let e := lib.params C
  (tm - t, fun i => angleMod (am i - e i))

/-- The blocks `(upper left, upper right, lower left, lower right)` of the matrix passed to the transformation expression,
`evaluateJacobiansImplementation`, `ErrorTermPose.cpp` 99-109.  The left columns belong to the translation increment, the right
ones to the rotation increment. -/
noncomputable def poseJ (lib : YprLib) (t : Fin 3 → ℝ) (C : Matrix (Fin 3) (Fin 3) ℝ) :
    (Matrix (Fin 3) (Fin 3) ℝ × Matrix (Fin 3) (Fin 3) ℝ) × (Matrix (Fin 3) (Fin 3) ℝ × Matrix (Fin 3) (Fin 3) ℝ) :=
  ((-1, -crossMx t), (-0, -(lib.sMatrix (lib.params C))⁻¹))

end ErrorTerms
end Verif
