import Verif.Model.Prelude
import Mathlib.LinearAlgebra.Matrix.Notation
import Mathlib.Analysis.SpecialFunctions.Complex.Arg
import Mathlib.Analysis.SpecialFunctions.Sqrt
import Mathlib.LinearAlgebra.Matrix.NonsingularInverse

/-!
# Model of the error terms of the 2D laser range finder and car examples

`E2` is `/repo/incremental_calibration_examples/incremental_calibration_examples_2dlrf/src/2dlrf`,
`EC` is `/repo/incremental_calibration_examples/incremental_calibration_examples_car/src/error-terms`.
Arithmetic is exact (real numbers).  Division by zero, which gives an infinite or undefined floating point value, gives zero
in Lean; where the code can reach it the definition is an `Option` (`none`: not a finite number), elsewhere the theorems
assume the divisor is not zero.
-/

namespace Verif
namespace ErrorTerms

/-- `std::atan2(y, x)`: the argument of `x + iy` in (-π, π].  Simplification: signed zeros are not distinguished. -/
noncomputable def atan2 (y x : ℝ) : ℝ := Complex.arg ⟨x, y⟩

/-- rounding to the nearest integer, halves away from zero (`boost::math::round`).
External; inside `angleMod`, called at `ErrorTermPose.cpp` 92-94, `ErrorTermSteering.cpp` 97, `ErrorTermObservation.cpp` 114. -/
noncomputable def roundAway (x : ℝ) : ℤ := if 0 ≤ x then ⌊x + 1 / 2⌋ else -⌊-x + 1 / 2⌋

/-- `sm::kinematics::angleMod`, external (sm_kinematics): subtracts the nearest multiple of 2π. -/
noncomputable def angleMod (x : ℝ) : ℝ := x - 2 * Real.pi * roundAway (x / (2 * Real.pi))

/-! ## `E2/ErrorTermMotion.cpp` -/

/-- the rotation matrix `B` of the heading, 99-103. -/
noncomputable def motionB (th : ℝ) : Matrix (Fin 3) (Fin 3) ℝ :=
  !![Real.cos th, Real.sin th, 0; -Real.sin th, Real.cos th, 0; 0, 0, 1]

/-- `evaluateErrorImplementation`, 98-108. -/
noncomputable def motionErr (T : ℝ) (uk xkm1 xk : Fin 3 → ℝ) : Fin 3 → ℝ :=
  uk - (((1 / T) • motionB (xkm1 2)).mulVec (xk - xkm1))

/-- Jacobian with respect to the new pose, 112-117 and 134. -/
noncomputable def motionJxk (T : ℝ) (xkm1 _xk : Fin 3 → ℝ) : Matrix (Fin 3) (Fin 3) ℝ :=
  let th := xkm1 2
  (1 / T) • -!![Real.cos th, Real.sin th, 0; -Real.sin th, Real.cos th, 0; 0, 0, 1]

/-- Jacobian with respect to the old pose, 118-133. -/
noncomputable def motionJxkm1 (T : ℝ) (xkm1 xk : Fin 3 → ℝ) : Matrix (Fin 3) (Fin 3) ℝ :=
  let th := xkm1 2
  (1 / T) • -!![-Real.cos th, -Real.sin th, -Real.sin th * (xk 0 - xkm1 0) + Real.cos th * (xk 1 - xkm1 1);
    Real.sin th, -Real.cos th, -Real.cos th * (xk 0 - xkm1 0) - Real.sin th * (xk 1 - xkm1 1);
    0, 0, -1]

/-! ## `E2/ErrorTermObservation.cpp` -/

/-- first coordinate of the landmark seen from the sensor, in the global frame, 100-107. -/
noncomputable def obsA (xk : Fin 3 → ℝ) (xl : Fin 2 → ℝ) (Th : Fin 3 → ℝ) : ℝ :=
  xl 0 - xk 0 - Th 0 * Real.cos (xk 2) + Th 1 * Real.sin (xk 2)

/-- second coordinate, 108-109. -/
noncomputable def obsB (xk : Fin 3 → ℝ) (xl : Fin 2 → ℝ) (Th : Fin 3 → ℝ) : ℝ :=
  xl 1 - xk 1 - Th 0 * Real.sin (xk 2) - Th 1 * Real.cos (xk 2)

/-- squared range, 110. -/
noncomputable def obsD (xk : Fin 3 → ℝ) (xl : Fin 2 → ℝ) (Th : Fin 3 → ℝ) : ℝ :=
  obsA xk xl Th * obsA xk xl Th + obsB xk xl Th * obsB xk xl Th

/-- `evaluateErrorImplementation`, 99-118. -/
noncomputable def obsErr (r b : ℝ) (xk : Fin 3 → ℝ) (xl : Fin 2 → ℝ) (Th : Fin 3 → ℝ) : Fin 2 → ℝ :=
  ![r - Real.sqrt (obsD xk xl Th),
    angleMod (b - (atan2 (obsB xk xl Th) (obsA xk xl Th) - xk 2 - Th 2))]

/-- Jacobian with respect to the pose, 134-140 and 152. -/
noncomputable def obsJxk (xk : Fin 3 → ℝ) (xl : Fin 2 → ℝ) (Th : Fin 3 → ℝ) : Matrix (Fin 2) (Fin 3) ℝ :=
  let aa := obsA xk xl Th
  let bb := obsB xk xl Th
  let temp1 := obsD xk xl Th
  let temp2 := Real.sqrt temp1
  let dxct := Th 0 * Real.cos (xk 2)
  let dxst := Th 0 * Real.sin (xk 2)
  let dyct := Th 1 * Real.cos (xk 2)
  let dyst := Th 1 * Real.sin (xk 2)
  (-!![-aa / temp2, -bb / temp2, (aa * (dxst + dyct) + bb * (-dxct + dyst)) / temp2;
      bb / temp1, -aa / temp1, (aa * (-dxct + dyst) - bb * (dxst + dyct)) / temp1 - 1])

/-- Jacobian with respect to the landmark, 141-145 and 153. -/
noncomputable def obsJxl (xk : Fin 3 → ℝ) (xl : Fin 2 → ℝ) (Th : Fin 3 → ℝ) : Matrix (Fin 2) (Fin 2) ℝ :=
  let aa := obsA xk xl Th
  let bb := obsB xk xl Th
  let temp1 := obsD xk xl Th
  let temp2 := Real.sqrt temp1
  (-!![aa / temp2, bb / temp2; -bb / temp1, aa / temp1])

/-- Jacobian with respect to the calibration parameters, 146-151 and 154. -/
noncomputable def obsJTh (xk : Fin 3 → ℝ) (xl : Fin 2 → ℝ) (Th : Fin 3 → ℝ) : Matrix (Fin 2) (Fin 3) ℝ :=
  let aa := obsA xk xl Th
  let bb := obsB xk xl Th
  let temp1 := obsD xk xl Th
  let temp2 := Real.sqrt temp1
  let ct := Real.cos (xk 2)
  let st := Real.sin (xk 2)
  (-!![-(aa * ct + bb * st) / temp2, (aa * st - bb * ct) / temp2, 0;
      (-aa * st + bb * ct) / temp1, -(aa * ct + bb * st) / temp1, -1])

/-! ## `EC/ErrorTermSteering.cpp` -/

/-- `evaluateErrorImplementation`, 86-100. -/
noncomputable def steerErr (meas : ℝ) (a : Fin 4 → ℝ) (v : Fin 3 → ℝ) : ℝ :=
  angleMod (a 0 + a 1 * meas + a 2 * meas * meas + a 3 * meas * meas * meas - atan2 (v 1) (v 0))

/-- Jacobian with respect to the steering coefficients, 106-111. -/
def steerJa (meas : ℝ) : Fin 4 → ℝ := ![1, meas, meas * meas, meas * meas * meas]

/-- Jacobian with respect to the velocity, 112-116; `none` if the forward velocity is zero (not a number). -/
noncomputable def steerJv (v : Fin 3 → ℝ) : Option (Fin 3 → ℝ) :=
  if v 0 = 0 then none
  else some (-![-(v 1) / (v 0 * v 0 * (v 1 * v 1 / (v 0 * v 0) + 1)), 1 / (v 0 * (v 1 * v 1 / (v 0 * v 0) + 1)), 0])

/-! ## `EC/ErrorTermVelocities.cpp` -/

/-- `evaluateErrorImplementation`, 69-75: linear and angular velocity errors. -/
def velErr (vm om v o : Fin 3 → ℝ) : (Fin 3 → ℝ) × (Fin 3 → ℝ) := (vm - v, om - o)

/-- the 6 x 3 block for the linear velocity, 79-81, as its two 3 x 3 halves. -/
def velJv : Matrix (Fin 3) (Fin 3) ℝ × Matrix (Fin 3) (Fin 3) ℝ := (-1, 0)
/-- the 6 x 3 block for the angular velocity, 82-84. -/
def velJo : Matrix (Fin 3) (Fin 3) ℝ × Matrix (Fin 3) (Fin 3) ℝ := (0, -1)

/-! ## `EC/ErrorTermWheel.cpp` -/

/-- `evaluateErrorImplementation`, 92-111. -/
noncomputable def wheelErr (front : Bool) (meas k : ℝ) (v : Fin 3 → ℝ) : Fin 3 → ℝ :=
  if front then
    let temp := Real.sqrt (v 1 * v 1 / (v 0 * v 0) + 1)
    ![meas - k * (v 0 / temp + v 1 * v 1 / (v 0 * temp)), 0, -(v 2)]
  else ![meas - k * v 0, -(v 1), -(v 2)]

/-- Jacobian with respect to the velocity, 117-125 and 129. -/
noncomputable def wheelJv (front : Bool) (k : ℝ) (v : Fin 3 → ℝ) : Matrix (Fin 3) (Fin 3) ℝ :=
  if front then
    let temp1 := Real.sqrt (v 0 * v 0 + v 1 * v 1)
    (-!![k * v 0 / temp1, k * v 1 / temp1, 0; 0, 0, 0; 0, 0, 1])
  else -!![k, 0, 0; 0, 1, 0; 0, 0, 1]

/-- Jacobian with respect to the wheel coefficient, 119 and 126-130. -/
noncomputable def wheelJk (front : Bool) (v : Fin 3 → ℝ) : Fin 3 → ℝ :=
  if front then
    let temp2 := Real.sqrt (v 1 * v 1 / (v 0 * v 0) + 1)
    (-![v 0 / temp2 + v 1 * v 1 / (v 0 * temp2), 0, 0])
  else -![v 0, 0, 0]

/-! ## `crossMx` (the pose term itself is in `Model/PoseTerm.lean`) -/

/-- `sm::kinematics::crossMx`, external.  Called at `ErrorTermPose.cpp` 104. -/
def crossMx (t : Fin 3 → ℝ) : Matrix (Fin 3) (Fin 3) ℝ := !![0, -t 2, t 1; t 2, 0, -t 0; -t 1, t 0, 0]

/-! ## Covariances -/

/-- The covariance and the weighting matrix of an error term: `_sigma2`, `_Q`, `_R`, `_sigma2Wheel` of the error term
classes, and the matrix stored by `ErrorTermFs::setInvR`. -/
structure Weighted (n : Nat) where
  cov : Matrix (Fin n) (Fin n) ℝ
  invR : Matrix (Fin n) (Fin n) ℝ

namespace Weighted
variable {n : Nat}

/-- constructors: `E2/ErrorTermMotion.cpp` 29, `E2/ErrorTermObservation.cpp` 30, `EC/ErrorTermPose.cpp` 25,
`EC/ErrorTermSteering.cpp` 30-32, `EC/ErrorTermWheel.cpp` 29. -/
noncomputable def make (R : Matrix (Fin n) (Fin n) ℝ) : Weighted n := ⟨R, R⁻¹⟩

/-- `setCovariance` / `setVariance`: `E2/ErrorTermMotion.cpp` 90-92, `E2/ErrorTermObservation.cpp` 91-93,
`EC/ErrorTermPose.cpp` 76-78, `EC/ErrorTermSteering.cpp` 78-80, `EC/ErrorTermWheel.cpp` 76-78. -/
def setCovariance (s : Weighted n) (R : Matrix (Fin n) (Fin n) ℝ) : Weighted n := { s with cov := R }

/-- `getCovariance`.  `ErrorTermPose.cpp` 68-74. -/
def getCovariance (s : Weighted n) : Matrix (Fin n) (Fin n) ℝ := s.cov

/-- `evaluateChiSquaredError` of the base class (external): the weighted squared error.
Called at `CarCalibrator.cpp` 521-525. -/
def chiSquared (s : Weighted n) (err : Fin n → ℝ) : ℝ := dotProduct err (s.invR.mulVec err)

end Weighted
end ErrorTerms
end Verif
