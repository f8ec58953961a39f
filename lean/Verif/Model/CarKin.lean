import Verif.Model.ErrorTerms
import Mathlib.LinearAlgebra.CrossProduct

/-!
# Model of the kinematics of the car calibrator

`/repo/incremental_calibration_examples/incremental_calibration_examples_car/src/algo/CarCalibrator.cpp` (line numbers
without file name refer to it).  Arithmetic is exact (real numbers); rotations are 3 × 3 matrices, the inverse of a rotation
expression is the transposed matrix.
-/

namespace Verif
namespace CarKin
open Matrix ErrorTerms

/-- vectors and matrices of dimension three.
`Eigen::Vector3d`, `Eigen::Matrix3d`, used at `CarCalibrator.cpp` 413-440. -/
abbrev V3 := Fin 3 → ℝ
/-- see `V3`. -/
abbrev M3 := Matrix (Fin 3) (Fin 3) ℝ

/-- What the splines give at a time: the rotation `m_R_v`, the derivative of the position `m_v_mv`, and the value of
`getAngularVelocityExpression` (external).  `CarCalibrator.cpp` 543-553. -/
structure Motion where
  R : M3
  v : V3
  av : V3

/-- `v_v_mv`, 549, 582, 633, 676, 732, 795, 878, 936, 1004, 1050. -/
def bodyVel (s : Motion) : V3 := s.R.transpose *ᵥ s.v
/-- `v_om_mv`, 550-552, 583-585, 634-636, 677-679, 735-737, 798-800, 881-883, 939-941, 1005-1007, 1051-1053: the value of the
angular velocity expression with opposite sign, in the vehicle frame. -/
def bodyOm (s : Motion) : V3 := s.R.transpose *ᵥ (-s.av)
/-- velocity of a point fixed to the vehicle, in the vehicle frame.
`CarCalibrator.cpp` 555, 639, 743, 747, 886, 889, 1010. -/
def pointVel (s : Motion) (c : V3) : V3 := bodyVel s + bodyOm s ⨯₃ c

/-- The odometry parameters used, `car/design-variables/OdometryDesignVariables.h` 48-87. -/
structure Odo where
  v_r_vr : V3
  v_R_r : M3
  L : ℝ
  e_r : ℝ
  e_f : ℝ
  a : Fin 4 → ℝ
  k_rl : ℝ
  k_rr : ℝ
  k_fl : ℝ
  k_fr : ℝ
  k_dmi : ℝ

/-- `w_v_mw` of the distance measurement instrument, 637-639, 680-682. -/
def dmiVel (o : Odo) (s : Motion) : V3 := pointVel s (o.e_r • ![0, 1, 0])
/-- `w_v_mw_l` of the rear wheels, 884-886, 942-944. -/
def rlVel (o : Odo) (s : Motion) : V3 := pointVel s (o.e_r • ![0, 1, 0])
/-- `w_v_mw_r` of the rear wheels, 887-889, 945-947. -/
def rrVel (o : Odo) (s : Motion) : V3 := pointVel s (o.e_r • -![0, 1, 0])
/-- `v_v_mw_l` of the front wheels, 738-743, 801-806. -/
def flVel (o : Odo) (s : Motion) : V3 := pointVel s (o.L • ![1, 0, 0] + o.e_f • ![0, 1, 0])
/-- `v_v_mw_r` of the front wheels, 744-747, 807-810. -/
def frVel (o : Odo) (s : Motion) : V3 := pointVel s (o.L • ![1, 0, 0] - o.e_f • ![0, 1, 0])
/-- `v_v_mw` of the steering, 1008-1010, 1054-1056. -/
def axleVel (o : Odo) (s : Motion) : V3 := pointVel s (o.L • ![1, 0, 0])
/-- `r_v_mr`, 555, 588. -/
def sensorVel (o : Odo) (s : Motion) : V3 := o.v_R_r.transpose *ᵥ (bodyVel s + bodyOm s ⨯₃ o.v_r_vr)
/-- `r_om_mr`, 556, 589. -/
def sensorOm (o : Odo) (s : Motion) : V3 := o.v_R_r.transpose *ᵥ bodyOm s

/-- `m_r_mr`, the position of the sensor, 479-484, 509-515. -/
def sensorPos (o : Odo) (R : M3) (p : V3) : V3 := p + R *ᵥ o.v_r_vr
/-- `m_R_r`, the attitude of the sensor, 485-486, 516-517. -/
def sensorRot (o : Odo) (R : M3) : M3 := R * o.v_R_r

/-- knots for the spline fit from a pose measurement, 421-440: attitude and position of the vehicle.  Simplification: the
attitude as a matrix instead of a unit quaternion. -/
def vehiclePose (o : Odo) (m_R_r : M3) (m_r_mr : V3) : M3 × V3 :=
  let m_R_v := m_R_r * o.v_R_r.transpose
  (m_R_v, m_r_mr - m_R_v *ᵥ o.v_r_vr)

/-- predicted distance measurement, 691-692. -/
def dmiPred (o : Odo) (s : Motion) : ℝ := o.k_dmi * dmiVel o s 0
/-- predicted rear wheel speeds, 961-965. -/
def rearPred (o : Odo) (s : Motion) : ℝ × ℝ := (o.k_rl * rlVel o s 0, o.k_rr * rrVel o s 0)
/-- predicted speed of one front wheel, 825-830 and 831-835. -/
noncomputable def frontPred1 (k : ℝ) (v : V3) : ℝ :=
  let temp := Real.sqrt (v 1 * v 1 / (v 0 * v 0) + 1)
  k * (v 0 / temp + v 1 * v 1 / (v 0 * temp))
/-- predicted front wheel speeds, 825-835. -/
noncomputable def frontPred (o : Odo) (s : Motion) : ℝ × ℝ := (frontPred1 o.k_fl (flVel o s), frontPred1 o.k_fr (frVel o s))
/-- predicted steering, 1067-1068. -/
noncomputable def steerPred (o : Odo) (s : Motion) : ℝ := atan2 (axleVel o s 1) (axleVel o s 0)

/-- error of a distance measurement, 641-644, 684-687. -/
noncomputable def dmiError (o : Odo) (s : Motion) (m : ℝ) : V3 := wheelErr false m o.k_dmi (dmiVel o s)
/-- errors of a rear wheel measurement, 891-899, 949-956. -/
noncomputable def rearError (o : Odo) (s : Motion) (l r : ℝ) : V3 × V3 :=
  (wheelErr false l o.k_rl (rlVel o s), wheelErr false r o.k_rr (rrVel o s))
/-- errors of a front wheel measurement, 749-758, 812-820. -/
noncomputable def frontError (o : Odo) (s : Motion) (l r : ℝ) : V3 × V3 :=
  (wheelErr true l o.k_fl (flVel o s), wheelErr true r o.k_fr (frVel o s))
/-- error of a steering measurement, 1015-1017, 1061-1063. -/
noncomputable def steerError (o : Odo) (s : Motion) (m : ℝ) : ℝ := steerErr m o.a (axleVel o s)
/-- error of a velocity measurement, 558-560, 591-593. -/
def velError (o : Odo) (s : Motion) (vm om : V3) : V3 × V3 := velErr vm om (sensorVel o s) (sensorOm o s)

/-- front and rear wheel measurements are used only if this fails, 733-734, 796-797, 879-880, 937-938. -/
def reversing (s : Motion) : Prop := bodyVel s 0 < 0

end CarKin
end Verif
