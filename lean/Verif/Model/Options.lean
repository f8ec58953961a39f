import Verif.Model.Prelude
import Mathlib.Data.Real.Basic

/-!
# Model of the options read from a configuration

`C` is `incremental_calibration_examples_car/src/algo/CarCalibratorOptions.cpp`, `T`
`incremental_calibration_examples_time_delay/src/algo/CalibratorOptions.cpp`, `E`
`incremental_calibration_examples_egomotion_sensors/src/algo/CalibratorOptions.cpp`, `P`
`incremental_calibration_examples_egomotion_sensors/src/simulation/TrajectoryParams.cpp` and `Q`
`incremental_calibration_examples_time_delay/src/simulation/TrajectoryParams.cpp`, all in
`/repo/incremental_calibration_examples`.
-/

namespace Verif
namespace Opts

/-- `sm::PropertyTree` (external): the entries that can be read as a value of the type.  Reading an entry that is missing or
malformed without giving a default throws.  Read at `CarCalibratorOptions.cpp` 37-88. -/
structure Tree where
  double : String → Option ℝ
  int : String → Option Int
  bool : String → Option Bool
  str : String → Option String

/-- `get…(key)`.  Called at `CarCalibratorOptions.cpp` 37-88. -/
def get {α : Type} : Option α → Res Unit α
  | some a => .ok a ()
  | none => .throw .external ()

/-- `windowDuration` and the spline options, common to the calibrators, and the delay bound.
`CalibratorOptions.h` (egomotion) 42-56. -/
structure Spline where
  transSplineLambda : ℝ
  rotSplineLambda : ℝ
  splineKnotsPerSecond : Int
  transSplineOrder : Int
  rotSplineOrder : Int

/-- the block that reads the spline options, `C` 54-59, `T` 39-44, `E` 37-42, `P` 43-48.  The default of the translation spline
order is the member itself, which has not been initialised: `raw` is what happens to be in memory.  Simplification: reading it
is not treated as undefined behaviour. -/
def readSpline (raw : Int) (t : Tree) : Res Unit Spline :=
  (get (t.double "splines/transSplineLambda")).bind fun tl _ =>
  (get (t.double "splines/rotSplineLambda")).bind fun rl _ =>
  (get (t.int "splines/splineKnotsPerSecond")).bind fun k _ =>
  let o := (t.int "splines/transSplineOrder").getD raw
  (get (t.int "splines/rotSplineOrder")).bind fun ro _ =>
  .ok ⟨tl, rl, k, o, ro⟩ ()

/-- `CarCalibratorOptions`, `car/algo/CarCalibratorOptions.h` 42-93. -/
structure CarOptions where
  windowDuration : ℝ
  verbose : Bool
  usePose : Bool
  useVelocities : Bool
  delayBound : Int
  spline : Spline
  linearVelocityTolerance : ℝ
  dmiPercentError : ℝ
  dmiVariance : ℝ
  flwPercentError : ℝ
  flwVariance : ℝ
  frwPercentError : ℝ
  frwVariance : ℝ
  rlwPercentError : ℝ
  rlwVariance : ℝ
  rrwPercentError : ℝ
  rrwVariance : ℝ
  steeringVariance : ℝ
  vyVariance : ℝ
  vzVariance : ℝ
  wheelSpeedSensorCutoff : Nat

/-- conversion to `uint16_t`. -/
def toU16 (z : Int) : Nat := (z % 65536).toNat

/-- conversion to `size_t`.  At `egomotion_sensors/src/algo/CalibratorOptions.cpp` 28-43. -/
def toSize (z : Int) : Nat := (z % 18446744073709551616).toNat

/-- `CarCalibratorOptions(config)`, `C` 47-88. -/
def carOptions (raw : Int) (t : Tree) : Res Unit CarOptions :=
  (get (t.double "windowDuration")).bind fun wd _ =>
  (get (t.bool "verbose")).bind fun vb _ =>
  (get (t.bool "usePose")).bind fun up _ =>
  (get (t.bool "useVelocities")).bind fun uv _ =>
  (get (t.int "odometry/timeDelays/delayBound")).bind fun db _ =>
  (readSpline raw t).bind fun sp _ =>
  (get (t.double "odometry/sensors/linearVelocityTolerance")).bind fun lt _ =>
  (get (t.double "odometry/sensors/dmi/noise/dmiPercentError")).bind fun dp _ =>
  (get (t.double "odometry/sensors/dmi/noise/dmiVariance")).bind fun dv _ =>
  (get (t.double "odometry/sensors/fws/noise/flwPercentError")).bind fun flp _ =>
  (get (t.double "odometry/sensors/fws/noise/flwVariance")).bind fun flv _ =>
  (get (t.double "odometry/sensors/fws/noise/frwPercentError")).bind fun frp _ =>
  (get (t.double "odometry/sensors/fws/noise/frwVariance")).bind fun frv _ =>
  (get (t.double "odometry/sensors/rws/noise/rlwPercentError")).bind fun rlp _ =>
  (get (t.double "odometry/sensors/rws/noise/rlwVariance")).bind fun rlv _ =>
  (get (t.double "odometry/sensors/rws/noise/rrwPercentError")).bind fun rrp _ =>
  (get (t.double "odometry/sensors/rws/noise/rrwVariance")).bind fun rrv _ =>
  (get (t.double "odometry/sensors/st/noise/steeringVariance")).bind fun sv _ =>
  (get (t.double "odometry/constraints/noise/vyVariance")).bind fun vy _ =>
  (get (t.double "odometry/constraints/noise/vzVariance")).bind fun vz _ =>
  (get (t.int "odometry/sensors/wheelSpeedSensorCutoff")).bind fun co _ =>
  .ok ⟨wd, vb, up, uv, db, sp, lt, dp, dv, flp, flv, frp, frv, rlp, rlv, rrp, rrv, sv, vy, vz, toU16 co⟩ ()

/-- `CalibratorOptions` of the time delay example, `time-delay/algo/CalibratorOptions.h` 41-66. -/
structure TDOptions where
  windowDuration : ℝ
  verbose : Bool
  delayBound : Int
  spline : Spline
  lwVariance : ℝ
  rwVariance : ℝ
  vyVariance : ℝ
  vzVariance : ℝ

/-- `CalibratorOptions(config)`, `T` 34-52. -/
def tdOptions (raw : Int) (t : Tree) : Res Unit TDOptions :=
  (get (t.double "windowDuration")).bind fun wd _ =>
  (get (t.bool "verbose")).bind fun vb _ =>
  (get (t.int "delayBound")).bind fun db _ =>
  (readSpline raw t).bind fun sp _ =>
  (get (t.double "odometry/sensors/wss/noise/lwVariance")).bind fun lw _ =>
  (get (t.double "odometry/sensors/wss/noise/rwVariance")).bind fun rw _ =>
  (get (t.double "odometry/constraints/noise/vyVariance")).bind fun vy _ =>
  (get (t.double "odometry/constraints/noise/vzVariance")).bind fun vz _ =>
  .ok ⟨wd, vb, db, sp, lw, rw, vy, vz⟩ ()

/-- `CalibratorOptions` of the egomotion example, `egomotion/algo/CalibratorOptions.h` 41-60. -/
structure EgoOptions where
  windowDuration : ℝ
  verbose : Bool
  delayBound : Int
  referenceSensor : Nat
  spline : Spline

/-- `CalibratorOptions(config)`, `E` 31-43. -/
def egoOptions (raw : Int) (t : Tree) : Res Unit EgoOptions :=
  (get (t.double "windowDuration")).bind fun wd _ =>
  (get (t.bool "verbose")).bind fun vb _ =>
  (get (t.int "delayBound")).bind fun db _ =>
  (get (t.int "referenceSensor")).bind fun rs _ =>
  (readSpline raw t).bind fun sp _ =>
  .ok ⟨wd, vb, db, toSize rs, sp⟩ ()

/-- `TrajectoryParams` of the egomotion example, `egomotion/simulation/TrajectoryParams.h` 42-60; the initial transformation as
yaw, pitch, roll, x, y, z. -/
structure EgoTraj where
  A : ℝ
  f : ℝ
  start : List ℝ
  spline : Spline
  type : String

/-- `TrajectoryParams(config)`, `P` 34-50.  The six numbers are arguments of constructors, so the order in which they are read
is not specified by the language; it does not matter for the outcome. -/
def egoTraj (raw : Int) (t : Tree) : Res Unit EgoTraj :=
  (get (t.double "A")).bind fun A _ =>
  (get (t.double "f")).bind fun f _ =>
  (get (t.double "w_T_v_0/yaw")).bind fun y _ =>
  (get (t.double "w_T_v_0/pitch")).bind fun p _ =>
  (get (t.double "w_T_v_0/roll")).bind fun r _ =>
  (get (t.double "w_T_v_0/x")).bind fun x _ =>
  (get (t.double "w_T_v_0/y")).bind fun yy _ =>
  (get (t.double "w_T_v_0/z")).bind fun z _ =>
  (readSpline raw t).bind fun sp _ =>
  (get (t.str "type")).bind fun ty _ =>
  .ok ⟨A, f, [y, p, r, x, yy, z], sp, ty⟩ ()

/-- `TrajectoryParams` of the time delay example; the initial transformation as above.
`time-delay/simulation/TrajectoryParams.h` 30-48. -/
structure TDTraj where
  A : ℝ
  f : ℝ
  start : List ℝ

/-- `TrajectoryParams(config)`, `Q` 25-28: the initial transformation is default constructed (the identity). -/
def tdTraj (t : Tree) : Res Unit TDTraj :=
  (get (t.double "A")).bind fun A _ =>
  (get (t.double "f")).bind fun f _ =>
  .ok ⟨A, f, [0, 0, 0, 0, 0, 0]⟩ ()

end Opts
end Verif
