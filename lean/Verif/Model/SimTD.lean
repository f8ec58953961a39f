import Verif.Model.Loop
import Mathlib.Analysis.SpecialFunctions.Trigonometric.Arctan

/-!
# Model of the simulator of the time delay example

`SE` is `/repo/incremental_calibration_examples/incremental_calibration_examples_time_delay/src/simulation/simulationEngine.cpp`,
`TD` is `.../src/algo/Calibrator.cpp`, `EW` is `.../src/error-terms/ErrorTermWheel.cpp`.  Real arithmetic.  The quaternion
functions are those of the external library sm_kinematics (vector part first; `qplus`, `quatInv`, `quatRotate` of
`quaternion_algebra.hpp`): their formulas are an assumption, and `Props/SimTD.lean` proves the laws they must satisfy.
The conversion `secToNsec`, the Euler angles of a rotation and the random numbers are collaborators (`Env`).
-/

namespace Verif
namespace SimTD

/-- `Eigen::Vector3d`. -/
@[ext] structure Vec3 where
  x : ℝ
  y : ℝ
  z : ℝ

/-- A quaternion `Eigen::Vector4d`, vector part first. -/
@[ext] structure Quat where
  x : ℝ
  y : ℝ
  z : ℝ
  w : ℝ

/-- `sm::kinematics::Transformation`: `q()` and `t()`.
External; used at `time_delay/src/simulation/simulationEngine.cpp` 36, 125. -/
@[ext] structure Pose where
  q : Quat
  r : Vec3

namespace Vec3
/-- `a + b`.  Used at `time_delay/src/simulation/simulationEngine.cpp` 112, 148. -/
def add (a b : Vec3) : Vec3 := ⟨a.x + b.x, a.y + b.y, a.z + b.z⟩
/-- `a - b`.  Used at `simulationEngine.cpp` (time delay) 108-126. -/
def sub (a b : Vec3) : Vec3 := ⟨a.x - b.x, a.y - b.y, a.z - b.z⟩
/-- `c * a`.  Used at `time_delay/src/simulation/simulationEngine.cpp` 112, 117-121. -/
def smul (c : ℝ) (a : Vec3) : Vec3 := ⟨c * a.x, c * a.y, c * a.z⟩
/-- `a.cross(b)`.  `time_delay/src/simulation/simulationEngine.cpp` 148. -/
def cross (a b : Vec3) : Vec3 := ⟨a.y * b.z - a.z * b.y, a.z * b.x - a.x * b.z, a.x * b.y - a.y * b.x⟩
/-- `a.norm()`.  `time_delay/src/simulation/simulationEngine.cpp` 115. -/
noncomputable def norm (a : Vec3) : ℝ := Real.sqrt (a.x * a.x + a.y * a.y + a.z * a.z)
/-- `Eigen::Vector3d::Zero()`. -/
def zero : Vec3 := ⟨0, 0, 0⟩
end Vec3

namespace Quat
/-- Vector part `q.head<3>()`. -/
def vec (q : Quat) : Vec3 := ⟨q.x, q.y, q.z⟩
/-- sm_kinematics `qplus(q, p)` (external).  Called at `time_delay/src/simulation/simulationEngine.cpp` 122. -/
def qplus (q p : Quat) : Quat :=
  ⟨q.w * p.x + p.w * q.x - (q.y * p.z - q.z * p.y), q.w * p.y + p.w * q.y - (q.z * p.x - q.x * p.z),
    q.w * p.z + p.w * q.z - (q.x * p.y - q.y * p.x), q.w * p.w - (q.x * p.x + q.y * p.y + q.z * p.z)⟩
/-- sm_kinematics `quatInv(q)` (external).  Called at `time_delay/src/simulation/simulationEngine.cpp` 114, 125. -/
def inv (q : Quat) : Quat := ⟨-q.x, -q.y, -q.z, q.w⟩
/-- sm_kinematics `quatRotate(q, v)` (external); `C() * v` is the same for a unit quaternion.
Called at `time_delay/src/simulation/simulationEngine.cpp` 113. -/
def rotate (q : Quat) (v : Vec3) : Vec3 :=
  let c := Vec3.sub (Vec3.cross q.vec v) (Vec3.smul q.w v)
  Vec3.add v (Vec3.smul 2 (Vec3.cross q.vec c))
/-- Square of the norm.  Used by `norm`; external.  (No lines of its own: `simulationEngine.cpp` 115.) -/
def norm2 (q : Quat) : ℝ := q.x * q.x + q.y * q.y + q.z * q.z + q.w * q.w
end Quat

/-- `std::numeric_limits<double>::epsilon()`.  `time_delay/src/simulation/simulationEngine.cpp` 116. -/
noncomputable def eps : ℝ := 1 / 4503599627370496

/-- `integrateMotionModel`, SE 108-126. -/
noncomputable def integrateMotionModel (T : Pose) (v om : Vec3) (dt : ℝ) : Pose :=
  let r := Vec3.add T.r (Vec3.smul dt (T.q.rotate v))
  let vqw := T.q.inv
  let n := om.norm
  let vqw' :=
    if eps < n then
      let c := Real.cos (n / 2 * dt)
      let s := Real.sin (n / 2 * dt)
      Quat.qplus ⟨om.x / n * s, om.y / n * s, om.z / n * s, c⟩ vqw
    else vqw
  ⟨vqw'.inv, r⟩

/-- The two in-out arguments of `genSineBodyVel2d`: `w_phi_v_km1`, `w_r_wv_km1`. -/
structure Path where
  phi : ℝ
  x : ℝ
  y : ℝ

/-- `genSineBodyVel2d`, SE 128-144: the forward and the angular velocity, and the new values of the in-out arguments. -/
noncomputable def genSineBodyVel2d (p : Path) (t dt A f : ℝ) : ℝ × ℝ × Path :=
  let phi := Real.arctan (2 * Real.pi * f * A * Real.cos (2 * Real.pi * f * t))
  let om := (phi - p.phi) / dt
  let rx := t
  let ry := A * Real.sin (2 * Real.pi * f * t)
  let vx := (rx - p.x) / dt
  let vy := (ry - p.y) / dt
  let c := Real.cos phi
  let s := Real.sin phi
  (c * vx + s * vy, om, ⟨phi, rx, ry⟩)

/-- `genWheelVelocity`, SE 146-149. -/
def genWheelVelocity (v om r : Vec3) : Vec3 := Vec3.add v (Vec3.cross om r)

/-- `SimulationParams.h` and `TrajectoryParams.h`.  The covariance matrices of the pose sensor are represented by the
outcome of the checks in `NormalDistribution<3>::setCovariance`. -/
structure Params where
  w_T_v_0 : Pose
  A : ℝ
  f : ℝ
  v_T_p : Pose
  b : ℝ
  k_l : ℝ
  t_l : ℝ
  k_r : ℝ
  t_r : ℝ
  dt : ℝ
  T : ℝ
  sigma2_l : ℝ
  sigma2_r : ℝ
  covPosOk : Bool
  covRotOk : Bool

/-- `PoseMeasurement.h`: position and Euler angles.  Lines 30-44. -/
@[ext] structure PoseMeas where
  r : Vec3
  R : Vec3

/-- `SimulationData.h`, `Trajectory.h`.  Lines 37-53 and 36-40. -/
structure Data where
  w_T_v : List Pose
  v_v_wv : List Vec3
  v_om_wv : List Vec3
  w_v_wwl : List Vec3
  w_v_wwr : List Vec3
  lwData : List (Int × ℝ)
  lwData_n : List (Int × ℝ)
  rwData : List (Int × ℝ)
  rwData_n : List (Int × ℝ)
  poseData : List (Int × PoseMeas)
  poseData_n : List (Int × PoseMeas)

/-- A new `SimulationData`.  `SimulationData.h` (time delay) 30-53. -/
def Data.empty : Data := ⟨[], [], [], [], [], [], [], [], [], [], []⟩

/-- Collaborators: `secToNsec`, `ypr.rotationMatrixToParameters(C(q) * C(q'))`, and the samples drawn in the `k`-th round.
Called at `time_delay/src/simulation/simulationEngine.cpp` 65-104. -/
structure Env where
  ns : ℝ → Int
  euler : Quat → Quat → Vec3
  noiseL : Nat → ℝ
  noiseR : Nat → ℝ
  noisePos : Nat → Vec3
  noiseRot : Nat → Vec3

/-- Variables of the loop in `simulate`; `k` numbers the rounds (for the random samples only).
`time_delay/src/simulation/simulationEngine.cpp` 36-46. -/
structure St where
  data : Data
  path : Path
  t : ℝ
  stamp : Int
  k : Nat

/-- `data.trajectory.w_T_v.back()`, never called on an empty vector (SE 36). -/
def back (p : Params) (d : Data) : Pose := d.w_T_v.getLastD p.w_T_v_0

/-- One round of the loop, SE 47-104, and `t += dt`. -/
noncomputable def body (env : Env) (p : Params) (s : St) : Res St Unit :=
  let g := genSineBodyVel2d s.path s.t p.dt p.A p.f
  let v : Vec3 := ⟨g.1, 0, 0⟩
  let om : Vec3 := ⟨0, 0, g.2.1⟩
  let T := integrateMotionModel (back p s.data) v om p.dt
  let wl := genWheelVelocity v om ⟨0, p.b, 0⟩
  let wr := genWheelVelocity v om ⟨0, -p.b, 0⟩
  let d1 : Data := { s.data with
    w_T_v := s.data.w_T_v ++ [T]
    v_v_wv := s.data.v_v_wv ++ [v]
    v_om_wv := s.data.v_om_wv ++ [om]
    w_v_wwl := s.data.w_v_wwl ++ [wl]
    w_v_wwr := s.data.w_v_wwr ++ [wr]
    lwData := s.data.lwData ++ [(s.stamp + env.ns p.t_l, p.k_l * wl.x)] }
  let s1 : St := { s with data := d1, path := g.2.2 }
  if p.sigma2_l ≤ 0 then .throw .badArgument s1
  else
    let d2 : Data := { d1 with
      lwData_n := d1.lwData_n ++ [(s.stamp + env.ns p.t_l, p.k_l * (wl.x + env.noiseL s.k))]
      rwData := d1.rwData ++ [(s.stamp + env.ns p.t_r, p.k_r * wr.x)] }
    if p.sigma2_r ≤ 0 then .throw .badArgument { s1 with data := d2 }
    else
      let pose : PoseMeas :=
        ⟨Vec3.add T.r (T.q.rotate p.v_T_p.r), env.euler T.q p.v_T_p.q⟩
      let d3 : Data := { d2 with
        rwData_n := d2.rwData_n ++ [(s.stamp + env.ns p.t_r, p.k_r * (wr.x + env.noiseR s.k))]
        poseData := d2.poseData ++ [(s.stamp + env.ns (p.dt * 0.5), pose)] }
      if p.covPosOk = false ∨ p.covRotOk = false then .throw .badArgument { s1 with data := d3 }
      else
        let d4 : Data := { d3 with
          poseData_n := d3.poseData_n ++ [(s.stamp + env.ns (p.dt * 0.5),
            ⟨Vec3.add pose.r (env.noisePos s.k), Vec3.add pose.R (env.noiseRot s.k)⟩)] }
        .ok () { s1 with data := d4, stamp := s.stamp + env.ns p.dt, t := s.t + p.dt, k := s.k + 1 }

/-- State before the loop, SE 36-46. -/
noncomputable def init (p : Params) (d : Data) : St :=
  { data := { d with
      w_T_v := d.w_T_v ++ [p.w_T_v_0]
      v_v_wv := d.v_v_wv ++ [Vec3.zero]
      v_om_wv := d.v_om_wv ++ [Vec3.zero] }
    path := ⟨Real.arctan (2 * Real.pi * p.f * p.A * Real.cos (2 * Real.pi * p.f * p.dt)), 0, 0⟩
    t := p.dt
    stamp := 0
    k := 0 }

open Classical in
/-- `simulate(params, data)`, SE 35-106. -/
noncomputable def simulate (env : Env) (p : Params) (d : Data) : Res Data Unit :=
  (Loop.run (fun s : St => s.t < p.T) (body env p) (init p d)).mapState St.data

/-! ## What the calibrator compares the measurements with -/

/-- Time at which the calibrator evaluates the splines for a wheel measurement with time stamp `stamp`, TD 420-423. -/
def evalTime (delay stamp : Int) : Int := delay + stamp

/-- Error of a wheel term with `frontEnabled = false`, EW 104-108. -/
def wheelError (k : ℝ) (v : Vec3) (meas : ℝ) : Vec3 := ⟨meas - k * v.x, -v.y, -v.z⟩

/-- Velocity of the left wheel predicted from the body velocities of the splines, TD 449-451. -/
def leftVelocity (b : ℝ) (v om : Vec3) : Vec3 := Vec3.add v (Vec3.cross om ⟨0, 1 * b, 0⟩)

/-- Velocity of the right wheel, TD 549-551. -/
def rightVelocity (b : ℝ) (v om : Vec3) : Vec3 := Vec3.add v (Vec3.cross om ⟨-0 * b, -1 * b, -0 * b⟩)

/-- The predicted wheel speed, TD 503-508 and TD 603-608 (`none`: not a finite number). -/
noncomputable def predictedSpeed (k : ℝ) (v : Vec3) : Option ℝ :=
  if v.x = 0 then none
  else
    let temp := Real.sqrt (v.y * v.y / (v.x * v.x) + 1)
    some (k * (v.x / temp + v.y * v.y / (v.x * temp)))

/-- The knots `initSplines` computes from a pose measurement: TD 309-324, with the rotation of the pose sensor given as a
quaternion (`ypr.parametersToRotationMatrix` of the measured angles). -/
def knot (v_T_p : Pose) (wqp : Quat) (r : Vec3) : Pose :=
  let wqv := wqp.qplus v_T_p.q.inv
  ⟨wqv, Vec3.sub r (wqv.rotate v_T_p.r)⟩

end SimTD
end Verif
