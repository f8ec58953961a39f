import Verif.Model.Options
import Verif.Model.SimTD
import Verif.Model.NormalMv

/-!
# Model of the parameters of the two simulations

`S` is `incremental_calibration_examples_time_delay/src/simulation/SimulationParams.cpp`, `R`
`incremental_calibration_examples_egomotion_sensors/src/simulation/SimulationParams.cpp`, both in
`/repo/incremental_calibration_examples`.
-/

namespace Verif
namespace Opts

/-- `sm::PropertyTree(config, name)` (external): the entries below `name`.  Called at `S` 71, `R` 70. -/
def Tree.sub (t : Tree) (name : String) : Tree where
  double k := t.double (name ++ "/" ++ k)
  int k := t.int (name ++ "/" ++ k)
  bool k := t.bool (name ++ "/" ++ k)
  str k := t.str (name ++ "/" ++ k)

/-! ## Time delay -/

/-- `SimulationParams`, `time-delay/simulation/SimulationParams.h` 45-72.  `v_T_p` is given by yaw, pitch, roll, x, y, z; of the
two covariance matrices, which are diagonal, the diagonals are kept. -/
structure TDSim where
  traj : TDTraj
  v_T_p : List ℝ
  b : ℝ
  k_l : ℝ
  t_l : ℝ
  k_r : ℝ
  t_r : ℝ
  dt : ℝ
  T : ℝ
  sigma2_l : ℝ
  sigma2_r : ℝ
  sigma2_w_r_wp : List ℝ
  sigma2_w_R_p : List ℝ

/-- the default constructor, `S` 26-40, with the default trajectory, `Q` 19-23. -/
noncomputable def tdDefault : TDSim where
  traj := ⟨15, 1 / 100, [0, 0, 0, 0, 0, 0]⟩
  v_T_p := [0, 0, 0, 0, 0, 0]
  b := 8 / 10
  k_l := 360
  t_l := 1 / 10
  k_r := 360
  t_r := 1 / 10
  dt := 1 / 10
  T := 1000
  sigma2_l := 1 / 1000
  sigma2_r := 1 / 1000
  sigma2_w_r_wp := [1 / 1000000, 1 / 1000000, 1 / 1000000]
  sigma2_w_R_p := [1 / 1000000, 1 / 1000000, 1 / 1000000]

/-- `Eigen::Vector3d(config.getDouble(tag + "e1"), …)`, for instance `S` 62-65. -/
def get3 (t : Tree) (tag : String) : Res Unit (List ℝ) :=
  (get (t.double (tag ++ "e1"))).bind fun a _ =>
  (get (t.double (tag ++ "e2"))).bind fun b _ =>
  (get (t.double (tag ++ "e3"))).bind fun c _ =>
  .ok [a, b, c] ()

/-- `SimulationParams(config)`, `S` 42-74.  Some of the numbers are arguments of constructors, so the order in which they are read
is not specified by the language; it does not matter for the outcome. -/
def tdSim (t : Tree) : Res Unit TDSim :=
  (get (t.double "calibration/odometry/wss/b")).bind fun b _ =>
  (get (t.double "calibration/odometry/wss/k_l")).bind fun kl _ =>
  (get (t.double "calibration/odometry/wss/t_l")).bind fun tl _ =>
  (get (t.double "calibration/odometry/wss/k_r")).bind fun kr _ =>
  (get (t.double "calibration/odometry/wss/t_r")).bind fun tr _ =>
  (get3 t "calibration/v_T_p/v_R_p/").bind fun R _ =>
  (get3 t "calibration/v_T_p/v_r_vp/").bind fun r _ =>
  (get (t.double "dt")).bind fun dt _ =>
  (get (t.double "T")).bind fun T _ =>
  (get (t.double "noise/odometry/wss/sigma2_l")).bind fun sl _ =>
  (get (t.double "noise/odometry/wss/sigma2_r")).bind fun sr _ =>
  (get3 t "noise/pose/sigma2_w_r_wp/").bind fun cp _ =>
  (get3 t "noise/pose/sigma2_w_R_p/").bind fun cR _ =>
  (tdTraj (t.sub "trajectory")).bind fun tj _ =>
  .ok ⟨tj, R ++ r, b, kl, tl, kr, tr, dt, T, sl, sr, cp, cR⟩ ()

/-- the diagonal matrix with the given diagonal, `Matrix3d::Identity() * v.asDiagonal()`, `S` 62-69. -/
noncomputable def diag3 (v : List ℝ) : Matrix (Fin 3) (Fin 3) ℝ := Matrix.diagonal fun i => v.getD i 0

open Classical in
/-- what the simulator (`Model/SimTD.lean`) makes of the parameters.  `ypr` is `EulerAnglesYawPitchRoll` (external).  A covariance
matrix is usable when the constructor of `NormalDistribution<3>` (`Model/NormalMv.lean`) accepts it,
`time_delay/src/simulation/simulationEngine.cpp` 95-99. -/
noncomputable def TDSim.params (ypr : ℝ → ℝ → ℝ → SimTD.Quat) (eig : NormalV.Eig 3) (raw : NormalV 3) (s : TDSim) : SimTD.Params where
  w_T_v_0 := ⟨ypr (s.traj.start.getD 0 0) (s.traj.start.getD 1 0) (s.traj.start.getD 2 0),
    ⟨s.traj.start.getD 3 0, s.traj.start.getD 4 0, s.traj.start.getD 5 0⟩⟩
  A := s.traj.A
  f := s.traj.f
  v_T_p := ⟨ypr (s.v_T_p.getD 0 0) (s.v_T_p.getD 1 0) (s.v_T_p.getD 2 0), ⟨s.v_T_p.getD 3 0, s.v_T_p.getD 4 0, s.v_T_p.getD 5 0⟩⟩
  b := s.b
  k_l := s.k_l
  t_l := s.t_l
  k_r := s.k_r
  t_r := s.t_r
  dt := s.dt
  T := s.T
  sigma2_l := s.sigma2_l
  sigma2_r := s.sigma2_r
  covPosOk := decide (∃ n, NormalV.ctor eig raw 0 (diag3 s.sigma2_w_r_wp) = .ok () n)
  covRotOk := decide (∃ n, NormalV.ctor eig raw 0 (diag3 s.sigma2_w_R_p) = .ok () n)

/-! ## Egomotion -/

/-- the loops `for (int i = 0; i < n; ++i) … map[idx] = value`, `R` 32-48, 54-68; `map` is an `unordered_map`. -/
def mapLoop {β : Type} (f : Nat → Res Unit (Nat × β)) : Nat → Nat → (Nat → Option β) → Res Unit (Nat → Option β)
  | 0, _, m => .ok m ()
  | n + 1, i, m => (f i).bind fun p _ => mapLoop f n (i + 1) (fun k => if k = p.1 then some p.2 else m k)

/-- one round of the first loop, `R` 33-47: index, delay and mounting (yaw, pitch, roll, x, y, z). -/
def readCalib (t : Tree) (i : Nat) : Res Unit (Nat × (Int × List ℝ)) :=
  let tag := "calibration/sensor_" ++ toString i ++ "/"
  (get (t.double (tag ++ "extrinsics/rotation/yaw"))).bind fun yaw _ =>
  (get (t.double (tag ++ "extrinsics/rotation/pitch"))).bind fun pitch _ =>
  (get (t.double (tag ++ "extrinsics/rotation/roll"))).bind fun roll _ =>
  (get (t.double (tag ++ "extrinsics/translation/x"))).bind fun x _ =>
  (get (t.double (tag ++ "extrinsics/translation/y"))).bind fun y _ =>
  (get (t.double (tag ++ "extrinsics/translation/z"))).bind fun z _ =>
  (get (t.int (tag ++ "intrinsics/timeDelay"))).bind fun d _ =>
  (get (t.int (tag ++ "idx"))).bind fun idx _ =>
  .ok (toSize idx, (d, [yaw, pitch, roll, x, y, z])) ()

/-- one round of the second loop, `R` 55-67: index and diagonal of the covariance matrix, which is zero elsewhere. -/
def readNoise (t : Tree) (i : Nat) : Res Unit (Nat × List ℝ) :=
  let tag := "noise/sensor_" ++ toString i ++ "/"
  (get (t.int (tag ++ "idx"))).bind fun idx _ =>
  (get (t.double (tag ++ "e1"))).bind fun e1 _ =>
  (get (t.double (tag ++ "e2"))).bind fun e2 _ =>
  (get (t.double (tag ++ "e3"))).bind fun e3 _ =>
  (get (t.double (tag ++ "e4"))).bind fun e4 _ =>
  (get (t.double (tag ++ "e5"))).bind fun e5 _ =>
  (get (t.double (tag ++ "e6"))).bind fun e6 _ =>
  .ok (toSize idx, [e1, e2, e3, e4, e5, e6]) ()

/-- `SimulationParams`, `egomotion/simulation/SimulationParams.h` 53-66. -/
structure EgoSim where
  traj : EgoTraj
  sensorCalibration : Nat → Option (Int × List ℝ)
  dt : ℝ
  T : ℝ
  sigma2 : Nat → Option (List ℝ)
  referenceSensor : Nat

/-- `SimulationParams(config, parent)`, `R` 26-73; `raw` as in `egoTraj`.  `reserve` of a negative number, which becomes a huge
one, throws (31); `numSensors + 1` overflows at the largest `int` (53).  Simplification: `reserve` of any other number succeeds. -/
def egoSim (raw : Int) (t parent : Tree) : Res Unit EgoSim :=
  (get (parent.int "egomotion/calibrator/referenceSensor")).bind fun ref _ =>
  (get (t.int "calibration/num")).bind fun n _ =>
  if n < 0 then .throw .external () else
  (mapLoop (readCalib t) n.toNat 0 (fun _ => none)).bind fun calib _ =>
  (get (t.double "dt")).bind fun dt _ =>
  (get (t.double "T")).bind fun T _ =>
  if n = 2147483647 then .ub else
  (mapLoop (readNoise t) (n + 1).toNat 0 (fun _ => none)).bind fun noise _ =>
  (egoTraj raw (t.sub "trajectory")).bind fun tj _ =>
  .ok ⟨tj, calib, dt, T, noise, toSize ref⟩ ()

end Opts
end Verif
