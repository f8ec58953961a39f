import Verif.Model.SimTD
import Verif.Model.Egomotion

/-!
# Model of the simulator of the egomotion example, of `bestQuat`, and of the program `simulator`

`SE` is
`/repo/incremental_calibration_examples/incremental_calibration_examples_egomotion_sensors/src/simulation/simulationEngine.cpp`,
`SM` is `.../src/simulation/simulator.cpp`, `BQ` is `.../src/algo/bestQuat.cpp` (the same file exists in the car and in the time
delay example).  `integrateMotionModel` and `genSineBodyVel2d` (SE 267-303) are, character by character, those of the time delay
example and are shared with `Model/SimTD.lean`.  Rigid motions of the sensors are elements of a group `T`; the splines fitted to
the simulated poses (external library bsplines) are a function of time with values in `T`, defined from the first to the last
time stamp.  Real arithmetic.
-/

namespace Verif
namespace SimEgo
open SimTD (Vec3 Quat Pose Path)

/-- `Eigen::Vector4d::norm`. -/
noncomputable def qnorm (q : Quat) : ℝ := Real.sqrt q.norm2
/-- `p + c`.  `bestQuat.cpp` 17. -/
def qadd (p c : Quat) : Quat := ⟨p.x + c.x, p.y + c.y, p.z + c.z, p.w + c.w⟩
/-- `p - c`.  `bestQuat.cpp` 17. -/
def qsub (p c : Quat) : Quat := ⟨p.x - c.x, p.y - c.y, p.z - c.z, p.w - c.w⟩
/-- `-c`.  `bestQuat.cpp` 18. -/
def qneg (c : Quat) : Quat := ⟨-c.x, -c.y, -c.z, -c.w⟩

open Classical in
/-- `bestQuat`, BQ 15-21. -/
noncomputable def bestQuat (p c : Quat) : Quat := if qnorm (qadd p c) < qnorm (qsub p c) then qneg c else c

/-- The loops that fill `rotPoses` in the calibrators: egomotion `Calibrator.cpp` 174-177, time delay `Calibrator.cpp` 315-321,
`CarCalibrator.cpp` 430-436. -/
noncomputable def alignSigns : List Quat → List Quat → List Quat
  | acc, [] => acc
  | acc, q :: qs =>
    alignSigns (acc ++ [match acc.getLast? with
      | none => q
      | some p => bestQuat p q]) qs

/-- `trajectoryParams.type`: the strings "combined", "straight", "random", and any other.
`egomotion_sensors/src/simulation/simulationEngine.cpp` 57, 131, 144, 152. -/
inductive Kind where
  | combined
  | straight
  | random
  | other
  deriving DecidableEq

/-- `SimulationParams.h`, `TrajectoryParams.h`; `dur` is `T`.  `sensors` are the keys of the map `sigma2` in its iteration order; a covariance
matrix is represented by a tag and by the outcome of the check in the constructor of `NormalDistribution<6>`. -/
structure Params (T : Type) where
  kind : Kind
  w_T_v_0 : Pose
  A : ℝ
  f : ℝ
  dt : ℝ
  dur : ℝ
  knots : Int
  ref : Nat
  sensors : List Nat
  cov : Nat → Nat
  covOk : Nat → Bool
  calib : Nat → Option (Int × T)

/-- Collaborators: `secToNsec`, `nsecToSec`; the samples drawn for the velocities of the random trajectory in the `k`-th round;
the value of `lround` on infinity; the fitted splines (`none`: the fitter throws); the noise transformation drawn in the `k`-th
round for a sensor (SE 237-239, 254-256). -/
structure Env (T : Type) where
  ns : ℝ → Int
  sec : Int → ℝ
  trajV : Nat → Vec3
  trajOm : Nat → Vec3
  lroundInf : Int
  fit : List (Int × Pose) → Int → Option (Int → T)
  noise : Nat → Nat → T

variable {T : Type}

/-! ## The trajectory -/

/-- Variables of the generating loops: `timestamps`, `transPoses`, `rotPoses` (one list), `timestamp`, the in-out arguments of
`genSineBodyVel2d`, the loop variable; `k` numbers the rounds (for the random samples only). -/
structure Gen where
  poses : List (Int × Pose)
  stamp : Int
  path : Path
  t : ℝ
  k : Nat

/-- One round of a generating loop, SE 62-75, 83-96, 107-126, 143-175; `rand`: the velocities of the random trajectory.  `back()`
is never called on an empty vector (SE 53, 55). -/
noncomputable def genBody (env : Env T) (p : Params T) (rand : Bool) (A : ℝ) (s : Gen) : Res Gen Unit :=
  let g := SimTD.genSineBodyVel2d s.path s.t p.dt A p.f
  let v : Vec3 := if rand then Vec3.add ⟨g.1, g.1, g.1⟩ (env.trajV s.k) else ⟨g.1, 0, 0⟩
  let om : Vec3 := if rand then Vec3.add ⟨g.2.1, g.2.1, g.2.1⟩ (env.trajOm s.k) else ⟨0, 0, g.2.1⟩
  let back : Pose := (s.poses.getLastD (0, p.w_T_v_0)).2
  let P := SimTD.integrateMotionModel back v om p.dt
  let stamp := s.stamp + env.ns p.dt
  .ok () { poses := s.poses ++ [(stamp, ⟨bestQuat back.q P.q, P.r⟩)], stamp := stamp, path := g.2.2, t := s.t + p.dt, k := s.k + 1 }

open Classical in
/-- A generating loop, up to `t < bound`.
`egomotion_sensors/src/simulation/simulationEngine.cpp` 61-77, 82-98, 106-128, 142-177. -/
noncomputable def genPhase (env : Env T) (p : Params T) (rand : Bool) (A bound : ℝ) (s : Gen) : Res Gen Unit :=
  Loop.run (fun s : Gen => s.t < bound) (genBody env p rand A) s

/-- The initial values of `w_phi_v_km1`, `w_r_wv_km1` for a curved trajectory, SE 79-80, 100-101, 134-135. -/
noncomputable def curvedStart (p : Params T) : Path :=
  ⟨Real.arctan (2 * Real.pi * p.f * p.A * Real.cos (2 * Real.pi * p.f * p.dt)), 0, 0⟩

/-- Before the first loop, SE 49-55. -/
noncomputable def genInit (p : Params T) (path : Path) : Gen :=
  { poses := [(0, p.w_T_v_0)], stamp := 0, path := path, t := p.dt, k := 0 }

/-- The trajectory, SE 57-177. -/
noncomputable def generate (env : Env T) (p : Params T) : Res Gen Unit :=
  match p.kind with
  | .combined =>
    (genPhase env p false 0 (p.dur / 3) (genInit p ⟨0, 0, 0⟩)).bind fun _ s1 =>
      (genPhase env p false p.A (2 / 3 * p.dur) { s1 with path := curvedStart p, t := env.sec s1.stamp + p.dt }).bind fun _ s2 =>
        genPhase env p true p.A p.dur { s2 with path := curvedStart p, t := env.sec s2.stamp + p.dt }
  | .straight => genPhase env p false 0 p.dur (genInit p ⟨0, 0, 0⟩)
  | .random => genPhase env p true p.A p.dur (genInit p (curvedStart p))
  | .other => genPhase env p false p.A p.dur (genInit p (curvedStart p))

/-! ## The sensor data -/

/-- `SimulationData.h` without the trajectory: noise-free and noisy motions.  A map entry comes into being with its first
element, so an empty list is an absent key.  Lines 30-36 of `SimulationData.h`. -/
structure Data (T : Type) where
  clean : Nat → List (Ego.Meas T)
  noisy : Nat → List (Ego.Meas T)

/-- A new `SimulationData`.  `SimulationData.h` (egomotion) 25-40. -/
def Data.empty : Data T := ⟨fun _ => [], fun _ => []⟩

/-- `map[k].push_back(m)`.  `egomotion_sensors/src/simulation/simulationEngine.cpp` 236, 240, 252, 257. -/
def pushAt (f : Nat → List (Ego.Meas T)) (m : Ego.Meas T) : Nat → List (Ego.Meas T) :=
  fun i => if i = m.sensor then f i ++ [m] else f i

variable [Group T]

/-- The loop over the sensors at time `t` in the `k`-th round, SE 229-260. -/
def sensorStep (env : Env T) (p : Params T) (k : Nat) (t : Int) (prev cur : T) : List Nat → Data T → Res (Data T) Unit
  | [], d => .ok () d
  | s :: ss, d =>
    if s = p.ref then
      let m : Ego.Meas T := ⟨s, t, prev⁻¹ * cur, env.ns p.dt, p.cov s⟩
      sensorStep env p k t prev cur ss
        ⟨pushAt d.clean m, pushAt d.noisy { m with motion := prev⁻¹ * cur * env.noise k s }⟩
    else
      match p.calib s with
      | none => .throw .stdOutOfRange d
      | some (delay, C) =>
        let m : Ego.Meas T := ⟨s, t + delay, C⁻¹ * prev⁻¹ * cur * C, env.ns p.dt, p.cov s⟩
        sensorStep env p k t prev cur ss
          ⟨pushAt d.clean m, pushAt d.noisy { m with motion := C⁻¹ * prev⁻¹ * cur * C * env.noise k s }⟩

/-- Variables of the loop over time; `prev = none` is `firstTime`.
`egomotion_sensors/src/simulation/simulationEngine.cpp` 212-214. -/
structure DSt (T : Type) where
  data : Data T
  t : Int
  prev : Option T
  k : Nat

/-- One round, SE 222-263, and `t += secToNsec(dt)`. -/
def dataBody (env : Env T) (p : Params T) (S : Int → T) (s : DSt T) : Res (DSt T) Unit :=
  match s.prev with
  | none => .ok () { s with prev := some (S s.t), t := s.t + env.ns p.dt, k := s.k + 1 }
  | some q =>
    match sensorStep env p s.k s.t q (S s.t) p.sensors s.data with
    | .ok _ d => .ok () { data := d, prev := some (S s.t), t := s.t + env.ns p.dt, k := s.k + 1 }
    | .throw e d => .throw e { s with data := d }
    | .ub => .ub
    | .diverge => .diverge

/-- `simulate(params, data)`, SE 42-265. -/
noncomputable def simulate (env : Env T) (p : Params T) (d : Data T) : Res (Data T) Unit :=
  match generate env p with
  | .throw e _ => .throw e d
  | .ub => .ub
  | .diverge => .diverge
  | .ok _ g =>
    match Ego.numSegments env.lroundInf p.knots g.poses.length g.poses with
    | none => .ub
    | some n =>
      match env.fit g.poses n with
      | none => .throw .external d
      | some S =>
        if p.sensors.all p.covOk = false then .throw .badArgument d
        else
          (Loop.run (fun s : DSt T => s.t ≤ Ego.tMax g.poses) (dataBody env p S) ⟨d, Ego.tMin g.poses, none, 0⟩).mapState DSt.data

/-! ## The program `simulator` -/

variable {E G P V : Type}

/-- The two nested loops, SM 87-95 and 97-105, over the positions of the reference stream and the keys of the map. -/
def feed (cenv : Ego.Env T E G P V) (o : Ego.Opt) (data : Nat → List (Ego.Meas T)) :
    List (Nat × Nat) → Win Nat (Ego.Meas T) (Ego.St T E) G P → Res (Win Nat (Ego.Meas T) (Ego.St T E) G P) Unit
  | [], s => .ok () s
  | (i, k) :: l, s =>
    match (data k)[i]? with
    | none => .throw .stdOutOfRange s
    | some m => (s.add (Ego.cfg cenv o) m).bind fun _ s' => feed cenv o data l s'

/-- `main`, SM 40-108, from the configuration to the last submission; the files written: `Model/EgoFiles`.  `keys` is the
iteration order of the map of the simulated motions, `noisy` the option `useNoisyData`, `e` the estimator and design variables
of the new calibrator. -/
noncomputable def main (env : Env T) (p : Params T) (cenv : Ego.Env T E G P V) (o : Ego.Opt) (keys : List Nat) (noisy : Bool)
    (e : Ego.St T E) : Res (Win Nat (Ego.Meas T) (Ego.St T E) G P) Unit :=
  let s0 := Win.init (Ego.cfg cenv o) e
  match simulate env p Data.empty with
  | .throw x _ => .throw x s0
  | .ub => .ub
  | .diverge => .diverge
  | .ok _ d =>
    let data := if noisy then d.noisy else d.clean
    if (data o.ref).isEmpty then .throw .stdOutOfRange s0
    else
      (feed cenv o data ((List.range (data o.ref).length).flatMap fun i => keys.map fun k => (i, k)) s0).bind fun _ s =>
        if Ego.unprocessed cenv s then s.addMeasurements (Ego.cfg cenv o) else .ok () s

end SimEgo
end Verif
