import Verif.Model.CarPredict
import Verif.Model.CarKin
import Verif.Model.Geodetic

/-!
# Model of the car programs: from the messages of a bag file to the calls of the calibrator

`RC` is `/repo/incremental_calibration_examples/incremental_calibration_examples_car/src/realworld/calibrator.cpp`;
`analyzer.cpp` in the same directory is the same up to line 241.  Real arithmetic; the data files written on the way are not
modelled; the six topics are assumed to be different.
-/

namespace Verif
namespace CarMain
open Matrix Geodetic
open CarKin (V3 M3)

/-- `poslv::VehicleNavigationSolutionMsg` (external), the fields used; angles in degrees, `stamp` in nanoseconds.
Read at `realworld/calibrator.cpp` 129-182. -/
structure Vns where
  lat : ℝ
  lon : ℝ
  alt : ℝ
  heading : ℝ
  pitch : ℝ
  roll : ℝ
  vNorth : ℝ
  vEast : ℝ
  vDown : ℝ
  omLong : ℝ
  omTrans : ℝ
  omDown : ℝ
  time1 : ℝ
  stamp : ℝ

/-- `poslv::VehicleNavigationPerformanceMsg` (external), the fields used.
Read at `realworld/calibrator.cpp` 121-123. -/
structure Vnp where
  north : ℝ
  east : ℝ
  down : ℝ
  heading : ℝ
  pitch : ℝ
  roll : ℝ
  vNorth : ℝ
  vEast : ℝ
  vDown : ℝ

/-- A message of one of the six topics.  `realworld/calibrator.cpp` 119-240. -/
inductive Msg where
  | vnp (p : Vnp)
  | vns (s : Vns)
  | fws (left right seq stamp : ℝ)
  | rws (left right seq stamp : ℝ)
  | st (value seq stamp : ℝ)
  | dmi (dist time1 stamp : ℝ)

/-- `car/data/PoseMeasurement.h` 32-39. -/
structure PoseM where
  m_r_mr : V3
  m_R_r : V3
  sigma2_r : M3
  sigma2_R : M3

/-- `car/data/VelocitiesMeasurement.h` 32-39. -/
structure VelM where
  r_v_mr : V3
  r_om_mr : V3
  sigma2_v : M3
  sigma2_om : M3

/-- A call of the calibrator; a wheel speed of `none` is not a finite number.  `realworld/calibrator.cpp` 183-243. -/
inductive Call where
  | pose (p : PoseM) (t : ℤ)
  | vel (v : VelM) (t : ℤ)
  | front (left right : ℝ) (t : ℤ)
  | rear (left right : ℝ) (t : ℤ)
  | steer (value : ℝ) (t : ℤ)
  | dmi (speed : Option ℝ) (t : ℤ)

/-- Collaborators: the time stamp corrector (external; one object per stream), and the conversion between
rotations and yaw, pitch and roll (external).  Called at `realworld/calibrator.cpp` 181-233. -/
structure Env (K : Type) where
  corr0 : K
  correct : K → ℝ → ℝ → K × ℝ
  ofYpr : V3 → M3
  toYpr : M3 → V3

/-- The switches of the configuration, `RC` 67-74. -/
structure Use where
  dmi : Bool
  fws : Bool
  rws : Bool
  st : Bool

/-- The variables of the loop, `RC` 106-117. -/
structure St (K : Type) where
  kVns : K
  kDmi : K
  kFw : K
  kRw : K
  kSt : K
  lastTime : ℝ
  lastDist : ℝ
  first : Bool
  lastVnp : Option Vnp
  m_T_e : Rigid

variable {K : Type}

/-- `RC` 106-117. -/
noncomputable def St.init (env : Env K) : St K :=
  ⟨env.corr0, env.corr0, env.corr0, env.corr0, env.corr0, -1, -1, true, none, ⟨1, 0⟩⟩

/-- `sm::kinematics::deg2rad`, external. -/
noncomputable def rad (x : ℝ) : ℝ := x * Real.pi / 180

/-- `sm::timing::secToNsec`, external.  Simplification: not rounded.  Called at `realworld/calibrator.cpp` 182, 233. -/
noncomputable def nsec (x : ℝ) : ℝ := x * 1000000000

/-- a diagonal covariance of three standard deviations.  `realworld/calibrator.cpp` 150-180. -/
noncomputable def variances (a b c : ℝ) : M3 := diagonal ![a * a, b * b, c * c]

/-- the position in the earth frame, `RC` 131-133. -/
noncomputable def ecef (s : Vns) : V3 := wgs84ToEcef (rad s.lat) (rad s.lon) s.alt

/-- `RC` 134-137. -/
noncomputable def originOf (s : Vns) : Rigid := ecef2enu (ecef s 0) (ecef s 1) (ecef s 2) (rad s.lat) (rad s.lon)

/-- `l_ned_R_r`, `RC` 140-142. -/
noncomputable def attitude (env : Env K) (s : Vns) : M3 := env.ofYpr ![rad s.heading, rad s.pitch, rad s.roll]

/-- `e_T_l_ned`, `RC` 143-144. -/
noncomputable def localNed (s : Vns) : Rigid := ned2ecef (ecef s 0) (ecef s 1) (ecef s 2) (rad s.lat) (rad s.lon)

/-- the pose measurement, `RC` 138-154. -/
noncomputable def poseOf (env : Env K) (m_T_e : Rigid) (s : Vns) (p : Vnp) : PoseM where
  m_r_mr := m_T_e.apply (ecef s)
  m_R_r := env.toYpr (m_T_e.R * (localNed s).R * attitude env s)
  sigma2_r := variances p.north p.east p.down
  sigma2_R := variances (rad p.heading) (rad p.pitch) (rad p.roll)

/-- the velocity measurement, `RC` 164-176. -/
noncomputable def velOf (env : Env K) (s : Vns) (p : Vnp) : VelM where
  r_v_mr := (attitude env s).transpose *ᵥ ![s.vNorth, s.vEast, s.vDown]
  sigma2_v := variances p.vNorth p.vEast p.vDown
  r_om_mr := ![rad s.omLong, rad s.omTrans, rad s.omDown]
  sigma2_om := variances (rad p.roll) (rad p.pitch) (rad p.heading)

/-- the corrector of a stream and the stamp, for example `RC` 181-182. -/
noncomputable def stampWith (env : Env K) (k : K) (dev host : ℝ) : K × ℤ :=
  ((env.correct k dev host).1, ErrorTerms.roundAway (env.correct k dev host).2)

open Classical in
/-- the body of the loop, `RC` 119-239: the new variables and the calls of the calibrator in order. -/
noncomputable def step (env : Env K) (use : Use) (st : St K) : Msg → St K × List Call
  | .vnp p => ({ st with lastVnp := some p }, [])
  | .vns s =>
    match st.lastVnp with
    | none => (st, [])
    | some p =>
      let m_T_e := if st.first then originOf s else st.m_T_e
      let r := stampWith env st.kVns (nsec s.time1) s.stamp
      ({ st with m_T_e := m_T_e, first := false, kVns := r.1 }, [.pose (poseOf env m_T_e s p) r.2, .vel (velOf env s p) r.2])
  | .fws l r seq stamp =>
    if use.fws then
      let q := stampWith env st.kFw seq stamp
      ({ st with kFw := q.1 }, [.front l r q.2])
    else (st, [])
  | .rws l r seq stamp =>
    if use.rws then
      let q := stampWith env st.kRw seq stamp
      ({ st with kRw := q.1 }, [.rear l r q.2])
    else (st, [])
  | .st v seq stamp =>
    if use.st then
      let q := stampWith env st.kSt seq stamp
      ({ st with kSt := q.1 }, [.steer v q.2])
    else (st, [])
  | .dmi dist time1 stamp =>
    if use.dmi then
      if st.lastTime ≠ -1 then
        let speed := if time1 - st.lastTime = 0 then none else some ((dist - st.lastDist) / (time1 - st.lastTime))
        let q := stampWith env st.kDmi (nsec time1) stamp
        ({ st with kDmi := q.1, lastTime := time1, lastDist := dist }, [.dmi speed q.2])
      else ({ st with lastTime := time1, lastDist := dist }, [])
    else (st, [])

/-- calls of the calibrator one after the other; an exception ends the program.  `realworld/calibrator.cpp` 183-243. -/
def submitAll {C : Type} (submit : C → Call → Res C Unit) (c : C) : List Call → Res C Unit
  | [] => .ok () c
  | x :: xs => (submit c x).bind fun _ c' => submitAll submit c' xs

/-- the loop over the messages, `RC` 118-240. -/
noncomputable def loop {C : Type} (submit : C → Call → Res C Unit) (env : Env K) (use : Use) (st : St K) (c : C) :
    List Msg → Res C Unit
  | [] => .ok () c
  | m :: ms => (submitAll submit c (step env use st m).2).bind fun _ c' => loop submit env use (step env use st m).1 c' ms

/-- the end of the calibration program, `RC` 242-243. -/
def finish {E G P : Type} (env : CarEnv E G P) (o : CarOpt) (s : CarCal E G P) : Res (CarCal E G P) Unit :=
  if s.unprocessed then s.addMeasurements env o else .ok () s

/-- the calibration program from the first message to the last submission, `RC` 75-243.  `meas` represents a call as a measurement of
`Model/Car`, `e` is the estimator and the design variables of the new calibrator.  The files written: `Model/CarFiles` and
`Model/CarResults`. -/
noncomputable def program {E G P : Type} (cenv : CarEnv E G P) (o : CarOpt) (meas : Call → Meas) (env : Env K) (use : Use) (e : E)
    (ms : List Msg) : Res (CarCal E G P) Unit :=
  (loop (fun s x => s.add cenv o (meas x)) env use (St.init env) (CarCal.init cenv e) ms).bind fun _ s => finish cenv o s

/-- the end of the analysis program, `analyzer.cpp` 242-243. -/
def finishAnalysis {E G P V : Type} (env : CarEnv E G P) (eval : CarCal.Eval E V) (o : CarOpt) (s : CarCal E G P) :
    Res (CarCal.Preds V) Unit :=
  if s.unprocessed then CarCal.predict env eval o s .empty else .ok () .empty

end CarMain
end Verif
