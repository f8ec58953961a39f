import Verif.Model.Prelude
import Mathlib.Algebra.Order.Floor.Ring
import Mathlib.Data.Rat.Floor

/-!
# Model of the car calibrator's measurement windowing

`/repo/incremental_calibration_examples/incremental_calibration_examples_car/src/algo/CarCalibrator.cpp` (line numbers
without file name refer to it).  The incremental estimator, the spline fit and the kinematic expressions are collaborators
given by `CarEnv`; times are 64 bit nanosecond counts.
-/

namespace Verif

/-- The six measurement streams, `CarCalibrator.h` 200-219. -/
inductive Sensor where
  | pose | vel | dmi | front | rear | steer
  deriving DecidableEq, Repr

/-- A measurement with its time stamp.  Simplification: of the payload only the wheel speeds (or the single value) that
decide about its use are kept; `tag` stands for everything else.  `MeasurementsContainer.h` (car) 20-39. -/
structure Meas where
  kind : Sensor
  t : Int
  l : ℚ
  r : ℚ
  tag : Nat
  deriving DecidableEq, Repr

/-- The six buffers of a window, `CarCalibrator.h` 285-300. -/
abbrev Window := Sensor → List Meas

/-- Options, `CarCalibratorOptions.h` 43-92, those that are used. -/
structure CarOpt where
  window : ℚ
  knots : Int
  linTol : ℚ
  dmiVar : ℚ
  flwVar : ℚ
  frwVar : ℚ
  rlwVar : ℚ
  rrwVar : ℚ
  steerVar : ℚ
  cutoff : ℚ
  usePose : Bool
  useVel : Bool
  delayBound : Int

/-- An error term of a batch: which measurement it comes from, the measured value and the variance it is given (for
poses and velocities the covariance is part of the measurement), and for wheels the side and the front wheel flag.
Added at `CarCalibrator.cpp` 465-1020. -/
inductive CarTerm where
  | pose (m : Meas)
  | vel (m : Meas)
  | wheel (m : Meas) (right : Bool) (value : ℚ) (var : ℚ) (frontFlag : Bool)
  | steer (m : Meas) (value : ℚ) (var : ℚ)
  deriving DecidableEq, Repr

/-- What is handed to the estimator: the pose measurements the splines are fitted to, the number of spline segments, and
the error terms in order of addition.  Built at `CarCalibrator.cpp` 343-366. -/
structure CarBatch where
  poses : List Meas
  segments : Int
  terms : List CarTerm
  deriving DecidableEq, Repr

/-- Collaborators.  `E` is the state of the incremental estimator together with the odometry design variables, `G` the
type of information gains, `P` of parameter vectors.  Called from `CarCalibrator.cpp` 343-411. -/
structure CarEnv (E G P : Type) where
  /-- `sm::timing::nsecToSec` -/
  sec : Int → ℚ
  /-- current time delay of a sensor in nanoseconds -/
  delay : E → Sensor → Int
  /-- forward speed of the vehicle from the splines fitted to the poses, at a (delayed) time -/
  speed : E → List Meas → Int → ℚ
  /-- forward speed of the front axle -/
  axleSpeed : E → List Meas → Int → ℚ
  /-- the spline fitter may throw -/
  fit : E → List Meas → Int → Option Exc
  /-- `IncrementalEstimator::addBatch` -/
  addBatch : E → CarBatch → Res E G
  /-- `OdometryDesignVariables::getParameters` -/
  params : E → P

/-- Calibrator state, `CarCalibrator.h` 271-345.  `sent` is a history variable: the windows from which a batch was
handed to the estimator. -/
structure CarCal (E G P : Type) where
  buf : Window
  start : Int
  last : Int
  est : E
  gains : List G
  params : List P
  sent : List Window

namespace CarCal
variable {E G P : Type}

/-- Constructor, 61-79. -/
def init (env : CarEnv E G P) (e : E) : CarCal E G P :=
  ⟨fun _ => [], -1, -1, e, [], [env.params e], []⟩

/-- `unprocessedMeasurements`, 114-120. -/
def unprocessed (s : CarCal E G P) : Bool :=
  !(s.buf .pose).isEmpty || !(s.buf .vel).isEmpty || !(s.buf .dmi).isEmpty || !(s.buf .front).isEmpty ||
    !(s.buf .rear).isEmpty || !(s.buf .steer).isEmpty

/-- `clearMeasurements`, 1076-1083. -/
def clear (s : CarCal E G P) : CarCal E G P := { s with buf := fun _ => [] }

/-- `std::round` of a rational: halves away from zero.  Called at `CarCalibrator.cpp` 443. -/
def roundQ (x : ℚ) : Int := if 0 ≤ x then ⌊x + 1 / 2⌋ else -⌊-x + 1 / 2⌋

/-- conversion of a floating point value to `int`; out of range it is undefined behaviour.
At `CarCalibrator.cpp` 443-448. -/
def toInt32 (x : Int) : Option Int := if -2147483648 ≤ x ∧ x ≤ 2147483647 then some x else none

/-- time stamp of the first pose (`getMinTime` of the fitted splines).  `CarCalibrator.cpp` 536, 613. -/
def tMin (poses : List Meas) : Int := match poses.head? with | some m => m.t | none => 0
/-- time stamp of the last pose (`getMaxTime` of the fitted splines).  `CarCalibrator.cpp` 537, 612. -/
def tMax (poses : List Meas) : Int := match poses.getLast? with | some m => m.t | none => 0

/-- seconds between first and last pose, 441-442. -/
def elapsed (poses : List Meas) : ℚ := ((tMax poses - tMin poses : Int) : ℚ) / 1000000000

/-- number of spline segments, 441-448; `none` is undefined behaviour: reading the ends of an empty vector, or converting
an infinite or too large rate to `int`.  Simplification: exact instead of rounded arithmetic, no overflow of the difference
of the time stamps. -/
def numSegments (knots : Int) (poses : List Meas) : Option Int :=
  if poses = [] then none
  else if elapsed poses = 0 then none
  else
    match toInt32 (roundQ ((poses.length : ℚ) / elapsed poses)) with
    | none => none
    | some rate => if rate > knots then toInt32 ⌈(knots : ℚ) * elapsed poses⌉ else some (poses.length : Int)

/-- error terms for the poses, 466-494. -/
def poseTerms (ms : List Meas) : List CarTerm := ms.map .pose

/-- error terms for the velocities, 532-564: only inside the time span of the splines. -/
def velTerms (lo hi : Int) (ms : List Meas) : List CarTerm :=
  ms.flatMap fun m => if lo > m.t ∨ hi < m.t then [] else [.vel m]

/-- bounds of the time delay of a measurement lie inside the time span of the splines, 606-619. -/
def inSpan (lo hi d bound : Int) (m : Meas) : Bool :=
  !(decide (bound + (d + m.t) > hi) || decide (-bound + (d + m.t) < lo))

/-- error terms for the distance measurement instrument, 602-647. -/
def dmiTerms (o : CarOpt) (lo hi d : Int) (ms : List Meas) : List CarTerm :=
  ms.flatMap fun m => if inSpan lo hi d o.delayBound m then [.wheel m false m.l o.dmiVar false] else []

/-- error terms for the front wheels, 699-763. -/
def frontTerms (o : CarOpt) (lo hi d : Int) (speed : Int → ℚ) (ms : List Meas) : List CarTerm :=
  ms.flatMap fun m =>
    if m.l < o.cutoff ∨ m.r < o.cutoff then []
    else if !inSpan lo hi d o.delayBound m then []
    else if speed (d + m.t) < 0 then []
    else [.wheel m false m.l o.flwVar true, .wheel m true m.r o.frwVar true]

/-- error terms for the rear wheels, 848-903; the variances are those of the front wheels (893, 898). -/
def rearTerms (o : CarOpt) (lo hi d : Int) (speed : Int → ℚ) (ms : List Meas) : List CarTerm :=
  ms.flatMap fun m =>
    if m.l < o.cutoff ∨ m.r < o.cutoff then []
    else if !inSpan lo hi d o.delayBound m then []
    else if speed (d + m.t) < 0 then []
    else [.wheel m false m.l o.flwVar false, .wheel m true m.r o.frwVar false]

/-- error terms for the steering, 974-1018. -/
def steerTerms (o : CarOpt) (lo hi d : Int) (axle : Int → ℚ) (ms : List Meas) : List CarTerm :=
  ms.flatMap fun m =>
    if !inSpan lo hi d o.delayBound m then []
    else if |axle (d + m.t)| < o.linTol then []
    else [.steer m m.l o.steerVar]

/-- all error terms of a batch in order of addition, 352-360. -/
def buildTerms (env : CarEnv E G P) (o : CarOpt) (e : E) (w : Window) : List CarTerm :=
  let lo := tMin (w .pose)
  let hi := tMax (w .pose)
  (if o.useVel then velTerms lo hi (w .vel) else []) ++
  (if o.usePose then poseTerms (w .pose) else []) ++
  dmiTerms o lo hi (env.delay e .dmi) (w .dmi) ++
  frontTerms o lo hi (env.delay e .front) (env.speed e (w .pose)) (w .front) ++
  rearTerms o lo hi (env.delay e .rear) (env.speed e (w .pose)) (w .rear) ++
  steerTerms o lo hi (env.delay e .steer) (env.axleSpeed e (w .pose)) (w .steer)

/-- `addMeasurements`, 343-411.  Simplifications: the console output (364-406) is dropped; a failing spline fit leaves the
buffers as they are (the replaced spline members are not kept in the state). -/
def addMeasurements (env : CarEnv E G P) (o : CarOpt) (s : CarCal E G P) : Res (CarCal E G P) Unit :=
  if (s.buf .pose).length < 2 then .ok () s
  else
    match numSegments o.knots (s.buf .pose) with
    | none => .ub
    | some segs =>
      match env.fit s.est (s.buf .pose) segs with
      | some ex => .throw ex s
      | none =>
        let b : CarBatch := ⟨s.buf .pose, segs, buildTerms env o s.est s.buf⟩
        let s1 : CarCal E G P := { s.clear with start := s.last, sent := s.sent ++ [s.buf] }
        match env.addBatch s.est b with
        | .ok g e' => .ok () { s1 with est := e', gains := s.gains ++ [g], params := s.params ++ [env.params e'] }
        | .throw ex e' => .throw ex { s1 with est := e' }
        | .ub => .ub
        | .diverge => .diverge

/-- `addMeasurement`, 334-341; the difference of the time stamps may overflow 64 bits. -/
def addMeasurement (env : CarEnv E G P) (o : CarOpt) (s : CarCal E G P) (t : Int) : Res (CarCal E G P) Unit :=
  let s1 : CarCal E G P := { s with last := t, start := if s.start = -1 then t else s.start }
  if t - s1.start < -9223372036854775808 ∨ 9223372036854775807 < t - s1.start then .ub
  else if env.sec (t - s1.start) ≥ o.window then addMeasurements env o s1
  else .ok () s1

/-- appending a measurement to the buffer of its sensor.  `CarCalibrator.cpp` 301, 307, 313, 319, 325, 331. -/
def push (w : Window) (m : Meas) : Window := fun k => if k = m.kind then w k ++ [m] else w k

/-- `addPoseMeasurement` ... `addSteeringMeasurement`, 298-332. -/
def add (env : CarEnv E G P) (o : CarOpt) (s : CarCal E G P) (m : Meas) : Res (CarCal E G P) Unit :=
  (addMeasurement env o s m.t).bind fun _ s' => .ok () { s' with buf := push s'.buf m }

end CarCal
end Verif
