import Verif.Model.Window

/-!
# Model of the time delay calibrator

`TD` is `/repo/incremental_calibration_examples/incremental_calibration_examples_time_delay/src/algo/Calibrator.cpp`.  The
windowing is that of `Model/Window.lean`; this file models how a window becomes a batch, and `predict`.
-/

namespace Verif
namespace TD

/-- The three measurement streams, `Calibrator.h` 222-244. -/
inductive Sensor where
  | pose | left | right
  deriving DecidableEq, Repr

/-- A measurement with its time stamp: the wheel speed (0 for poses); `tag` stands for the payload of a pose. -/
structure Meas where
  kind : Sensor
  t : Int
  value : ℚ
  tag : Nat
  deriving DecidableEq, Repr

/-- Options, `CalibratorOptions.h` 41-67, those that are used. -/
structure Opt where
  window : ℚ
  knots : Int
  lwVar : ℚ
  rwVar : ℚ
  vyVar : ℚ
  vzVar : ℚ
  delayBound : Int

/-- An error term: a pose, or a wheel (with the time it is evaluated at, i.e. time stamp plus delay, the measured value, the
diagonal of its covariance, and whether it is the right wheel).
Added at `time_delay/src/algo/Calibrator.cpp` 350-378, 417-459, 516-559. -/
inductive Term where
  | pose (m : Meas)
  | wheel (m : Meas) (right : Bool) (at_ : Int) (value : ℚ) (var : ℚ × ℚ × ℚ)
  deriving DecidableEq, Repr

/-- What is handed to the estimator.  Built at `time_delay/src/algo/Calibrator.cpp` 246-264. -/
structure Batch where
  poses : List Meas
  segments : Int
  terms : List Term
  deriving DecidableEq, Repr

/-- Collaborators.  `E` is the state of the incremental estimator and the odometry design variables, `G` the type of
information gains, `P` of parameter vectors, `V` of predicted measurements.
Called from `time_delay/src/algo/Calibrator.cpp` 246-296. -/
structure Env (E G P V : Type) where
  /-- `sm::timing::nsecToSec` -/
  sec : Int → ℚ
  /-- current value of `t_l` (false) and `t_r` (true), nanoseconds -/
  delay : E → Bool → Int
  /-- the spline fitter may throw -/
  fit : E → List Meas → Int → Option Exc
  /-- `IncrementalEstimator::addBatch` -/
  addBatch : E → Batch → Res E G
  /-- `OdometryDesignVariables::getParameters` -/
  params : E → P
  /-- predicted measurement, error vector and squared error of a term, given the poses the splines are fitted to -/
  eval : E → List Meas → Term → V × List ℚ × ℚ

variable {E G P V : Type}

/-- `std::round` of a rational: halves away from zero.  Called at `time_delay/src/algo/Calibrator.cpp` 328. -/
def roundQ (x : ℚ) : Int := if 0 ≤ x then ⌊x + 1 / 2⌋ else -⌊-x + 1 / 2⌋

/-- conversion of a floating point value to `int`; out of range it is undefined behaviour.
At `time_delay/src/algo/Calibrator.cpp` 328-333. -/
def toInt32 (x : Int) : Option Int := if -2147483648 ≤ x ∧ x ≤ 2147483647 then some x else none

/-- time stamp of the first pose (`getMinTime` of the fitted splines).
`time_delay/src/algo/Calibrator.cpp` 425, 524. -/
def tMin (poses : List Meas) : Int := match poses.head? with | some m => m.t | none => 0
/-- time stamp of the last pose (`getMaxTime` of the fitted splines).  `time_delay/src/algo/Calibrator.cpp` 424, 523. -/
def tMax (poses : List Meas) : Int := match poses.getLast? with | some m => m.t | none => 0

/-- seconds between first and last pose, TD 326-327. -/
def elapsed (poses : List Meas) : ℚ := ((tMax poses - tMin poses : Int) : ℚ) / 1000000000

/-- number of spline segments, TD 326-333; `none` is undefined behaviour: reading the ends of an empty vector, or converting
an infinite or too large rate to `int`.  Simplification: exact instead of rounded arithmetic. -/
def numSegments (knots : Int) (poses : List Meas) : Option Int :=
  if poses = [] then none
  else if elapsed poses = 0 then none
  else
    match toInt32 (roundQ ((poses.length : ℚ) / elapsed poses)) with
    | none => none
    | some rate => if rate > knots then toInt32 ⌈(knots : ℚ) * elapsed poses⌉ else some (poses.length : Int)

/-- `initSplines`, TD 298-348.  Simplification: the fitted splines are a function of the poses and the number of segments, so
only the latter is the result; an exception of the fitter leaves the splines as they are. -/
def initSplines (env : Env E G P V) (o : Opt) (e : E) (poses : List Meas) : Res E Int :=
  match numSegments o.knots poses with
  | none => .ub
  | some n =>
    match env.fit e poses n with
    | some ex => .throw ex e
    | none => .ok n e

/-- `addPoseErrorTerms`, TD 350-378. -/
def poseTerms (ms : List Meas) : List Term := ms.map .pose

/-- `addLeftWheelErrorTerms`, TD 417-459. -/
def leftTerms (env : Env E G P V) (o : Opt) (e : E) (lo hi : Int) (ms : List Meas) : List Term :=
  ms.flatMap fun m =>
    let td := env.delay e false + m.t
    if o.delayBound + td > hi ∨ -o.delayBound + td < lo then []
    else [.wheel m false td m.value (o.lwVar, o.vyVar, o.vzVar)]

/-- `addRightWheelErrorTerms`, TD 516-559. -/
def rightTerms (env : Env E G P V) (o : Opt) (e : E) (lo hi : Int) (ms : List Meas) : List Term :=
  ms.flatMap fun m =>
    let td := env.delay e true + m.t
    if o.delayBound + td > hi ∨ -o.delayBound + td < lo then []
    else [.wheel m true td m.value (o.rwVar, o.vyVar, o.vzVar)]

/-- building the batch, TD 250-257. -/
def prepare (env : Env E G P V) (o : Opt) (e : E) (w : Sensor → List Meas) : Res E Batch :=
  match initSplines env o e (w .pose) with
  | .throw ex e' => .throw ex e'
  | .ub => .ub
  | .diverge => .diverge
  | .ok n e' =>
    let lo := tMin (w .pose)
    let hi := tMax (w .pose)
    .ok ⟨w .pose, n, poseTerms (w .pose) ++ leftTerms env o e' lo hi (w .left) ++ rightTerms env o e' lo hi (w .right)⟩ e'

/-- the check at the beginning of `addMeasurements`, TD 247-248. -/
def ready (w : Sensor → List Meas) : Bool := !decide ((w .pose).length < 2)

/-- the calibrator.
`time_delay/src/algo/Calibrator.cpp` 219-296 (the parts the window of `Window.lean` leaves open). -/
def cfg (env : Env E G P V) (o : Opt) : WinCfg Sensor Meas E Batch G P where
  time := Meas.t
  kind := Meas.kind
  sec := env.sec
  window := o.window
  ready := ready
  prepare := prepare env o
  addBatch := env.addBatch
  params := env.params

/-- `unprocessedMeasurements`, TD 107-111. -/
def unprocessed (s : Win Sensor Meas E G P) : Bool :=
  !(s.buf .pose).isEmpty || !(s.buf .left).isEmpty || !(s.buf .right).isEmpty

/-! ## Predictions -/

/-- The lists filled for one sensor, `Calibrator.h` 224-244: predicted measurements with their time stamps, errors, squared
errors. -/
structure PredLists (V : Type) where
  vals : List (Int × V)
  errs : List (List ℚ)
  errs2 : List ℚ

/-- The prediction members.  `time_delay/src/algo/Calibrator.cpp` 198-208. -/
structure Preds (V : Type) where
  pose : PredLists V
  left : PredLists V
  right : PredLists V

/-- `clearPredictions`, TD 198-208, and the state after construction. -/
def Preds.empty : Preds V := ⟨⟨[], [], []⟩, ⟨[], [], []⟩, ⟨[], [], []⟩⟩

/-- the three `push_back` of the loop bodies, TD 410-413, 508-512, 608-612. -/
def PredLists.push (l : PredLists V) (t : Int) (r : V × List ℚ × ℚ) : PredLists V :=
  ⟨l.vals ++ [(t, r.1)], l.errs ++ [r.2.1], l.errs2 ++ [r.2.2]⟩

/-- `predictPoses`, TD 380-415. -/
def predictPoses (env : Env E G P V) (e : E) (poses : List Meas) : List Meas → PredLists V → PredLists V
  | [], l => l
  | m :: ms, l => predictPoses env e poses ms (l.push m.t (env.eval e poses (.pose m)))

/-- `predictLeftWheel`, TD 461-514. -/
def predictLeft (env : Env E G P V) (o : Opt) (e : E) (poses : List Meas) : List Meas → PredLists V → PredLists V
  | [], l => l
  | m :: ms, l =>
    let td := env.delay e false + m.t
    if o.delayBound + td > tMax poses ∨ -o.delayBound + td < tMin poses then predictLeft env o e poses ms l
    else predictLeft env o e poses ms
      (l.push m.t (env.eval e poses (.wheel m false td m.value (o.lwVar, o.vyVar, o.vzVar))))

/-- `predictRightWheel`, TD 561-614. -/
def predictRight (env : Env E G P V) (o : Opt) (e : E) (poses : List Meas) : List Meas → PredLists V → PredLists V
  | [], l => l
  | m :: ms, l =>
    let td := env.delay e true + m.t
    if o.delayBound + td > tMax poses ∨ -o.delayBound + td < tMin poses then predictRight env o e poses ms l
    else predictRight env o e poses ms
      (l.push m.t (env.eval e poses (.wheel m true td m.value (o.rwVar, o.vyVar, o.vzVar))))

/-- `predict`, TD 210-217.  The batch made in 211-212 is local. -/
def predict (env : Env E G P V) (o : Opt) (s : Win Sensor Meas E G P) (p : Preds V) : Res (Preds V) Unit :=
  match initSplines env o s.est (s.buf .pose) with
  | .throw ex _ => .throw ex p
  | .ub => .ub
  | .diverge => .diverge
  | .ok _ _ => .ok () ⟨predictPoses env s.est (s.buf .pose) (s.buf .pose) p.pose,
      predictLeft env o s.est (s.buf .pose) (s.buf .left) p.left,
      predictRight env o s.est (s.buf .pose) (s.buf .right) p.right⟩

end TD
end Verif
