import Verif.Model.Prelude
import Mathlib.Algebra.Order.Floor.Ring
import Mathlib.Data.Rat.Floor

/-!
# Model of the measurement windowing shared by the time delay and the egomotion calibrator

`TD` stands for
`/repo/incremental_calibration_examples/incremental_calibration_examples_time_delay/src/algo/Calibrator.cpp`, `EGO` for
`/repo/incremental_calibration_examples/incremental_calibration_examples_egomotion_sensors/src/algo/Calibrator.cpp`.
The two classes have the same `addMeasurement` / `addMeasurements` / `clearMeasurements`; what differs (which buffers there
are, when a window is submitted at all, how the batch is built) is a parameter here and modelled in `Model/TimeDelay.lean` and
`Model/Egomotion.lean`.
-/

namespace Verif

/-- What a calibrator of this family is made of.  `K` are the sensors, `M` the measurements, `E` the state of the estimator,
the design variables and whatever else building a batch changes, `B` the batches, `G` the information gains, `P` the
parameter vectors.
Common to `time_delay/src/algo/Calibrator.cpp` 219-296 and `egomotion_sensors/src/algo/Calibrator.cpp` 84-152. -/
structure WinCfg (K M E B G P : Type) where
  /-- time stamp of a measurement, nanoseconds -/
  time : M → Int
  /-- the sensor it belongs to -/
  kind : M → K
  /-- `sm::timing::nsecToSec` -/
  sec : Int → ℚ
  /-- `options_.windowDuration` -/
  window : ℚ
  /-- whether `addMeasurements` goes on at all: TD 247-248, EGO has no such check -/
  ready : (K → List M) → Bool
  /-- building the batch from the buffers: TD 250-257, EGO 101-107 -/
  prepare : E → (K → List M) → Res E B
  /-- `IncrementalEstimator::addBatch` -/
  addBatch : E → B → Res E G
  /-- current parameters: `getParameters` -/
  params : E → P

/-- State of the calibrator; members of the two `Calibrator.h`.  `sent` is a history variable: the windows from which a
batch was handed to the estimator.  `egomotion/algo/Calibrator.h` 194-223; `time-delay/algo/Calibrator.h` 205-255. -/
structure Win (K M E G P : Type) where
  buf : K → List M
  start : Int
  last : Int
  est : E
  gains : List G
  params : List P
  sent : List (K → List M)

namespace Win
variable {K M E B G P : Type}

/-- Constructors, TD 55-70, EGO 48-67.  Simplification: the history of the parameters, in EGO one vector per sensor (63-65),
is one list of the parameters of all sensors. -/
def init (c : WinCfg K M E B G P) (e : E) : Win K M E G P := ⟨fun _ => [], -1, -1, e, [], [c.params e], []⟩

/-- `clearMeasurements`, TD 616-620, EGO 150-152. -/
def clear (s : Win K M E G P) : Win K M E G P := { s with buf := fun _ => [] }

/-- `addMeasurements`, TD 246-296, EGO 100-148.  Simplification: the console output is dropped. -/
def addMeasurements (c : WinCfg K M E B G P) (s : Win K M E G P) : Res (Win K M E G P) Unit :=
  if c.ready s.buf = false then .ok () s
  else
    match c.prepare s.est s.buf with
    | .throw ex e1 => .throw ex { s with est := e1 }
    | .ub => .ub
    | .diverge => .diverge
    | .ok b e1 =>
      let s1 : Win K M E G P := { s.clear with start := s.last, sent := s.sent ++ [s.buf] }
      match c.addBatch e1 b with
      | .ok g e2 => .ok () { s1 with est := e2, gains := s.gains ++ [g], params := s.params ++ [c.params e2] }
      | .throw ex e2 => .throw ex { s1 with est := e2 }
      | .ub => .ub
      | .diverge => .diverge

/-- `addMeasurement`, TD 237-244, EGO 91-98; the difference of the time stamps may overflow 64 bits. -/
def addMeasurement (c : WinCfg K M E B G P) (s : Win K M E G P) (t : Int) : Res (Win K M E G P) Unit :=
  let s1 : Win K M E G P := { s with last := t, start := if s.start = -1 then t else s.start }
  if t - s1.start < -9223372036854775808 ∨ 9223372036854775807 < t - s1.start then .ub
  else if c.sec (t - s1.start) ≥ c.window then addMeasurements c s1
  else .ok () s1

/-- appending a measurement to the buffer of its sensor.
`time_delay/src/algo/Calibrator.cpp` 222, 228, 234; `egomotion_sensors/src/algo/Calibrator.cpp` 87. -/
def push [DecidableEq K] (c : WinCfg K M E B G P) (w : K → List M) (m : M) : K → List M :=
  fun k => if k = c.kind m then w k ++ [m] else w k

/-- `addPoseMeasurement`, `addLeftWheelMeasurement`, `addRightWheelMeasurement`, TD 218-235; `addMotionMeasurement`,
EGO 84-89. -/
def add [DecidableEq K] (c : WinCfg K M E B G P) (s : Win K M E G P) (m : M) : Res (Win K M E G P) Unit :=
  (addMeasurement c s (c.time m)).bind fun _ s' => .ok () { s' with buf := push c s'.buf m }

end Win
end Verif
