import Verif.Model.Car

/-!
# Model of the car calibrator's predictions

`/repo/incremental_calibration_examples/incremental_calibration_examples_car/src/algo/CarCalibrator.cpp` (line numbers
without file name refer to it).
-/

namespace Verif
namespace CarCal
variable {E G P V : Type}

/-- The lists filled for one sensor, `CarCalibrator.h` 285-345: predicted measurements (one value, or left and right) with
their time stamps, error vectors, squared errors. -/
structure PredLists (V : Type) where
  vals : List (Int × List V)
  errs : List (List ℚ)
  errs2 : List ℚ

/-- The three `push_back` at the end of the loop bodies.
`CarCalibrator.cpp` 526-528, 599-601, 693-696, 836-842, 966-972, 1069-1072. -/
def PredLists.push (l : PredLists V) (t : Int) (v : List V) (err : List ℚ) (sr : ℚ) : PredLists V :=
  ⟨l.vals ++ [(t, v)], l.errs ++ [err], l.errs2 ++ [sr]⟩

/-- The prediction members of the six sensors.  `CarCalibrator.h` 286-330. -/
abbrev Preds (V : Type) := Sensor → PredLists V

/-- `clearPredictions`, 267-286, and the state after construction. -/
def Preds.empty : Preds V := fun _ => ⟨[], [], []⟩

/-- What evaluating an error term gives: the predicted value, the error vector and the squared error, for the splines fitted to
the poses.  `CarCalibrator.cpp` 519-525 and the like. -/
abbrev Eval (E V : Type) := E → List Meas → CarTerm → V × List ℚ × ℚ

/-- `predictPoses`, 496-530. -/
def predictPoses (ev : CarTerm → V × List ℚ × ℚ) : List Meas → PredLists V → PredLists V
  | [], l => l
  | m :: ms, l => predictPoses ev ms (l.push m.t [(ev (.pose m)).1] (ev (.pose m)).2.1 (ev (.pose m)).2.2)

/-- `predictVelocities`, 566-600. -/
def predictVelocities (ev : CarTerm → V × List ℚ × ℚ) (lo hi : Int) : List Meas → PredLists V → PredLists V
  | [], l => l
  | m :: ms, l =>
    if lo > m.t ∨ hi < m.t then predictVelocities ev lo hi ms l
    else predictVelocities ev lo hi ms (l.push m.t [(ev (.vel m)).1] (ev (.vel m)).2.1 (ev (.vel m)).2.2)

/-- `predictDMI`, 649-697: the prediction is stamped with the delayed time. -/
def predictDMI (ev : CarTerm → V × List ℚ × ℚ) (o : CarOpt) (lo hi d : Int) : List Meas → PredLists V → PredLists V
  | [], l => l
  | m :: ms, l =>
    if !inSpan lo hi d o.delayBound m then predictDMI ev o lo hi d ms l
    else
      let r := ev (.wheel m false m.l o.dmiVar false)
      predictDMI ev o lo hi d ms (l.push (d + m.t) [r.1] r.2.1 r.2.2)

/-- `predictFrontWheels`, 765-846. -/
def predictFront (ev : CarTerm → V × List ℚ × ℚ) (o : CarOpt) (lo hi d : Int) (speed : Int → ℚ) :
    List Meas → PredLists V → PredLists V
  | [], l => l
  | m :: ms, l =>
    if m.l < o.cutoff ∨ m.r < o.cutoff then predictFront ev o lo hi d speed ms l
    else if !inSpan lo hi d o.delayBound m then predictFront ev o lo hi d speed ms l
    else if speed (d + m.t) < 0 then predictFront ev o lo hi d speed ms l
    else
      let a := ev (.wheel m false m.l o.flwVar true)
      let b := ev (.wheel m true m.r o.frwVar true)
      predictFront ev o lo hi d speed ms (l.push (d + m.t) [a.1, b.1] (a.2.1 ++ b.2.1) (a.2.2 + b.2.2))

/-- `predictRearWheels`, 905-972; the variances are those of the front wheels (948, 952). -/
def predictRear (ev : CarTerm → V × List ℚ × ℚ) (o : CarOpt) (lo hi d : Int) (speed : Int → ℚ) :
    List Meas → PredLists V → PredLists V
  | [], l => l
  | m :: ms, l =>
    if m.l < o.cutoff ∨ m.r < o.cutoff then predictRear ev o lo hi d speed ms l
    else if !inSpan lo hi d o.delayBound m then predictRear ev o lo hi d speed ms l
    else if speed (d + m.t) < 0 then predictRear ev o lo hi d speed ms l
    else
      let a := ev (.wheel m false m.l o.flwVar false)
      let b := ev (.wheel m true m.r o.frwVar false)
      predictRear ev o lo hi d speed ms (l.push (d + m.t) [a.1, b.1] (a.2.1 ++ b.2.1) (a.2.2 + b.2.2))

/-- `predictSteering`, 1020-1074. -/
def predictSteering (ev : CarTerm → V × List ℚ × ℚ) (o : CarOpt) (lo hi d : Int) (axle : Int → ℚ) :
    List Meas → PredLists V → PredLists V
  | [], l => l
  | m :: ms, l =>
    if !inSpan lo hi d o.delayBound m then predictSteering ev o lo hi d axle ms l
    else if |axle (d + m.t)| < o.linTol then predictSteering ev o lo hi d axle ms l
    else
      let r := ev (.steer m m.l o.steerVar)
      predictSteering ev o lo hi d axle ms (l.push (d + m.t) [r.1] r.2.1 r.2.2)

/-- `predict`, 288-296.  The calibrator itself is not changed (the splines are made anew by the next submission). -/
def predict (env : CarEnv E G P) (eval : Eval E V) (o : CarOpt) (s : CarCal E G P) (p : Preds V) : Res (Preds V) Unit :=
  match numSegments o.knots (s.buf .pose) with
  | none => .ub
  | some segs =>
    match env.fit s.est (s.buf .pose) segs with
    | some ex => .throw ex p
    | none =>
      let lo := tMin (s.buf .pose)
      let hi := tMax (s.buf .pose)
      let ev := eval s.est (s.buf .pose)
      .ok () fun k =>
        match k with
        | .pose => predictPoses ev (s.buf .pose) (p .pose)
        | .vel => predictVelocities ev lo hi (s.buf .vel) (p .vel)
        | .dmi => predictDMI ev o lo hi (env.delay s.est .dmi) (s.buf .dmi) (p .dmi)
        | .front => predictFront ev o lo hi (env.delay s.est .front) (env.speed s.est (s.buf .pose)) (s.buf .front) (p .front)
        | .rear => predictRear ev o lo hi (env.delay s.est .rear) (env.speed s.est (s.buf .pose)) (s.buf .rear) (p .rear)
        | .steer => predictSteering ev o lo hi (env.delay s.est .steer) (env.axleSpeed s.est (s.buf .pose)) (s.buf .steer)
            (p .steer)

end CarCal
end Verif
