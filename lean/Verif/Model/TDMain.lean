import Verif.Model.SimTD
import Verif.Model.TimeDelay

/-!
# Model of the simulation program of the time delay example

`SM` is
`/repo/incremental_calibration_examples/incremental_calibration_examples_time_delay/src/simulation/simulator.cpp`.
-/

namespace Verif
namespace SimTD
variable {E G P V : Type}

/-- the argument of `addRightWheelMeasurement`, SM 76-77.  `val` is the wheel speed as the number the calibrator stores: the
simulated values are real numbers in the model. -/
def rightMeas (val : ℝ → ℚ) (x : Int × ℝ) : TD.Meas := ⟨.right, x.1, val x.2, 0⟩

/-- the argument of `addLeftWheelMeasurement`, SM 78-79. -/
def leftMeas (val : ℝ → ℚ) (x : Int × ℝ) : TD.Meas := ⟨.left, x.1, val x.2, 0⟩

/-- the argument of `addPoseMeasurement`, SM 80-81; the payload is represented by its position in the data. -/
def poseMeas (i : Nat) (x : Int × PoseMeas) : TD.Meas := ⟨.pose, x.1, 0, i⟩

/-- the loop over the data, SM 75-82; `.at(i)` throws if there is no such element. -/
def feed (cenv : TD.Env E G P V) (o : TD.Opt) (val : ℝ → ℚ) (d : Data) :
    List Nat → Win TD.Sensor TD.Meas E G P → Res (Win TD.Sensor TD.Meas E G P) Unit
  | [], s => .ok () s
  | i :: is, s =>
    match d.rwData_n[i]? with
    | none => .throw .stdOutOfRange s
    | some rw =>
      (s.add (TD.cfg cenv o) (rightMeas val rw)).bind fun _ s1 =>
      match d.lwData_n[i]? with
      | none => .throw .stdOutOfRange s1
      | some lw =>
        (s1.add (TD.cfg cenv o) (leftMeas val lw)).bind fun _ s2 =>
        match d.poseData_n[i]? with
        | none => .throw .stdOutOfRange s2
        | some pose => (s2.add (TD.cfg cenv o) (poseMeas i pose)).bind fun _ s3 => feed cenv o val d is s3

/-- `main`, SM 38-85, from the parameters to the last submission.  The files written: `Model/SimFiles`.  `e` is
the estimator and the design variables of the new calibrator. -/
noncomputable def main (env : Env) (p : Params) (cenv : TD.Env E G P V) (o : TD.Opt) (val : ℝ → ℚ) (e : E) :
    Res (Win TD.Sensor TD.Meas E G P) Unit :=
  let s0 := Win.init (TD.cfg cenv o) e
  match simulate env p Data.empty with
  | .throw x _ => .throw x s0
  | .ub => .ub
  | .diverge => .diverge
  | .ok _ d =>
    (feed cenv o val d (List.range d.rwData_n.length) s0).bind fun _ s =>
      if TD.unprocessed s then s.addMeasurements (TD.cfg cenv o) else .ok () s

end SimTD
end Verif
